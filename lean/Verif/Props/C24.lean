/-
C24  Both codec versions agree on the types they share.
-/
import Verif.Proofs.DecRel
import Verif.Model.Chunk
import Verif.Model.Frame
import Verif.Spec.Tree
namespace Verif
open Spec

/-- Not one of the temporal types that only version 2 knows. -/
def nonTemporal : Val → Prop
  | .date _ | .clock _ _ | .localClock _ | .localTime _ _ | .time _ _ _ | .duration _ => False
  | _ => True

mutual
theorem encode_agree (env : Env) : (v : Val) → v.All nonTemporal → encode env .v1 v = encode env .v2 v
  | .nil, _ => rfl
  | .bool b, _ => by cases b <;> rfl
  | .int k n, _ => by cases k <;> simp only [encode]
  | .float32 _, _ => rfl
  | .float64 _, _ => rfl
  | .str _, _ => rfl
  | .list i vs, h => by simp only [Val.All] at h; simp only [encode, encodeItems_agree env vs h.2]
  | .map es, h => by simp only [Val.All] at h; simp only [encode, encodeEntries_agree env es h.2]
  | .struct k fs, h => by
    simp only [Val.All] at h
    cases k <;> simp only [encode, encodeFields_agree env fs h.2]
  | .date _, h => h.elim
  | .clock _ _, h => h.elim
  | .localClock _, h => h.elim
  | .localTime _ _, h => h.elim
  | .time _ _ _, h => h.elim
  | .duration _, h => h.elim
  | .other, _ => rfl

theorem encodeItems_agree (env : Env) : (vs : List Val) → AllList nonTemporal vs → encodeItems env .v1 vs = encodeItems env .v2 vs
  | [], _ => rfl
  | v :: vs, h => by simp only [encodeItems, encode_agree env v h.1, encodeItems_agree env vs h.2]

theorem encodeEntries_agree (env : Env) : (es : Entries) → AllEntries nonTemporal es → encodeEntries env .v1 es = encodeEntries env .v2 es
  | [], _ => rfl
  | (_, v) :: es, h => by simp only [encodeEntries, encode_agree env v h.1, encodeEntries_agree env es h.2]

theorem encodeFields_agree (env : Env) : (vs : List Val) → AllList nonTemporal vs → encodeFields env .v1 vs = encodeFields env .v2 vs
  | [], _ => rfl
  | v :: vs, h => by simp only [encodeFields, encode_agree env v h.1, encodeFields_agree env vs h.2]
end

/-- The encoders make the same writes, with every chunk size. -/
theorem C24_encoders_agree (env : Env) (cs : Nat) (v : Val) (h : v.All nonTemporal) : encodeMsg env .v1 cs v = encodeMsg env .v2 cs v := by
  unfold encodeMsg; rw [encode_agree env v h]

/-- The decoders return the same result on every byte string, except that version 1 reports a structure it does not know. -/
theorem C24_decoders_agree (env : Env) (b : Bytes) :
    decode env .v1 b = decode env .v2 b ∨ decode env .v1 b = .err (.new "Unrecognized type decoding struct with signature") :=
  Sim.decodeF env (b.length + 1) b

/-- The same for whole messages on any stream. -/
theorem C24_messages_agree (env : Env) (fin : StreamEnd) (segs : List Bytes) :
    decodeMsg env .v1 fin segs = decodeMsg env .v2 fin segs ∨
      ∃ r, decodeMsg env .v1 fin segs = .err (.new "Unrecognized type decoding struct with signature") r := by
  unfold decodeMsg
  cases readMsg fin segs with
  | err e s => exact .inl rfl
  | ok p s =>
    rcases C24_decoders_agree env p with h | h
    · left; dsimp only; rw [h]
    · right; refine ⟨s, ?_⟩; dsimp only; rw [h]

example : (Val.struct .node [.int .int64 1, .list true [.str [0x61]], .map [([0x62], .float64 0)]]).All nonTemporal := by
  simp [Val.All, AllList, AllEntries, nonTemporal]

/-- The exception is real: a date. -/
example (env : Env) : decode env .v1 [0xB1, 0x44, 0x01] = .err (.new "Unrecognized type decoding struct with signature") := rfl
example (env : Env) : decode env .v2 [0xB1, 0x44, 0x01] = .ok (.date 1, []) := rfl

end Verif
