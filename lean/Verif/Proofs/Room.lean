/-
The encoder does not produce more bytes than `room` says, whether or not it succeeds.
-/
import Verif.Model.Encode
import Verif.Spec.Room
import Verif.Proofs.Bytes
namespace Verif
open Spec

/-- At most `n` bytes were written. -/
def Within (n : Nat) (e : Enc) : Prop := e.1.flatten.length ≤ n

theorem Within.mono {m n : Nat} {e : Enc} (h : Within m e) (hmn : m ≤ n) : Within n e := Nat.le_trans h hmn

theorem Within.err {n : Nat} {e : Err} : Within n ([], some e) := Nat.zero_le _

theorem Within.seq {m n : Nat} {a b : Enc} (ha : Within m a) (hb : Within n b) : Within (m + n) (a.seq b) := by
  unfold Within Enc.seq at *
  split
  · exact Nat.le_trans ha (Nat.le_add_right _ _)
  · simp only [List.flatten_append, List.length_append]; omega

theorem Within.encodeInt (n : Int) : Within 9 (encodeInt n) := by
  unfold Verif.encodeInt
  repeat' split
  all_goals first | exact Within.err | simp [Within, Enc.ok]

theorem Within.encodeFloat (b : UInt64) : Within 9 (encodeFloat b) := by simp [Within, Verif.encodeFloat, Enc.ok]

theorem Within.encodeString (s : Bytes) : Within (5 + s.length) (encodeString s) := by
  unfold Verif.encodeString
  simp only
  repeat' split
  all_goals first | exact Within.err | (simp [Within, Enc.ok]; omega)

theorem Within.sliceHeader (n : Nat) : Within 5 (sliceHeader n) := by
  unfold Verif.sliceHeader
  repeat' split
  all_goals first | exact Within.err | simp [Within, Enc.ok]

theorem Within.mapHeader (n : Nat) : Within 5 (mapHeader n) := by
  unfold Verif.mapHeader
  repeat' split
  all_goals first | exact Within.err | simp [Within, Enc.ok]

theorem Within.structHeader (n : Nat) : Within 5 (structHeader n) := by
  unfold Verif.structHeader
  repeat' split
  all_goals first | exact Within.err | simp [Within, Enc.ok]

theorem Within.one (x : UInt8) : Within 1 (.ok [[x]]) := by simp [Within, Enc.ok]
theorem Within.two (x y : UInt8) : Within 2 (.ok [[x], [y]]) := by simp [Within, Enc.ok]

mutual
theorem encode_within (env : Env) (ver : Ver) : (v : Val) → Within (room v) (encode env ver v)
  | .nil => Within.one _
  | .bool true => Within.one _
  | .bool false => Within.one _
  | .int k n => by
    cases k <;> simp only [encode] <;> first
      | exact Within.encodeInt _
      | (split
         · exact Within.err
         · exact Within.encodeInt _)
  | .float32 b => Within.encodeFloat _
  | .float64 b => Within.encodeFloat _
  | .str s => Within.encodeString s
  | .list i vs => by
    simp only [encode]
    exact Within.seq (Within.sliceHeader _) (encodeItems_within env ver vs)
  | .map es => by
    simp only [encode]
    exact Within.seq (Within.mapHeader _) (encodeEntries_within env ver es)
  | .struct k fs => by
    have hf := encodeFields_within env ver fs
    have hg : Within (6 + roomList fs) (if k.isStructure then ((structHeader fs.length).seq (.ok [[k.sig]])).seq (encodeFields env ver fs) else unrecognized) := by
      split
      · exact Within.seq (Within.seq (Within.structHeader _) (Within.one _)) hf
      · exact Within.err
    cases k
    case discard => exact (Within.seq (Within.structHeader _) (Within.one _)).mono (by simp only [room]; omega)
    all_goals exact hg
  | .date d => by
    cases ver
    · exact Within.err
    · exact (Within.seq (Within.two _ _) (Within.encodeInt _)).mono (by simp [room])
  | .clock n o => by
    cases ver
    · exact Within.err
    · exact (Within.seq (Within.seq (Within.two _ _) (Within.encodeInt _)) (Within.encodeInt _)).mono (by simp [room])
  | .localClock n => by
    cases ver
    · exact Within.err
    · exact (Within.seq (Within.two _ _) (Within.encodeInt _)).mono (by simp [room])
  | .localTime s n => by
    cases ver
    · exact Within.err
    · exact (Within.seq (Within.seq (Within.two _ _) (Within.encodeInt _)) (Within.encodeInt _)).mono (by simp [room])
  | .time s n o => by
    cases ver
    · exact Within.err
    · exact (Within.seq (Within.seq (Within.seq (Within.two _ _) (Within.encodeInt _)) (Within.encodeInt _)) (Within.encodeInt _)).mono (by simp [room])
  | .duration d => by
    cases ver
    · exact Within.err
    · exact (Within.seq (Within.seq (Within.seq (Within.seq (Within.two _ _) (Within.encodeFloat _)) (Within.encodeFloat _)) (Within.encodeFloat _))
        (Within.encodeInt _)).mono (by simp [room])
  | .other => Within.err

theorem encodeItems_within (env : Env) (ver : Ver) : (vs : List Val) → Within (roomList vs) (encodeItems env ver vs)
  | [] => Nat.zero_le _
  | v :: vs => by
    simp only [encodeItems, roomList]
    exact Within.seq (encode_within env ver v) (encodeItems_within env ver vs)

theorem encodeEntries_within (env : Env) (ver : Ver) : (es : Entries) → Within (roomEntries es) (encodeEntries env ver es)
  | [] => Nat.zero_le _
  | (k, v) :: es => by
    simp only [encodeEntries, roomEntries]
    exact Within.seq (Within.seq (Within.encodeString k) (encode_within env ver v)) (encodeEntries_within env ver es)

theorem encodeFields_within (env : Env) (ver : Ver) : (vs : List Val) → Within (roomList vs) (encodeFields env ver vs)
  | [] => Nat.zero_le _
  | v :: vs => by
    simp only [encodeFields, roomList]
    exact Within.seq (encode_within env ver v) (encodeFields_within env ver vs)
end

end Verif
