/-
C12  Decoding always terminates.

The recursion of `decode` is modelled with fuel (maximal nesting of calls) and the loops of `read` with fuel (number of chunks).  The
theorems show that fuel proportional to the input never runs out and that more fuel never changes the result, i.e. the Go recursion
and loops are finite on every input.
-/
import Verif.Proofs.DecRel
import Verif.Proofs.Framing
namespace Verif

/-- Payload decoding: the number of nested calls is at most the number of bytes plus one, on every byte string. -/
theorem C12_decode_terminates (env : Env) (ver : Ver) (b : Bytes) (n : Nat) (h : b.length < n) :
    decodeF env ver n b ≠ .fuel ∧ decodeF env ver n b = decode env ver b :=
  ⟨(decodeF_rel env ver n n b h h).2.1, (decode_eq_decodeF env ver h).symm⟩

/-- Every decoded value consumes at least one byte (so lists and maps of any announced size stop at the end of the input). -/
theorem C12_decode_consumes (env : Env) (ver : Ver) (b r : Bytes) (v : Val) (h : decode env ver b = .ok (v, r)) :
    r.length < b.length := (decodeF_rel env ver (b.length + 1) (b.length + 1) b (by omega) (by omega)).2.2 v r h

/-- Reading chunks: the number of chunks read is bounded by the number of bytes in the stream; extra fuel changes nothing. -/
theorem readFlat_fuel (fin : StreamEnd) : (n m : Nat) → (out s : Bytes) → s.length < n → s.length < m →
    readFlat fin n out s = readFlat fin m out s
  | 0, m, out, s, h, _ => by omega
  | n + 1, 0, out, s, _, h => by omega
  | n + 1, m + 1, out, s, hn, hm => by
    unfold readFlat
    by_cases h1 : s.length < 2
    · rw [if_pos h1, if_pos h1]
    · rw [if_neg h1, if_neg h1]
      by_cases h2 : ofBE (s.take 2) = 0
      · rw [if_pos h2, if_pos h2]
      · rw [if_neg h2, if_neg h2]
        by_cases h3 : ofBE (s.take 2) ≤ (s.drop 2).length
        · rw [if_pos h3, if_pos h3]
          apply readFlat_fuel <;> simp only [List.length_drop] <;> omega
        · rw [if_neg h3, if_neg h3]

/-- Reading a message ends after at most as many chunks as there are bytes: with more fuel the outcome is the same, on every stream. -/
theorem C12_read_terminates (fin : StreamEnd) (segs : List Bytes) (n : Nat) (h : streamLen segs < n) :
    (readMsgF fin n [] segs).flat = (readMsg fin segs).flat := by
  rw [readMsgF_flat, readMsg_flat]
  rw [streamLen_eq] at h
  exact readFlat_fuel fin _ _ [] _ h (by omega)

/-- Hence `Decode` never runs out of fuel. -/
theorem C12_decodeMsg_terminates (env : Env) (ver : Ver) (fin : StreamEnd) (segs : List Bytes) : decodeMsg env ver fin segs ≠ .fuel := by
  unfold decodeMsg
  split
  · simp
  · rename_i b s _
    have := (C12_decode_terminates env ver b (b.length + 1) (by omega)).1
    unfold decode
    split <;> simp_all

/-- Ten nested lists need eleven nested calls: ten are not enough. -/
def outOfFuel : Res (Val × Bytes) → Bool
  | .fuel => true
  | _ => false

example : outOfFuel (decodeF ⟨fun _ => 0, fun _ => (0, 0, 0), fun _ => none⟩ .v1 10 (List.replicate 10 0x91 ++ [0xC0])) = true ∧
    outOfFuel (decodeF ⟨fun _ => 0, fun _ => (0, 0, 0), fun _ => none⟩ .v1 11 (List.replicate 10 0x91 ++ [0xC0])) = false := by
  decide +kernel

example : ([0x91, 0xC0, 0x05] : Bytes).length < 4 := by decide

example (env : Env) : ∃ v, decode env .v2 [0x91, 0x01, 0x05] = .ok (v, [0x05]) :=
  ⟨.list true [.int .int64 1], decode_enc env .v2 (t := .list [.int 1]) rfl
    ⟨[0x91], [0x01], .inl ⟨by decide, rfl⟩, ⟨[0x01], [], .inl ⟨by decide, by decide, 1, rfl, by decide⟩, rfl, rfl⟩, rfl⟩ [0x05]⟩

example : streamLen [[0x00], [0x01, 0xC0, 0x00], [0x00]] < 6 := by decide

end Verif
