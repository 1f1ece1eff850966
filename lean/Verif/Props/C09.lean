/-
C09  Long strings are transmitted whole.

False: every string of more than 131065 bytes is corrupted (`C09_all_long_strings_lost`), because `Write` emits at most one chunk and `flush`
truncates the length of the remaining bytes to 16 bits.  Up to that length strings arrive (`C09_two_chunks_partial`).
-/
import Verif.Proofs.StrInv
import Verif.Proofs.Supported
import Verif.Props.C01
import Verif.Proofs.ValEq
namespace Verif
open Spec

/-- The property. -/
def C09_statement : Prop := ∀ (env : Env) (ver : Ver) (s : Bytes), s.length < 2 ^ 31 → (marshal env ver (.str s)).2 = none →
  readableLen s.length → unmarshal env ver (marshal env ver (.str s)).1 = .ok (.str s)

theorem encodeString_big {s : Bytes} (h : 65535 < s.length) (h2 : s.length ≤ 4294967295) : encodeString s = .ok [[0xD2], be 4 s.length, s] := by
  unfold encodeString
  simp only
  rw [if_neg (by omega), if_neg (by omega), if_neg (by omega), if_pos (by omega)]

theorem chunk_big {s : Bytes} (h : 65535 < s.length) :
    (chunkWrites 65535 ⟨[], []⟩ [[0xD2], be 4 s.length, s]).buf.length = s.length + 5 - 65535 ∧
      (flush (chunkWrites 65535 ⟨[], []⟩ [[0xD2], be 4 s.length, s])).flatten.length = s.length + 11 := by
  have e : chunkWrites 65535 ⟨[], []⟩ [[0xD2], be 4 s.length, s] =
      ⟨([0xD2] ++ be 4 s.length ++ s).drop 65535, [be 2 65535, ([0xD2] ++ be 4 s.length ++ s).take 65535]⟩ := by
    unfold chunkWrites
    simp only [List.foldl_cons, List.foldl_nil]
    have e1 : chunkWrite 65535 ⟨[], []⟩ [0xD2] = ⟨[0xD2], []⟩ := by
      unfold chunkWrite; rw [if_neg (by simp)]; rfl
    have e2 : chunkWrite 65535 ⟨[0xD2], []⟩ (be 4 s.length) = ⟨[0xD2] ++ be 4 s.length, []⟩ := by
      unfold chunkWrite; rw [if_neg (by simp)]
    rw [e1, e2]
    unfold chunkWrite
    rw [if_pos (by simp; omega)]
    rfl
  rw [e]
  have hl : ([0xD2] ++ be 4 s.length ++ s).length = s.length + 5 := by simp; omega
  refine ⟨by rw [List.length_drop, hl], ?_⟩
  unfold flush
  rw [if_pos (by simp only [List.length_drop, hl]; omega)]
  simp only [List.flatten_append, List.flatten_cons, List.flatten_nil, List.length_append, List.length_nil, List.length_cons, length_be,
    List.length_take, List.length_drop, hl]
  omega

/-- No string longer than 131065 bytes survives Marshal and Unmarshal, whatever its content. -/
theorem C09_all_long_strings_lost (env : Env) (ver : Ver) (s : Bytes) (h : 131065 < s.length) (h2 : s.length ≤ 4294967295) :
    (marshal env ver (.str s)).2 = none ∧ unmarshal env ver (marshal env ver (.str s)).1 ≠ .ok (.str s) := by
  have he : encode env ver (.str s) = .ok [[0xD2], be 4 s.length, s] := by simp only [encode]; exact encodeString_big (by omega) h2
  have hn : (encode env ver (.str s)).2 = none := by rw [he]; rfl
  have hm : marshal env ver (.str s) = ((flush (chunkWrites 65535 ⟨[], []⟩ [[0xD2], be 4 s.length, s])).flatten, none) := by
    unfold marshal
    rw [encodeMsg_ok hn, he]; rfl
  rw [hm]
  refine ⟨rfl, fun hu => ?_⟩
  obtain ⟨p, r, q, hp, hd⟩ := unmarshal_inv hu
  obtain ⟨k, h3, h4⟩ := readFlat_count _ _ _ _ _ _ hp (by omega)
  have hlen := (chunk_big (s := s) (by omega)).2
  dsimp only at h3 h4
  rw [hlen] at h4
  simp only [List.length_nil, Nat.zero_add] at h3 h4
  obtain ⟨hdr, rfl, hw⟩ := decodeBody_str_inv env ver (show decodeBody env ver (decodeF env ver p.length) p = .ok (.str s, q) from hd)
  simp only [List.length_append] at h3 h4
  rcases hw with ⟨_, hw⟩ | ⟨w, hw, hl, hs⟩
  · omega
  · rcases hw with rfl | rfl | rfl
    · simp at hs; omega
    · simp at hs; omega
    · omega

/-- Strings that fit two chunks are transmitted whole. -/
theorem C09_two_chunks_partial (env : Env) (ver : Ver) (s : Bytes) (hr : readableLen s.length) (h : s.length ≤ 131065) :
    (marshal env ver (.str s)).2 = none ∧ unmarshal env ver (marshal env ver (.str s)).1 = .ok (.str s) := by
  by_cases h1 : s.length ≤ 65535
  · exact C01_roundtrip env ver (.str s) trivial trivial hr h1
  · have he : encode env ver (.str s) = .ok [[0xD2], be 4 s.length, s] := by simp only [encode]; exact encodeString_big (by omega) (by omega)
    have hn : (encode env ver (.str s)).2 = none := by rw [he]; rfl
    have hd := (decode_payload' env ver (.str s) trivial trivial hr []).2
    have hf : Framed (payload env ver (.str s)) (marshal env ver (.str s)).1 := by
      unfold marshal payload
      rw [encodeMsg_ok hn, he]
      refine flush_framed (by omega) (by omega) _ ?_
      show (chunkWrites 65535 ⟨[], []⟩ [[0xD2], be 4 s.length, s]).buf.length ≤ 65535
      rw [(chunk_big (s := s) (by omega)).1]; omega
    rw [List.append_nil] at hd
    refine ⟨?_, unmarshal_framed env ver hf hd⟩
    unfold marshal; rw [encodeMsg_ok hn]

theorem C09_refuted : ¬ C09_statement := by
  intro h
  obtain ⟨n, hn⟩ : ∃ n : Nat, n = 131066 := ⟨_, rfl⟩
  have hl : (List.replicate n (0x61 : UInt8)).length = n := List.length_replicate
  obtain ⟨h1, h2⟩ := C09_all_long_strings_lost env0 .v2 (List.replicate n 0x61) (by omega) (by omega)
  exact h2 (h env0 .v2 _ (by omega) h1 (by unfold readableLen; omega))

example : readableLen 131065 ∧ ¬ (131065 : Nat) ≤ 65535 := by unfold readableLen; omega

end Verif
