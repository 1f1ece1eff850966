/-
C04  Every length that can be written can be read back: false.  Lengths are written unsigned and read signed.
-/
import Verif.Props.C01
namespace Verif
open Spec

/-- Full statement: strings, lists and maps that `Marshal` accepts come back with the same length. -/
def C04_statement : Prop :=
  ∀ (env : Env) (ver : Ver) (s : Bytes), s.length < 2 ^ 32 → (encode env ver (.str s)).2 = none →
    ∃ r, decode env ver (payload env ver (.str s)) = .ok (.str s, r)

theorem readSigned_neg {k n : Nat} (hk : 0 < k) (h1 : 2 ^ (8 * k - 1) ≤ n) (h2 : n < 256 ^ k) (r : Bytes) (msg : String) :
    ∃ z : Int, z < 0 ∧ Dec.wrapErr msg (readSigned k) (be k n ++ r) = .ok (z, r) := by
  refine ⟨toSigned k n, ?_, Dec.wrapErr_ok ?_⟩
  · unfold toSigned
    rw [if_neg (by omega)]
    have e3 : ((256 ^ k : Nat) : Int) = (2 : Int) ^ (8 * k) := by
      rw [pow256, Int.natCast_pow]; rfl
    omega
  · rw [readSigned_append hk (length_be k n), ofBE_be, Nat.mod_eq_of_lt h2]

/-- Lengths whose shortest length field has its sign bit set. -/
def unreadableLen (n : Nat) : Prop := (2 ^ 7 ≤ n ∧ n < 2 ^ 8) ∨ (2 ^ 15 ≤ n ∧ n < 2 ^ 16) ∨ (2 ^ 31 ≤ n ∧ n < 2 ^ 32)

theorem readable_or_not {n : Nat} (h : n < 2 ^ 32) : readableLen n ∨ unreadableLen n := by
  unfold readableLen unreadableLen; omega

/-- The exact set of string lengths that can be read back is `readableLen`; every other string that `Marshal` accepts makes the
decoder panic. -/
theorem C04_string_exact (env : Env) (ver : Ver) (s rest : Bytes) (h : s.length < 2 ^ 32) :
    (readableLen s.length → decode env ver (payload env ver (.str s) ++ rest) = .ok (.str s, rest)) ∧
    (unreadableLen s.length → decode env ver (payload env ver (.str s) ++ rest) = .panic) := by
  constructor
  · intro hr
    exact (decode_payload' env ver (.str s) trivial trivial hr rest).2
  · intro hu
    have hp : ∃ m k, classify m = .str k ∧ 0 < k ∧ 2 ^ (8 * k - 1) ≤ s.length ∧ s.length < 256 ^ k ∧
        payload env ver (.str s) = m :: (be k s.length ++ s) := by
      unfold payload
      rw [encode]
      unfold encodeString
      unfold unreadableLen at hu
      rcases hu with hu | hu | hu
      · refine ⟨0xD0, 1, rfl, by omega, by omega, by omega, ?_⟩
        simp only
        rw [if_neg (by omega), if_pos (by omega)]; simp [Enc.ok]
      · refine ⟨0xD1, 2, rfl, by omega, by omega, by omega, ?_⟩
        simp only
        rw [if_neg (by omega), if_neg (by omega), if_pos (by omega)]; simp [Enc.ok]
      · refine ⟨0xD2, 4, rfl, by omega, by omega, by omega, ?_⟩
        simp only
        rw [if_neg (by omega), if_neg (by omega), if_neg (by omega), if_pos (by omega)]; simp [Enc.ok]
    obtain ⟨m, k, hc, hk, h1, h2, hp⟩ := hp
    obtain ⟨z, hz, hs⟩ := readSigned_neg hk h1 h2 (s ++ rest) "An error occurred reading string size"
    unfold decode
    rw [hp, List.cons_append, List.append_assoc, decodeF, decodeBody_cons _ _ _ _ _ hc]
    simp only [decodeMarker]
    rw [Dec.bind_ok hs, Dec.bind_apply]
    unfold next
    rw [if_pos hz]

example : ∃ s : Bytes, s.length < 2 ^ 32 ∧ unreadableLen s.length := by
  refine ⟨List.replicate 128 0x61, ?_, ?_⟩ <;> simp only [List.length_replicate, unreadableLen] <;> omega

example : ∃ s : Bytes, s.length < 2 ^ 32 ∧ readableLen s.length ∧ s.length > 255 := by
  refine ⟨List.replicate 300 0x61, ?_, ?_⟩ <;> simp only [List.length_replicate, readableLen] <;> omega

/-- Lists with an unreadable number of elements make the decoder panic. -/
theorem C04_list_panics (env : Env) (ver : Ver) (i : Bool) (vs : List Val) (rest : Bytes)
    (hu : unreadableLen vs.length) : decode env ver (payload env ver (.list i vs) ++ rest) = .panic := by
  have hn : vs.length < 2 ^ 32 := by unfold unreadableLen at hu; omega
  have hp : ∃ m k, classify m = .list k ∧ 0 < k ∧ 2 ^ (8 * k - 1) ≤ vs.length ∧ vs.length < 256 ^ k ∧
      (sliceHeader vs.length).1.flatten = m :: be k vs.length := by
    unfold sliceHeader
    unfold unreadableLen at hu
    rcases hu with hu | hu | hu
    · refine ⟨0xD4, 1, rfl, by omega, by omega, by omega, ?_⟩
      rw [if_neg (by omega), if_pos (by omega)]; simp [Enc.ok]
    · refine ⟨0xD5, 2, rfl, by omega, by omega, by omega, ?_⟩
      rw [if_neg (by omega), if_neg (by omega), if_pos (by omega)]; simp [Enc.ok]
    · refine ⟨0xD6, 4, rfl, by omega, by omega, by omega, ?_⟩
      rw [if_neg (by omega), if_neg (by omega), if_neg (by omega), if_pos (by omega)]; simp [Enc.ok]
  obtain ⟨m, k, hc, hk, h1, h2, hp⟩ := hp
  have hf : payload env ver (.list i vs) = m :: (be k vs.length ++ (encodeItems env ver vs).1.flatten) := by
    unfold payload
    rw [encode, Enc.seq_flatten (sliceHeader_none.mpr hn), hp]; rfl
  obtain ⟨z, hz, hs⟩ := readSigned_neg hk h1 h2 ((encodeItems env ver vs).1.flatten ++ rest) "An error occurred reading slice size"
  unfold decode
  rw [hf, List.cons_append, List.append_assoc, decodeF, decodeBody_cons _ _ _ _ _ hc]
  simp only [decodeMarker]
  rw [Dec.bind_ok hs]
  unfold decodeSlice
  rw [if_pos hz]; rfl

/-- Such a list is accepted by the encoder. -/
theorem encodeItems_nils (env : Env) (n : Nat) : (encodeItems env .v1 (List.replicate n .nil)).2 = none := by
  induction n with
  | zero => rfl
  | succ n ih => rw [List.replicate_succ]; simp only [encodeItems, encode]; exact Enc.seq_none.mpr ⟨rfl, ih⟩

example (env : Env) : ∃ vs, (encode env .v1 (.list true vs)).2 = none ∧ unreadableLen vs.length := by
  obtain ⟨n, hn⟩ : ∃ n : Nat, n = 200 := ⟨200, rfl⟩
  have h : (List.replicate n Val.nil).length = n := List.length_replicate
  refine ⟨List.replicate n .nil, ?_, ?_⟩
  · rw [encode, Enc.seq_none, sliceHeader_none, h]
    exact ⟨by omega, encodeItems_nils env n⟩
  · rw [h]; unfold unreadableLen; omega

/-- Maps with an unreadable number of entries silently decode to the empty map; the entries are left in the buffer. -/
theorem C04_map_lost (env : Env) (ver : Ver) (es : Entries) (rest : Bytes)
    (hu : unreadableLen es.length) :
    decode env ver (payload env ver (.map es) ++ rest) = .ok (.map [], (encodeEntries env ver es).1.flatten ++ rest) := by
  have hn : es.length < 2 ^ 32 := by unfold unreadableLen at hu; omega
  have hp : ∃ m k, classify m = .map k ∧ 0 < k ∧ 2 ^ (8 * k - 1) ≤ es.length ∧ es.length < 256 ^ k ∧
      (mapHeader es.length).1.flatten = m :: be k es.length := by
    unfold mapHeader
    unfold unreadableLen at hu
    rcases hu with hu | hu | hu
    · refine ⟨0xD8, 1, rfl, by omega, by omega, by omega, ?_⟩
      rw [if_neg (by omega), if_pos (by omega)]; simp [Enc.ok]
    · refine ⟨0xD9, 2, rfl, by omega, by omega, by omega, ?_⟩
      rw [if_neg (by omega), if_neg (by omega), if_pos (by omega)]; simp [Enc.ok]
    · refine ⟨0xDA, 4, rfl, by omega, by omega, by omega, ?_⟩
      rw [if_neg (by omega), if_neg (by omega), if_neg (by omega), if_pos (by omega)]; simp [Enc.ok]
  obtain ⟨m, k, hc, hk, h1, h2, hp⟩ := hp
  have hf : payload env ver (.map es) = m :: (be k es.length ++ (encodeEntries env ver es).1.flatten) := by
    unfold payload
    rw [encode, Enc.seq_flatten (mapHeader_none.mpr hn), hp]; rfl
  obtain ⟨z, hz, hs⟩ := readSigned_neg hk h1 h2 ((encodeEntries env ver es).1.flatten ++ rest) "An error occurred reading map size"
  unfold decode
  rw [hf, List.cons_append, List.append_assoc, decodeF, decodeBody_cons _ _ _ _ _ hc]
  simp only [decodeMarker]
  rw [Dec.bind_ok hs]
  unfold decodeMap
  rw [Int.toNat_of_nonpos (by omega)]; rfl

theorem encodeEntries_nils (env : Env) (n : Nat) :
    (encodeEntries env .v1 ((List.range n).map fun i => (List.replicate i 0x61, .nil))).2 = none ∨ n ≥ 2 ^ 32 := by
  suffices h : ∀ l : List Nat, (∀ i ∈ l, i < 2 ^ 32) →
      (encodeEntries env .v1 (l.map fun i => (List.replicate i 0x61, .nil))).2 = none by
    by_cases hn : n ≥ 2 ^ 32
    · exact .inr hn
    · left; apply h; intro i hi; rw [List.mem_range] at hi; omega
  intro l
  induction l with
  | nil => intro _; rfl
  | cons i l ih =>
    intro hl
    simp only [List.map_cons, encodeEntries, encode]
    refine Enc.seq_none.mpr ⟨Enc.seq_none.mpr ⟨encodeString_none.mpr ?_, rfl⟩, ih fun j hj => hl j (by simp [hj])⟩
    rw [List.length_replicate]; exact hl i (by simp)

example (env : Env) : ∃ es : Entries, (encode env .v1 (.map es)).2 = none ∧ unreadableLen es.length := by
  obtain ⟨n, hn⟩ : ∃ n : Nat, n = 200 := ⟨200, rfl⟩
  have h : ((List.range n).map fun i => (List.replicate i (0x61 : UInt8), Val.nil)).length = n := by simp
  refine ⟨(List.range n).map fun i => (List.replicate i 0x61, .nil), ?_, ?_⟩
  · rw [encode, Enc.seq_none, mapHeader_none, h]
    exact ⟨by omega, (encodeEntries_nils env n).resolve_right (by omega)⟩
  · rw [h]; unfold unreadableLen; omega

/-- The full statement is false: a string of 128 bytes is written but makes the decoder panic. -/
theorem C04_refuted : ¬ C04_statement := by
  intro h
  obtain ⟨s, hs⟩ : ∃ s : Bytes, s.length = 128 := ⟨List.replicate 128 0x61, List.length_replicate⟩
  obtain ⟨r, h1⟩ := h ⟨fun _ => 0, fun _ => (0, 0, 0), fun _ => none⟩ .v2 s (by omega) (encodeString_none.mpr (by omega))
  have h2 := (C04_string_exact ⟨fun _ => 0, fun _ => (0, 0, 0), fun _ => none⟩ .v2 s [] (by omega)).2
    (by unfold unreadableLen; omega)
  rw [List.append_nil, h1] at h2
  cases h2

/-- What does hold: readable lengths come back, at any nesting depth (missing: the unreadable lengths above). -/
theorem C04_lengths_partial (env : Env) (ver : Ver) (v : Val) (hd : v.All (decodable ver)) (hi : v.All intsInRange)
    (hr : v.All readable) (rest : Bytes) :
    decode env ver (payload env ver v ++ rest) = .ok (canon env v, rest) := (decode_payload' env ver v hd hi hr rest).2

example : ∃ s : Bytes, s.length = 300 ∧ (Val.list true [.str s, .map []]).All (decodable .v1) ∧
    (Val.list true [.str s, .map []]).All intsInRange ∧ (Val.list true [.str s, .map []]).All readable := by
  refine ⟨List.replicate 300 0x61, List.length_replicate, ?_, ?_, ?_⟩
  · simp [Val.All, AllList, AllEntries, decodable]
  · simp [Val.All, AllList, AllEntries, intsInRange]
  · simp only [Val.All, AllList, AllEntries, readable, List.length_replicate, readableLen, List.length_cons,
      List.length_nil, List.not_mem_nil]
    refine ⟨by omega, by omega, ⟨⟨by omega, by simp⟩, trivial⟩, trivial⟩

end Verif
