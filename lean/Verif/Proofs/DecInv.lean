/-
Inversion lemmas: what a successful decoding step tells about its input.
-/
import Verif.Proofs.DecRel
namespace Verif
open Spec

theorem Dec.bind_eq_ok {α β : Type} {m : Dec α} {f : α → Dec β} {b r : Bytes} {x : β} :
    (m >>= f) b = .ok (x, r) ↔ ∃ a b', m b = .ok (a, b') ∧ f a b' = .ok (x, r) := by
  rw [Dec.bind_apply]
  constructor
  · intro h
    cases h1 : m b with
    | ok p => obtain ⟨a, b'⟩ := p; rw [h1] at h; exact ⟨a, b', rfl, h⟩
    | err e => rw [h1] at h; cases h
    | panic => rw [h1] at h; cases h
    | fuel => rw [h1] at h; cases h
  · rintro ⟨a, b', h1, h2⟩; rw [h1]; exact h2

theorem Dec.pure_eq_ok {α : Type} {a x : α} {b r : Bytes} : (Pure.pure a : Dec α) b = .ok (x, r) ↔ a = x ∧ b = r := by
  rw [Dec.pure_apply]; simp

theorem Dec.fail_eq_ok {α : Type} {e : Err} {x : α} {b r : Bytes} : (Dec.fail e : Dec α) b = .ok (x, r) ↔ False := by
  simp [Dec.fail]

theorem Dec.panic_eq_ok {α : Type} {x : α} {b r : Bytes} : (Dec.panic : Dec α) b = .ok (x, r) ↔ False := by
  simp [Dec.panic]

theorem Dec.wrapErr_eq_ok {α : Type} {msg : String} {m : Dec α} {x : α} {b r : Bytes} :
    Dec.wrapErr msg m b = .ok (x, r) ↔ m b = .ok (x, r) := by
  unfold Dec.wrapErr
  cases m b <;> simp

theorem readByte_eq_ok {x : UInt8} {b r : Bytes} : readByte b = .ok (x, r) ↔ b = x :: r := by
  cases b <;> simp [readByte]

theorem mustInt64_eq_ok {v : Val} {n : Int} {b r : Bytes} : mustInt64 v b = .ok (n, r) ↔ v = .int .int64 n ∧ b = r := by
  unfold mustInt64; split
  · rw [Dec.pure_eq_ok]; simp
  · rename_i h; rw [Dec.panic_eq_ok]; simp only [false_iff]; rintro ⟨rfl, _⟩; exact h _ rfl

theorem needInt64_eq_ok {v : Val} {n : Int} {b r : Bytes} : needInt64 v b = .ok (n, r) ↔ v = .int .int64 n ∧ b = r := by
  unfold needInt64; split
  · rw [Dec.pure_eq_ok]; simp
  · rename_i h; rw [Dec.fail_eq_ok]; simp only [false_iff]; rintro ⟨rfl, _⟩; exact h _ rfl

theorem needFloat_eq_ok {v : Val} {n : UInt64} {b r : Bytes} : needFloat v b = .ok (n, r) ↔ v = .float64 n ∧ b = r := by
  unfold needFloat; split
  · rw [Dec.pure_eq_ok]; simp
  · rename_i h; rw [Dec.fail_eq_ok]; simp only [false_iff]; rintro ⟨rfl, _⟩; exact h _ rfl

theorem needStr_eq_ok {v : Val} {s : Bytes} {b r : Bytes} : needStr v b = .ok (s, r) ↔ v = .str s ∧ b = r := by
  unfold needStr; split
  · rw [Dec.pure_eq_ok]; simp
  · rename_i h; rw [Dec.fail_eq_ok]; simp only [false_iff]; rintro ⟨rfl, _⟩; exact h _ rfl

theorem needMap_eq_ok {v : Val} {m : Entries} {b r : Bytes} : needMap v b = .ok (m, r) ↔ v = .map m ∧ b = r := by
  unfold needMap; split
  · rw [Dec.pure_eq_ok]; simp
  · rename_i h; rw [Dec.fail_eq_ok]; simp only [false_iff]; rintro ⟨rfl, _⟩; exact h _ rfl

theorem needList_eq_ok {v : Val} {vs : List Val} {b r : Bytes} : needList v b = .ok (vs, r) ↔ v = .list true vs ∧ b = r := by
  unfold needList; split
  · rw [Dec.pure_eq_ok]; simp
  · rename_i h; rw [Dec.fail_eq_ok]; simp only [false_iff]; rintro ⟨rfl, _⟩; exact h _ rfl

theorem sliceToString_eq_ok : (vs : List Val) → (ws : List Val) → (b r : Bytes) → sliceToString vs b = .ok (ws, r) →
    ws = vs ∧ vs.all isStr = true ∧ b = r
  | [], ws, b, r, h => by rw [sliceToString, Dec.pure_eq_ok] at h; obtain ⟨rfl, rfl⟩ := h; simp
  | v :: vs, ws, b, r, h => by
    cases v <;> simp only [sliceToString, Dec.fail_eq_ok] at h
    simp only [Dec.bind_eq_ok, Dec.pure_eq_ok] at h
    obtain ⟨ws', b', h1, rfl, rfl⟩ := h
    obtain ⟨rfl, h2, rfl⟩ := sliceToString_eq_ok vs ws' b b' h1
    simpa [isStr] using h2

theorem sliceToInt_eq_ok : (vs : List Val) → (ws : List Val) → (b r : Bytes) → sliceToInt vs b = .ok (ws, r) →
    toInts vs = some ws ∧ b = r
  | [], ws, b, r, h => by rw [sliceToInt, Dec.pure_eq_ok] at h; obtain ⟨rfl, rfl⟩ := h; simp [toInts]
  | v :: vs, ws, b, r, h => by
    cases v <;> try (simp only [sliceToInt, Dec.panic_eq_ok] at h)
    rename_i k n
    cases k <;> simp only [sliceToInt, Dec.panic_eq_ok] at h
    simp only [Dec.bind_eq_ok, Dec.pure_eq_ok] at h
    obtain ⟨ws', b', h1, rfl, rfl⟩ := h
    obtain ⟨h2, rfl⟩ := sliceToInt_eq_ok vs ws' b b' h1
    simp [toInts, h2]

theorem sliceToNode_eq_ok : (vs : List Val) → (ws : List Val) → (b r : Bytes) → sliceToNode vs b = .ok (ws, r) →
    ws = vs ∧ vs.all isNode = true ∧ b = r
  | [], ws, b, r, h => by rw [sliceToNode, Dec.pure_eq_ok] at h; obtain ⟨rfl, rfl⟩ := h; simp
  | v :: vs, ws, b, r, h => by
    cases v <;> try (simp only [sliceToNode, Dec.fail_eq_ok] at h)
    rename_i k n
    cases k <;> simp only [sliceToNode, Dec.fail_eq_ok] at h
    simp only [Dec.bind_eq_ok, Dec.pure_eq_ok] at h
    obtain ⟨ws', b', h1, rfl, rfl⟩ := h
    obtain ⟨rfl, h2, rfl⟩ := sliceToNode_eq_ok vs ws' b b' h1
    simpa [isNode] using h2

theorem sliceToURel_eq_ok : (vs : List Val) → (ws : List Val) → (b r : Bytes) → sliceToURel vs b = .ok (ws, r) →
    ws = vs ∧ vs.all isURel = true ∧ b = r
  | [], ws, b, r, h => by rw [sliceToURel, Dec.pure_eq_ok] at h; obtain ⟨rfl, rfl⟩ := h; simp
  | v :: vs, ws, b, r, h => by
    cases v <;> try (simp only [sliceToURel, Dec.fail_eq_ok] at h)
    rename_i k n
    cases k <;> simp only [sliceToURel, Dec.fail_eq_ok] at h
    simp only [Dec.bind_eq_ok, Dec.pure_eq_ok] at h
    obtain ⟨ws', b', h1, rfl, rfl⟩ := h
    obtain ⟨rfl, h2, rfl⟩ := sliceToURel_eq_ok vs ws' b b' h1
    simpa [isURel] using h2

theorem decodeN_cons {dec : Dec Val} {n : Nat} {v : Val} {vs : List Val} {b b' r : Bytes} (h1 : dec b = .ok (v, b'))
    (h2 : decodeN dec n b' = .ok (vs, r)) : decodeN dec (n + 1) b = .ok (v :: vs, r) := by
  rw [decodeN, Dec.bind_eq_ok]
  exact ⟨v, b', h1, Dec.bind_eq_ok.mpr ⟨vs, r, h2, rfl⟩⟩

theorem fields_cons {dec : Dec Val} {v : Val} {vs : List Val} {b b' r : Bytes} (h1 : dec b = .ok (v, b'))
    (h2 : decodeN dec vs.length b' = .ok (vs, r)) : decodeN dec (v :: vs).length b = .ok (v :: vs, r) := decodeN_cons h1 h2

theorem fields_nil {dec : Dec Val} {b : Bytes} : decodeN dec ([] : List Val).length b = .ok ([], b) := rfl

theorem decodeN_nil {dec : Dec Val} {b : Bytes} : decodeN dec 0 b = .ok ([], b) := rfl

theorem ite_eq_cases {α : Type} {c : Prop} [Decidable c] {m f : Dec α} {b : Bytes} {x : Res (α × Bytes)}
    (h : (if c then m else f) b = x) : (c ∧ m b = x) ∨ (¬ c ∧ f b = x) := by
  by_cases hc : c
  · rw [if_pos hc] at h; exact .inl ⟨hc, h⟩
  · rw [if_neg hc] at h; exact .inr ⟨hc, h⟩

/-- A successfully decoded structure: its fields were decoded one after the other, and the value is determined by them.  (DateTime
and Duration need not be described by `structOf`; their results are plain scalars.) -/
theorem decodeStruct_inv (env : Env) (ver : Ver) {dec : Dec Val} {b r : Bytes} {v : Val} (h : decodeStruct env ver dec b = .ok (v, r)) :
    ∃ sig b' fs, b = sig :: b' ∧ decodeN dec fs.length b' = .ok (fs, r) ∧
      (structOf env ver sig fs = some v ∨ (∃ s n o, v = .time s n o) ∨ ∃ d, v = .duration d) := by
  unfold decodeStruct at h
  rw [Dec.bind_eq_ok] at h
  obtain ⟨sig, b', h1, h⟩ := h
  rw [Dec.wrapErr_eq_ok, readByte_eq_ok] at h1
  subst h1
  refine ⟨sig, b', ?_⟩
  replace h := ite_eq_cases h
  rcases h with ⟨hs, h⟩ | ⟨-, h⟩
  · subst hs
    unfold decodeNode at h
    simp only [Dec.bind_eq_ok, Dec.pure_eq_ok, mustInt64_eq_ok, needList_eq_ok, needMap_eq_ok] at h
    obtain ⟨v1, b1, d1, id, _, ⟨rfl, rfl⟩, v2, b2, d2, ls, _, ⟨rfl, rfl⟩, ls', _, h3, v3, b4, d3, m, _, ⟨rfl, rfl⟩, rfl, rfl⟩ := h
    obtain ⟨rfl, h4, rfl⟩ := sliceToString_eq_ok _ _ _ _ h3
    exact ⟨_, rfl, fields_cons d1 (fields_cons d2 (fields_cons d3 fields_nil)), .inl (by simp [structOf, h4])⟩
  replace h := ite_eq_cases h
  rcases h with ⟨hs, h⟩ | ⟨-, h⟩
  · subst hs
    unfold decodeRelationship at h
    simp only [Dec.bind_eq_ok, Dec.pure_eq_ok, mustInt64_eq_ok, needStr_eq_ok, needMap_eq_ok] at h
    obtain ⟨v1, b1, d1, id, _, ⟨rfl, rfl⟩, v2, b2, d2, s, _, ⟨rfl, rfl⟩, v3, b3, d3, e, _, ⟨rfl, rfl⟩, v4, b4, d4, t, _, ⟨rfl, rfl⟩,
      v5, b5, d5, m, _, ⟨rfl, rfl⟩, rfl, rfl⟩ := h
    exact ⟨_, rfl, fields_cons d1 (fields_cons d2 (fields_cons d3 (fields_cons d4 (fields_cons d5 fields_nil)))),
      .inl (by simp [structOf])⟩
  replace h := ite_eq_cases h
  rcases h with ⟨hs, h⟩ | ⟨-, h⟩
  · subst hs
    unfold decodePath at h
    simp only [Dec.bind_eq_ok, Dec.pure_eq_ok, needList_eq_ok] at h
    obtain ⟨v1, b1, d1, ns, _, ⟨rfl, rfl⟩, ns', _, h1, v2, b2, d2, rs, _, ⟨rfl, rfl⟩, rs', _, h2, v3, b3, d3, ss, _, ⟨rfl, rfl⟩, ss', _, h3,
      rfl, rfl⟩ := h
    obtain ⟨rfl, h1', rfl⟩ := sliceToNode_eq_ok _ _ _ _ h1
    obtain ⟨rfl, h2', rfl⟩ := sliceToURel_eq_ok _ _ _ _ h2
    obtain ⟨h3', rfl⟩ := sliceToInt_eq_ok _ _ _ _ h3
    exact ⟨_, rfl, fields_cons d1 (fields_cons d2 (fields_cons d3 fields_nil)), .inl (by simp [structOf, h1', h2', h3'])⟩
  replace h := ite_eq_cases h
  rcases h with ⟨hs, h⟩ | ⟨-, h⟩
  · subst hs
    unfold decodeUnboundRelationship at h
    simp only [Dec.bind_eq_ok, Dec.pure_eq_ok, mustInt64_eq_ok, needStr_eq_ok, needMap_eq_ok] at h
    obtain ⟨v1, b1, d1, id, _, ⟨rfl, rfl⟩, v2, b2, d2, t, _, ⟨rfl, rfl⟩, v3, b3, d3, m, _, ⟨rfl, rfl⟩, rfl, rfl⟩ := h
    exact ⟨_, rfl, fields_cons d1 (fields_cons d2 (fields_cons d3 fields_nil)), .inl (by simp [structOf])⟩
  replace h := ite_eq_cases h
  rcases h with ⟨hs, h⟩ | ⟨-, h⟩
  · obtain ⟨rfl, rfl⟩ := hs
    unfold decodePoint2D at h
    simp only [Dec.bind_eq_ok, Dec.pure_eq_ok, needInt64_eq_ok, needFloat_eq_ok] at h
    obtain ⟨v1, b1, d1, id, _, ⟨rfl, rfl⟩, v2, b2, d2, t, _, ⟨rfl, rfl⟩, v3, b3, d3, m, _, ⟨rfl, rfl⟩, rfl, rfl⟩ := h
    exact ⟨_, rfl, fields_cons d1 (fields_cons d2 (fields_cons d3 fields_nil)), .inl (by simp [structOf])⟩
  replace h := ite_eq_cases h
  rcases h with ⟨hs, h⟩ | ⟨-, h⟩
  · obtain ⟨rfl, rfl⟩ := hs
    unfold decodePoint3D at h
    simp only [Dec.bind_eq_ok, Dec.pure_eq_ok, needInt64_eq_ok, needFloat_eq_ok] at h
    obtain ⟨v1, b1, d1, id, _, ⟨rfl, rfl⟩, v2, b2, d2, t, _, ⟨rfl, rfl⟩, v3, b3, d3, m, _, ⟨rfl, rfl⟩, v4, b4, d4, z, _, ⟨rfl, rfl⟩, rfl, rfl⟩ := h
    exact ⟨_, rfl, fields_cons d1 (fields_cons d2 (fields_cons d3 (fields_cons d4 fields_nil))), .inl (by simp [structOf])⟩
  replace h := ite_eq_cases h
  rcases h with ⟨hs, h⟩ | ⟨-, h⟩
  · subst hs
    unfold decodeRecord at h
    simp only [Dec.bind_eq_ok, Dec.pure_eq_ok, needList_eq_ok] at h
    obtain ⟨v1, b1, d1, ns, _, ⟨rfl, rfl⟩, rfl, rfl⟩ := h
    exact ⟨_, rfl, fields_cons d1 fields_nil, .inl (by simp [structOf])⟩
  replace h := ite_eq_cases h
  rcases h with ⟨hs, h⟩ | ⟨-, h⟩
  · subst hs
    unfold decodeFailure at h
    simp only [Dec.bind_eq_ok, Dec.pure_eq_ok, needMap_eq_ok] at h
    obtain ⟨v1, b1, d1, ns, _, ⟨rfl, rfl⟩, rfl, rfl⟩ := h
    exact ⟨_, rfl, fields_cons d1 fields_nil, .inl (by simp [structOf])⟩
  replace h := ite_eq_cases h
  rcases h with ⟨hs, h⟩ | ⟨-, h⟩
  · subst hs
    rw [Dec.pure_eq_ok] at h; obtain ⟨rfl, rfl⟩ := h
    exact ⟨[], rfl, fields_nil, .inl (by simp [structOf])⟩
  replace h := ite_eq_cases h
  rcases h with ⟨hs, h⟩ | ⟨-, h⟩
  · subst hs
    unfold decodeSuccess at h
    simp only [Dec.bind_eq_ok, Dec.pure_eq_ok, needMap_eq_ok] at h
    obtain ⟨v1, b1, d1, ns, _, ⟨rfl, rfl⟩, rfl, rfl⟩ := h
    exact ⟨_, rfl, fields_cons d1 fields_nil, .inl (by simp [structOf])⟩
  replace h := ite_eq_cases h
  rcases h with ⟨hs, h⟩ | ⟨-, h⟩
  · subst hs
    rw [Dec.pure_eq_ok] at h; obtain ⟨rfl, rfl⟩ := h
    exact ⟨[], rfl, fields_nil, .inl (by simp [structOf])⟩
  replace h := ite_eq_cases h
  rcases h with ⟨hs, h⟩ | ⟨-, h⟩
  · subst hs
    rw [Dec.pure_eq_ok] at h; obtain ⟨rfl, rfl⟩ := h
    exact ⟨[], rfl, fields_nil, .inl (by simp [structOf])⟩
  replace h := ite_eq_cases h
  rcases h with ⟨hs, h⟩ | ⟨-, h⟩
  · subst hs
    rw [Dec.pure_eq_ok] at h; obtain ⟨rfl, rfl⟩ := h
    exact ⟨[], rfl, fields_nil, .inl (by simp [structOf])⟩
  replace h := ite_eq_cases h
  rcases h with ⟨hs, h⟩ | ⟨-, h⟩
  · obtain ⟨rfl, rfl⟩ := hs
    unfold decodeDate at h
    simp only [Dec.bind_eq_ok, Dec.pure_eq_ok, needInt64_eq_ok] at h
    obtain ⟨v1, b1, d1, ns, _, ⟨rfl, rfl⟩, rfl, rfl⟩ := h
    exact ⟨_, rfl, fields_cons d1 fields_nil, .inl (by simp [structOf])⟩
  replace h := ite_eq_cases h
  rcases h with ⟨hs, h⟩ | ⟨-, h⟩
  · obtain ⟨rfl, rfl⟩ := hs
    unfold decodeClock at h
    simp only [Dec.bind_eq_ok, Dec.pure_eq_ok, needInt64_eq_ok] at h
    obtain ⟨v1, b1, d1, ns, _, ⟨rfl, rfl⟩, v2, b2, d2, m, _, ⟨rfl, rfl⟩, rfl, rfl⟩ := h
    exact ⟨_, rfl, fields_cons d1 (fields_cons d2 fields_nil), .inl (by simp [structOf])⟩
  replace h := ite_eq_cases h
  rcases h with ⟨hs, h⟩ | ⟨-, h⟩
  · obtain ⟨rfl, rfl⟩ := hs
    unfold decodeLocalClock at h
    simp only [Dec.bind_eq_ok, Dec.pure_eq_ok, needInt64_eq_ok] at h
    obtain ⟨v1, b1, d1, ns, _, ⟨rfl, rfl⟩, rfl, rfl⟩ := h
    exact ⟨_, rfl, fields_cons d1 fields_nil, .inl (by simp [structOf])⟩
  replace h := ite_eq_cases h
  rcases h with ⟨hs, h⟩ | ⟨-, h⟩
  · obtain ⟨rfl, rfl⟩ := hs
    unfold decodeLocalTime at h
    simp only [Dec.bind_eq_ok, Dec.pure_eq_ok, needInt64_eq_ok] at h
    obtain ⟨v1, b1, d1, ns, _, ⟨rfl, rfl⟩, v2, b2, d2, m, _, ⟨rfl, rfl⟩, rfl, rfl⟩ := h
    exact ⟨_, rfl, fields_cons d1 (fields_cons d2 fields_nil), .inl (by simp [structOf])⟩
  replace h := ite_eq_cases h
  rcases h with ⟨hs, h⟩ | ⟨-, h⟩
  · obtain ⟨rfl, rfl⟩ := hs
    unfold decodeDateTimeOffset at h
    simp only [Dec.bind_eq_ok, Dec.pure_eq_ok, needInt64_eq_ok] at h
    obtain ⟨v1, b1, d1, s, _, ⟨rfl, rfl⟩, v2, b2, d2, n, _, ⟨rfl, rfl⟩, v3, b3, d3, o, _, ⟨rfl, rfl⟩, rfl, rfl⟩ := h
    exact ⟨_, rfl, fields_cons d1 (fields_cons d2 (fields_cons d3 fields_nil)), .inr (.inl ⟨_, _, _, rfl⟩)⟩
  replace h := ite_eq_cases h
  rcases h with ⟨hs, h⟩ | ⟨-, h⟩
  · obtain ⟨rfl, rfl⟩ := hs
    unfold decodeDateTimeZone at h
    simp only [Dec.bind_eq_ok, needInt64_eq_ok, needStr_eq_ok] at h
    obtain ⟨v1, b1, d1, s, _, ⟨rfl, rfl⟩, v2, b2, d2, n, _, ⟨rfl, rfl⟩, v3, b3, d3, z, _, ⟨rfl, rfl⟩, h⟩ := h
    cases ht : env.tz z with
    | none => rw [ht] at h; simp [Dec.fail] at h
    | some off =>
      rw [ht] at h; simp only [Dec.pure_eq_ok] at h
      obtain ⟨rfl, rfl⟩ := h
      exact ⟨_, rfl, fields_cons d1 (fields_cons d2 (fields_cons d3 fields_nil)), .inr (.inl ⟨_, _, _, rfl⟩)⟩
  replace h := ite_eq_cases h
  rcases h with ⟨hs, h⟩ | ⟨-, h⟩
  · obtain ⟨rfl, rfl⟩ := hs
    unfold decodeDuration at h
    simp only [Dec.bind_eq_ok, Dec.pure_eq_ok, needInt64_eq_ok] at h
    obtain ⟨v1, b1, d1, s, _, ⟨rfl, rfl⟩, v2, b2, d2, n, _, ⟨rfl, rfl⟩, v3, b3, d3, o, _, ⟨rfl, rfl⟩, v4, b4, d4, q, _, ⟨rfl, rfl⟩, rfl, rfl⟩ := h
    exact ⟨_, rfl, fields_cons d1 (fields_cons d2 (fields_cons d3 (fields_cons d4 fields_nil))), .inr (.inr ⟨_, rfl⟩)⟩
  · rw [Dec.fail_eq_ok] at h; exact h.elim

end Verif
