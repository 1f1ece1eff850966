/-
Nested calls of the decoder: more of them never change a result, and a message needs as many as it has levels.
-/
import Verif.Proofs.DecInv
namespace Verif
open Spec

/-- `m'` does the same as `m` whenever `m` does not run out of fuel. -/
def Ext {α : Type} (m m' : Dec α) : Prop := ∀ b, m b ≠ .fuel → m' b = m b

theorem Ext.refl {α : Type} (m : Dec α) : Ext m m := fun _ _ => rfl

theorem Ext.bind {α β : Type} {m m' : Dec α} {f f' : α → Dec β} (hm : Ext m m') (hf : ∀ a, Ext (f a) (f' a)) : Ext (m >>= f) (m' >>= f') := by
  intro b hne
  rw [Dec.bind_apply] at hne
  rw [Dec.bind_apply, Dec.bind_apply]
  have h1 := hm b
  match h : m b with
  | .ok (a, r) => rw [h] at h1 hne; rw [h1 (by simp)]; exact hf a r hne
  | .err e => rw [h] at h1; rw [h1 (by simp)]
  | .panic => rw [h] at h1; rw [h1 (by simp)]
  | .fuel => rw [h] at hne; exact absurd rfl hne

theorem Ext.ite {α : Type} {c : Prop} [Decidable c] {m m' f f' : Dec α} (h1 : Ext m m') (h2 : Ext f f') :
    Ext (if c then m else f) (if c then m' else f') := by
  by_cases h : c
  · rw [if_pos h, if_pos h]; exact h1
  · rw [if_neg h, if_neg h]; exact h2

/-- Closes `Ext` goals about straight-line decoding code. -/
macro "dec_ext" : tactic => `(tactic| repeat (first
  | assumption
  | exact Ext.refl _
  | refine Ext.bind ?_ (fun _ => ?_)))

theorem Ext.decodeN {dec dec' : Dec Val} (h : Ext dec dec') : (n : Nat) → Ext (decodeN dec n) (decodeN dec' n)
  | 0 => Ext.refl _
  | n + 1 => Ext.bind h fun _ => Ext.bind (Ext.decodeN h n) fun _ => Ext.refl _

theorem Ext.decodeSlice {dec dec' : Dec Val} (h : Ext dec dec') (n : Int) : Ext (decodeSlice dec n) (decodeSlice dec' n) := by
  unfold Verif.decodeSlice
  exact Ext.ite (Ext.refl _) (Ext.bind (Ext.decodeN h _) fun _ => Ext.refl _)

theorem Ext.decodeEntries {dec dec' : Dec Val} (h : Ext dec dec') : (n : Nat) → (m : Entries) →
    Ext (decodeEntries dec n m) (decodeEntries dec' n m)
  | 0, m => Ext.refl _
  | n + 1, m => by
    unfold Verif.decodeEntries
    refine Ext.bind h fun k => Ext.bind h fun v => ?_
    cases k <;> first
      | exact Ext.refl _
      | exact Ext.decodeEntries h n _

theorem Ext.decodeMap {dec dec' : Dec Val} (h : Ext dec dec') (n : Int) : Ext (decodeMap dec n) (decodeMap dec' n) :=
  Ext.bind (Ext.decodeEntries h _ _) fun _ => Ext.refl _

theorem Ext.decodeStruct {dec dec' : Dec Val} (h : Ext dec dec') (env : Env) (ver : Ver) :
    Ext (decodeStruct env ver dec) (decodeStruct env ver dec') := by
  unfold Verif.decodeStruct
  refine Ext.bind (Ext.refl _) fun sig => ?_
  refine Ext.ite ?_ ?_
  · unfold decodeNode; dec_ext
  refine Ext.ite ?_ ?_
  · unfold decodeRelationship; dec_ext
  refine Ext.ite ?_ ?_
  · unfold decodePath; dec_ext
  refine Ext.ite ?_ ?_
  · unfold decodeUnboundRelationship; dec_ext
  refine Ext.ite ?_ ?_
  · unfold decodePoint2D; dec_ext
  refine Ext.ite ?_ ?_
  · unfold decodePoint3D; dec_ext
  refine Ext.ite ?_ ?_
  · unfold decodeRecord; dec_ext
  refine Ext.ite ?_ ?_
  · unfold decodeFailure; dec_ext
  refine Ext.ite ?_ ?_
  · exact Ext.refl _
  refine Ext.ite ?_ ?_
  · unfold decodeSuccess; dec_ext
  refine Ext.ite ?_ ?_
  · exact Ext.refl _
  refine Ext.ite ?_ ?_
  · exact Ext.refl _
  refine Ext.ite ?_ ?_
  · exact Ext.refl _
  refine Ext.ite ?_ ?_
  · unfold decodeDate; dec_ext
  refine Ext.ite ?_ ?_
  · unfold decodeClock; dec_ext
  refine Ext.ite ?_ ?_
  · unfold decodeLocalClock; dec_ext
  refine Ext.ite ?_ ?_
  · unfold decodeLocalTime; dec_ext
  refine Ext.ite ?_ ?_
  · unfold decodeDateTimeOffset; dec_ext
  refine Ext.ite ?_ ?_
  · unfold decodeDateTimeZone; dec_ext
  refine Ext.ite ?_ ?_
  · unfold decodeDuration; dec_ext
  exact Ext.refl _

theorem Ext.decodeBody {dec dec' : Dec Val} (h : Ext dec dec') (env : Env) (ver : Ver) : Ext (decodeBody env ver dec) (decodeBody env ver dec') := by
  unfold Verif.decodeBody
  refine Ext.bind (Ext.refl _) fun m => ?_
  have hs := Ext.decodeStruct h env ver
  cases classify m <;> simp only [Verif.decodeMarker]
  case tinyList n => exact Ext.decodeSlice h _
  case tinyMap n => exact Ext.decodeMap h _
  case list k => exact Ext.bind (Ext.refl _) fun _ => Ext.decodeSlice h _
  case map k => exact Ext.bind (Ext.refl _) fun _ => Ext.decodeMap h _
  case tinyStruct n => exact hs
  case struct k => exact Ext.bind (Ext.refl _) fun _ => hs
  all_goals exact Ext.refl _

theorem decodeF_succ_ext (env : Env) (ver : Ver) : (n : Nat) → Ext (decodeF env ver n) (decodeF env ver (n + 1))
  | 0 => fun b h => absurd rfl h
  | n + 1 => Ext.decodeBody (decodeF_succ_ext env ver n) env ver

theorem decodeF_ext (env : Env) (ver : Ver) (n : Nat) : (k : Nat) → Ext (decodeF env ver n) (decodeF env ver (n + k))
  | 0 => Ext.refl _
  | k + 1 => fun b h => by
    have h1 := decodeF_ext env ver n k b h
    have h2 := decodeF_succ_ext env ver (n + k) b (by rw [h1]; exact h)
    rw [← Nat.add_assoc, h2, h1]

/-- A result does not depend on the number of nested calls that were allowed. -/
theorem decodeF_of_ne_fuel (env : Env) (ver : Ver) {n : Nat} {b : Bytes} (h : decodeF env ver n b ≠ .fuel) : decodeF env ver n b = decode env ver b := by
  rw [decode_eq_decodeF env ver (n := n + (b.length + 1)) (by omega)]
  exact (decodeF_ext env ver n (b.length + 1) b h).symm

/-- The decoder as one step. -/
def wholeDec (env : Env) (ver : Ver) : Dec Val := fun b => decode env ver b

/-- Decoding `k` values and `k'` values cannot end at the same place unless `k = k'`. -/
theorem decodeN_same (env : Env) (ver : Ver) (n : Nat) : (k k' : Nat) → (b r : Bytes) → (vs vs' : List Val) →
    decodeN (decodeF env ver n) k b = .ok (vs, r) → decodeN (wholeDec env ver) k' b = .ok (vs', r) → k = k'
  | 0, 0, b, r, vs, vs', _, _ => rfl
  | 0, k' + 1, b, r, vs, vs', h, h' => by
    exfalso
    cases h
    rw [decodeN_succ, Dec.bind_eq_ok] at h'
    obtain ⟨v, b', d, h'⟩ := h'
    rw [Dec.bind_eq_ok] at h'
    obtain ⟨ws, b'', d', h'⟩ := h'
    cases h'
    have h1 := (decodeF_rel env ver (b.length + 1) (b.length + 1) b (by omega) (by omega)).2.2 v b' d
    have h2 := decodeN_le env ver k' _ _ _ d'
    omega
  | k + 1, 0, b, r, vs, vs', h, h' => by
    exfalso
    cases h'
    rw [decodeN_succ, Dec.bind_eq_ok] at h
    obtain ⟨v, b', d, h⟩ := h
    rw [Dec.bind_eq_ok] at h
    obtain ⟨ws, b'', d', h⟩ := h
    cases h
    have e := decodeF_of_ne_fuel env ver (n := n) (b := b) (by rw [d]; simp)
    rw [e] at d
    have h1 := (decodeF_rel env ver (b.length + 1) (b.length + 1) b (by omega) (by omega)).2.2 v b' d
    have h2 := decodeNF_le env ver n k _ _ _ d'
    omega
  | k + 1, k' + 1, b, r, vs, vs', h, h' => by
    rw [decodeN_succ, Dec.bind_eq_ok] at h h'
    obtain ⟨v, b', d, h⟩ := h
    obtain ⟨v2, b2, d2, h'⟩ := h'
    rw [Dec.bind_eq_ok] at h h'
    obtain ⟨ws, b'', d', h⟩ := h
    obtain ⟨ws2, b3, d3, h'⟩ := h'
    cases h; cases h'
    have e := decodeF_of_ne_fuel env ver (n := n) (b := b) (by rw [d]; simp)
    rw [e, show decode env ver b = _ from d2] at d
    cases d
    rw [decodeN_same env ver n k k' _ _ _ _ d' d3]
where
  decodeN_le (env : Env) (ver : Ver) : (k : Nat) → (b r : Bytes) → (vs : List Val) → decodeN (wholeDec env ver) k b = .ok (vs, r) → r.length ≤ b.length
    | 0, b, r, vs, h => by cases h; exact Nat.le_refl _
    | k + 1, b, r, vs, h => by
      rw [decodeN_succ, Dec.bind_eq_ok] at h
      obtain ⟨v, b', d, h⟩ := h
      rw [Dec.bind_eq_ok] at h
      obtain ⟨ws, b'', d', h⟩ := h
      cases h
      have h1 := (decodeF_rel env ver (b.length + 1) (b.length + 1) b (by omega) (by omega)).2.2 v b' d
      have h2 := decodeN_le env ver k _ _ _ d'
      omega
  decodeNF_le (env : Env) (ver : Ver) (n : Nat) : (k : Nat) → (b r : Bytes) → (vs : List Val) → decodeN (decodeF env ver n) k b = .ok (vs, r) → r.length ≤ b.length
    | 0, b, r, vs, h => by cases h; exact Nat.le_refl _
    | k + 1, b, r, vs, h => by
      rw [decodeN_succ, Dec.bind_eq_ok] at h
      obtain ⟨v, b', d, h⟩ := h
      rw [Dec.bind_eq_ok] at h
      obtain ⟨ws, b'', d', h⟩ := h
      cases h
      have e := decodeF_of_ne_fuel env ver (n := n) (b := b) (by rw [d]; simp)
      rw [e] at d
      have h1 := (decodeF_rel env ver (b.length + 1) (b.length + 1) b (by omega) (by omega)).2.2 v b' d
      have h2 := decodeNF_le env ver n k _ _ _ d'
      omega

/-- Values that were read are the ones that the decoder reads. -/
theorem decodeN_agree (env : Env) (ver : Ver) (n : Nat) : (k : Nat) → (b : Bytes) → (x : List Val × Bytes) →
    decodeN (decodeF env ver n) k b = .ok x → decodeN (wholeDec env ver) k b = .ok x
  | 0, b, x, h => h
  | k + 1, b, (vs, r), h => by
    rw [decodeN_succ, Dec.bind_eq_ok] at h
    obtain ⟨v, b', d, h⟩ := h
    rw [Dec.bind_eq_ok] at h
    obtain ⟨ws, b'', d', h⟩ := h
    have e := decodeF_of_ne_fuel env ver (n := n) (b := b) (by rw [d]; simp)
    rw [d] at e
    rw [decodeN_succ, Dec.bind_ok (show wholeDec env ver b = _ from e.symm), Dec.bind_ok (decodeN_agree env ver n k b' _ d')]
    exact h

theorem decodeN_enc_all (env : Env) (ver : Ver) : (ts : List PS) → (vs : List Val) → interpList env ver ts = some vs → (body : Bytes) →
    EncList signed ts body → (rest : Bytes) → decodeN (wholeDec env ver) ts.length (body ++ rest) = .ok (vs, rest)
  | [], vs, hv, body, he, rest => by
    simp only [interpList, Option.some.injEq] at hv; subst hv
    simp only [EncList] at he; subst he; rfl
  | t :: ts, vs, hv, body, he, rest => by
    simp only [interpList, Option.bind_eq_some_iff, Option.map_eq_some_iff] at hv
    obtain ⟨v, h1, vs', h2, rfl⟩ := hv
    simp only [EncList] at he
    obtain ⟨b1, b2, e1, e2, rfl⟩ := he
    rw [List.length_cons, decodeN_succ, List.append_assoc, Dec.bind_ok (show wholeDec env ver _ = _ from decode_enc env ver h1 e1 (b2 ++ rest)),
      Dec.bind_ok (decodeN_enc_all env ver ts vs' h2 b2 e2 rest)]
    rfl

mutual
/-- A message is not read with fewer nested calls than it has levels. -/
theorem levels_le (env : Env) (ver : Ver) : (t : PS) → (v : Val) → interp env ver t = some v → (bs : Bytes) → Spec.Enc signed t bs →
    (n : Nat) → (rest : Bytes) → decodeF env ver n (bs ++ rest) = .ok (v, rest) → t.levels ≤ n
  | t, v, hv, bs, he, 0, rest, h => by cases h
  | .null, v, hv, bs, he, n + 1, rest, h => by simp [PS.levels]
  | .bool b, v, hv, bs, he, n + 1, rest, h => by simp [PS.levels]
  | .int i, v, hv, bs, he, n + 1, rest, h => by simp [PS.levels]
  | .float w, v, hv, bs, he, n + 1, rest, h => by simp [PS.levels]
  | .str s, v, hv, bs, he, n + 1, rest, h => by simp [PS.levels]
  | .list ts, v, hv, bs, he, n + 1, rest, h => by
    simp only [interp, Option.map_eq_some_iff] at hv
    obtain ⟨vs, hvs, rfl⟩ := hv
    simp only [Spec.Enc] at he
    obtain ⟨hd, body, hh, hb, rfl⟩ := he
    rw [decodeF, List.append_assoc] at h
    have hs : decodeSlice (decodeF env ver n) ts.length (body ++ rest) = .ok (.list true vs, rest) := by
      rcases hh with ⟨h15, rfl⟩ | ⟨m, k, lb, hm, hlim, rfl, hl, hbe⟩
      · rw [List.singleton_append, decodeBody_cons _ _ _ _ _ (classify_tinyList _ h15)] at h; exact h
      · have hc : classify m = .list k ∧ 0 < k := by
          simp only [listMarkers, List.mem_cons, Prod.mk.injEq, List.not_mem_nil, or_false] at hm
          rcases hm with ⟨rfl, rfl⟩ | ⟨rfl, rfl⟩ | ⟨rfl, rfl⟩ <;> exact ⟨rfl, by omega⟩
        rw [List.cons_append, decodeBody_cons _ _ _ _ _ hc.1] at h
        simp only [decodeMarker] at h
        rw [Dec.bind_ok (readSigned_len hc.2 hl hbe hlim _ _)] at h; exact h
    unfold decodeSlice at hs
    rw [if_neg (by omega), Int.toNat_natCast, Dec.bind_eq_ok] at hs
    obtain ⟨ws, r, hd', he'⟩ := hs
    cases he'
    have := levelsList_le env ver ts vs hvs body hb n rest hd'
    simp only [PS.levels]; omega
  | .map es, v, hv, bs, he, n + 1, rest, h => by
    simp only [interp, Option.map_eq_some_iff] at hv
    obtain ⟨vs, hvs, rfl⟩ := hv
    simp only [Spec.Enc] at he
    obtain ⟨hd, body, hh, hb, rfl⟩ := he
    rw [decodeF, List.append_assoc] at h
    have hs : decodeMap (decodeF env ver n) es.length (body ++ rest) = .ok (.map vs, rest) := by
      rcases hh with ⟨h15, rfl⟩ | ⟨m, k, lb, hm, hlim, rfl, hl, hbe⟩
      · rw [List.singleton_append, decodeBody_cons _ _ _ _ _ (classify_tinyMap _ h15)] at h; exact h
      · have hc : classify m = .map k ∧ 0 < k := by
          simp only [mapMarkers, List.mem_cons, Prod.mk.injEq, List.not_mem_nil, or_false] at hm
          rcases hm with ⟨rfl, rfl⟩ | ⟨rfl, rfl⟩ | ⟨rfl, rfl⟩ <;> exact ⟨rfl, by omega⟩
        rw [List.cons_append, decodeBody_cons _ _ _ _ _ hc.1] at h
        simp only [decodeMarker] at h
        rw [Dec.bind_ok (readSigned_len hc.2 hl hbe hlim _ _)] at h; exact h
    unfold decodeMap at hs
    rw [Int.toNat_natCast, Dec.bind_eq_ok] at hs
    obtain ⟨ws, r, hd', he'⟩ := hs
    have := levelsEntries_le env ver es [] vs hvs body hb n rest _ _ hd'
    simp only [PS.levels]; omega
  | .struct sig fs, v, hv, bs, he, n + 1, rest, h => by
    simp only [interp, Option.bind_eq_some_iff] at hv
    obtain ⟨vs, hvs, hso⟩ := hv
    simp only [Spec.Enc] at he
    obtain ⟨hd, body, hh, hb, rfl⟩ := he
    rw [decodeF, List.append_assoc] at h
    have hs : decodeStruct env ver (decodeF env ver n) (sig :: (body ++ rest)) = .ok (v, rest) := by
      rcases hh with ⟨h15, rfl⟩ | ⟨m, k, lb, hm, hlim, rfl, hl, hbe⟩
      · rw [List.singleton_append, decodeBody_cons _ _ _ _ _ (classify_tinyStruct _ h15)] at h; exact h
      · have hc : classify m = .struct k ∧ 0 < k := by
          simp only [structMarkers, List.mem_cons, Prod.mk.injEq, List.not_mem_nil, or_false] at hm
          rcases hm with ⟨rfl, rfl⟩ | ⟨rfl, rfl⟩ <;> exact ⟨rfl, by omega⟩
        rw [List.cons_append, decodeBody_cons _ _ _ _ _ hc.1] at h
        simp only [decodeMarker] at h
        rw [Dec.bind_ok (readSigned_len hc.2 hl hbe hlim _ _)] at h; exact h
    obtain ⟨sig', b', ws, e, hd', -⟩ := decodeStruct_inv env ver hs
    cases e
    have hall := decodeN_enc_all env ver fs vs hvs body hb rest
    have hl := decodeN_same env ver n _ _ _ _ _ _ hd' hall
    have hws : ws = vs := by
      have h1 := decodeN_agree env ver n _ _ _ hd'
      rw [hl, hall] at h1
      cases h1; rfl
    subst hws
    rw [hl] at hd'
    have := levelsList_le env ver fs ws hvs body hb n rest hd'
    simp only [PS.levels]; omega

theorem levelsList_le (env : Env) (ver : Ver) : (ts : List PS) → (vs : List Val) → interpList env ver ts = some vs → (body : Bytes) →
    EncList signed ts body → (n : Nat) → (rest : Bytes) → decodeN (decodeF env ver n) ts.length (body ++ rest) = .ok (vs, rest) → levelsList ts ≤ n
  | [], vs, hv, body, he, n, rest, h => Nat.zero_le _
  | t :: ts, vs, hv, body, he, n, rest, h => by
    simp only [interpList, Option.bind_eq_some_iff, Option.map_eq_some_iff] at hv
    obtain ⟨v, h1, vs', h2, rfl⟩ := hv
    simp only [EncList] at he
    obtain ⟨b1, b2, e1, e2, rfl⟩ := he
    rw [List.length_cons, decodeN_succ, List.append_assoc, Dec.bind_eq_ok] at h
    obtain ⟨w, r, d, h⟩ := h
    have e := decodeF_of_ne_fuel env ver (by rw [d]; simp)
    rw [d, decode_enc env ver h1 e1] at e
    cases e
    rw [Dec.bind_eq_ok] at h
    obtain ⟨ws, r', d', h⟩ := h
    cases h
    have g1 := levels_le env ver t v h1 b1 e1 n _ d
    have g2 := levelsList_le env ver ts vs' h2 b2 e2 n rest d'
    simp only [levelsList]; omega

theorem levelsEntries_le (env : Env) (ver : Ver) : (es : List (Bytes × PS)) → (acc vs : Entries) → interpEntries env ver es acc = some vs →
    (body : Bytes) → EncEntries signed es body → (n : Nat) → (rest : Bytes) → (ws : Entries) → (r : Bytes) →
    decodeEntries (decodeF env ver n) es.length acc (body ++ rest) = .ok (ws, r) → levelsEntries es ≤ n
  | [], acc, vs, hv, body, he, n, rest, ws, r, h => Nat.zero_le _
  | (k, t) :: es, acc, vs, hv, body, he, n, rest, ws, r, h => by
    simp only [interpEntries, Option.bind_eq_some_iff] at hv
    obtain ⟨v, h1, h2⟩ := hv
    simp only [EncEntries] at he
    obtain ⟨b0, b1, b2, e0, e1, e2, rfl⟩ := he
    rw [List.length_cons, List.append_assoc, List.append_assoc] at h
    unfold decodeEntries at h
    rw [Dec.bind_eq_ok] at h
    obtain ⟨kv, r0, d0, h⟩ := h
    have hk : decodeF env ver n (b0 ++ (b1 ++ (b2 ++ rest))) = .ok (.str k, b1 ++ (b2 ++ rest)) := by
      match n, d0 with
      | 0, d0 => cases d0
      | n + 1, _ => exact decode_str e0 _
    rw [hk] at d0
    cases d0
    rw [Dec.bind_eq_ok] at h
    obtain ⟨w, r1, d, h⟩ := h
    have e := decodeF_of_ne_fuel env ver (by rw [d]; simp)
    rw [d, decode_enc env ver h1 e1] at e
    cases e
    have g1 := levels_le env ver t v h1 b1 e1 n _ d
    have g2 := levelsEntries_le env ver es (mapInsert acc k v) vs h2 b2 e2 n rest _ _ h
    simp only [levelsEntries]; omega
end

end Verif
