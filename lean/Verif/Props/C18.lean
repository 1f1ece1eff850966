/-
C18  Decoded maps have unique keys and the last duplicate wins.
-/
import Verif.Proofs.BodyInv
import Verif.Proofs.DecodeEnc
import Verif.Proofs.ValEq
namespace Verif
open Spec

/-- Keys of a map are distinct. -/
def uniqueKeys : Val → Prop
  | .map es => (es.map Prod.fst).Nodup
  | _ => True

theorem mem_keys_mapInsert {m : Entries} {k x : Bytes} {v : Val} : x ∈ (mapInsert m k v).map Prod.fst ↔ x = k ∨ x ∈ m.map Prod.fst := by
  induction m with
  | nil => simp [mapInsert]
  | cons p m ih =>
    obtain ⟨k', v'⟩ := p
    unfold mapInsert
    split
    · rename_i h; subst h; simp
    · simp only [List.map_cons, List.mem_cons, ih]
      constructor
      · rintro (h | h | h)
        · exact .inr (.inl h)
        · exact .inl h
        · exact .inr (.inr h)
      · rintro (h | h | h)
        · exact .inr (.inl h)
        · exact .inl h
        · exact .inr (.inr h)

theorem mapInsert_nodup {m : Entries} (h : (m.map Prod.fst).Nodup) (k : Bytes) (v : Val) : ((mapInsert m k v).map Prod.fst).Nodup := by
  induction m with
  | nil => simp [mapInsert]
  | cons p m ih =>
    obtain ⟨k', v'⟩ := p
    simp only [List.map_cons, List.nodup_cons] at h
    unfold mapInsert
    split
    · rename_i h'; subst h'; simpa using h
    · rename_i hne
      simp only [List.map_cons, List.nodup_cons, mem_keys_mapInsert, not_or]
      exact ⟨⟨hne, h.1⟩, ih h.2⟩

theorem mapGet_mapInsert (m : Entries) (k x : Bytes) (v : Val) : mapGet (mapInsert m k v) x = if k = x then some v else mapGet m x := by
  induction m with
  | nil => simp [mapInsert, mapGet]
  | cons p m ih =>
    obtain ⟨k', v'⟩ := p
    unfold mapInsert
    by_cases h : k' = k
    · subst h; rw [if_pos rfl]; simp only [mapGet]; split <;> rfl
    · rw [if_neg h]
      simp only [mapGet, ih]
      by_cases h1 : k' = x
      · subst h1; simp [Ne.symm h]
      · simp [h1]

theorem mapInsert_all {p : Val → Prop} {m : Entries} {k : Bytes} {v : Val} (hm : AllEntries p m) (hv : v.All p) : AllEntries p (mapInsert m k v) := by
  induction m with
  | nil => exact ⟨hv, trivial⟩
  | cons e m ih =>
    obtain ⟨k', v'⟩ := e
    simp only [AllEntries] at hm
    unfold mapInsert
    split
    · exact ⟨hv, hm.2⟩
    · exact ⟨hm.1, ih hm.2⟩

theorem builtFrom_unique {fs : List Val} {v : Val} (h : BuiltFrom fs v) (hf : AllList uniqueKeys fs) : v.All uniqueKeys := by
  cases h with
  | fields k => exact ⟨trivial, hf⟩
  | path ns rs ss ss' hl hi =>
    simp only [AllList, Val.All, uniqueKeys, true_and, and_true] at hf ⊢
    refine ⟨hf.1, hf.2.1, ?_⟩
    clear hl
    induction ss' with
    | nil => trivial
    | cons s ss' ih =>
      obtain ⟨n, rfl⟩ := hi s (by simp)
      exact ⟨trivial, ih fun s hs => hi s (by simp [hs])⟩
  | point k a n fs => exact ⟨trivial, trivial, hf.2⟩
  | _ => trivial

theorem decodeN_unique {dec : Dec Val} (hdec : ∀ b v r, dec b = .ok (v, r) → v.All uniqueKeys) :
    (n : Nat) → (b r : Bytes) → (vs : List Val) → decodeN dec n b = .ok (vs, r) → AllList uniqueKeys vs
  | 0, b, r, vs, h => by rw [decodeN, Dec.pure_eq_ok] at h; rw [← h.1]; trivial
  | n + 1, b, r, vs, h => by
    simp only [decodeN, Dec.bind_eq_ok, Dec.pure_eq_ok] at h
    obtain ⟨x, b', h1, ys, b2, h2, rfl, rfl⟩ := h
    exact ⟨hdec _ _ _ h1, decodeN_unique hdec n _ _ _ h2⟩

theorem decodeEntries_unique {dec : Dec Val} (hdec : ∀ b v r, dec b = .ok (v, r) → v.All uniqueKeys) :
    (n : Nat) → (m : Entries) → (b r : Bytes) → (es : Entries) → (m.map Prod.fst).Nodup → AllEntries uniqueKeys m →
      decodeEntries dec n m b = .ok (es, r) → (es.map Prod.fst).Nodup ∧ AllEntries uniqueKeys es
  | 0, m, b, r, es, hm, ha, h => by rw [decodeEntries, Dec.pure_eq_ok] at h; rw [← h.1]; exact ⟨hm, ha⟩
  | n + 1, m, b, r, es, hm, ha, h => by
    simp only [decodeEntries, Dec.bind_eq_ok] at h
    obtain ⟨k, b1, h1, v, b2, h2, h⟩ := h
    split at h
    · exact decodeEntries_unique hdec n _ _ _ _ (mapInsert_nodup hm _ _) (mapInsert_all ha (hdec _ _ _ h2)) h
    · cases h

theorem decodeF_unique (env : Env) (ver : Ver) : (n : Nat) → (b : Bytes) → (v : Val) → (r : Bytes) → decodeF env ver n b = .ok (v, r) →
    v.All uniqueKeys
  | 0, _, _, _, h => by cases h
  | n + 1, b, v, r, h => by
    obtain ⟨m, c, b', -, h'⟩ := decodeBody_inv env ver h
    clear h
    rcases h' with ⟨hs, -⟩ | ⟨vs, rfl, h⟩ | ⟨k, es, rfl, h⟩ | h
    · cases v <;> first | trivial | exact hs.elim
    · exact ⟨trivial, decodeN_unique (decodeF_unique env ver n) _ _ _ _ h⟩
    · exact decodeEntries_unique (decodeF_unique env ver n) _ [] _ _ _ List.nodup_nil trivial h
    · obtain ⟨sig, b'', fs, -, h2, h3⟩ := decodeStruct_builtFrom env ver h
      exact builtFrom_unique h3 (decodeN_unique (decodeF_unique env ver n) _ _ _ _ h2)

/-- Whatever bytes a peer sends: every map inside a decoded value has distinct keys. -/
theorem C18_unique_keys (env : Env) (ver : Ver) (b : Bytes) (v : Val) (r : Bytes) (h : decode env ver b = .ok (v, r)) : v.All uniqueKeys :=
  decodeF_unique env ver _ b v r h

/-- The value that came last for key `k` in the transmitted entries. -/
def lastFor (k : Bytes) : List (Bytes × PS) → Option PS
  | [] => none
  | (k', t) :: es =>
    match lastFor k es with
    | some t' => some t'
    | none => if k' = k then some t else none

theorem interpEntries_get (env : Env) (ver : Ver) : (es : List (Bytes × PS)) → (acc m : Entries) → interpEntries env ver es acc = some m →
    ∀ k, mapGet m k = match lastFor k es with
      | some t => interp env ver t
      | none => mapGet acc k
  | [], acc, m, h, k => by simp only [interpEntries, Option.some.injEq] at h; subst h; rfl
  | (k', t) :: es, acc, m, h, k => by
    simp only [interpEntries, Option.bind_eq_some_iff] at h
    obtain ⟨v, h1, h2⟩ := h
    rw [interpEntries_get env ver es _ _ h2 k]
    have hl : lastFor k ((k', t) :: es) = match lastFor k es with
      | some t' => some t'
      | none => if k' = k then some t else none := rfl
    rw [hl]
    cases lastFor k es with
    | some t' => rfl
    | none =>
      dsimp only
      rw [mapGet_mapInsert]
      by_cases hk : k' = k
      · rw [if_pos hk, if_pos hk]; exact h1.symm
      · rw [if_neg hk, if_neg hk]

theorem interpEntries_some (env : Env) (ver : Ver) : (es : List (Bytes × PS)) → (∀ e ∈ es, ∃ v, interp env ver e.2 = some v) →
    (acc : Entries) → ∃ m, interpEntries env ver es acc = some m
  | [], _, acc => ⟨acc, rfl⟩
  | (k, t) :: es, h, acc => by
    obtain ⟨v, hv⟩ := h (k, t) (by simp)
    obtain ⟨m, hm⟩ := interpEntries_some env ver es (fun e he => h e (by simp [he])) (mapInsert acc k v)
    exact ⟨m, by simp only [interpEntries, hv, Option.bind_some, hm]⟩

/-- The transmitted map may repeat keys.  Its decoded form holds, for every key, the value transmitted last for that key, and nothing for keys
that were not transmitted. -/
theorem C18_last_wins (env : Env) (ver : Ver) (es : List (Bytes × PS)) (b rest : Bytes) (he : Spec.Enc signed (.map es) b)
    (hv : ∀ e ∈ es, ∃ v, interp env ver e.2 = some v) :
    ∃ m, decode env ver (b ++ rest) = .ok (.map m, rest) ∧ (m.map Prod.fst).Nodup ∧
      ∀ k, mapGet m k = (lastFor k es).bind (interp env ver) := by
  obtain ⟨m, hm⟩ := interpEntries_some env ver es hv []
  have hd := decode_enc env ver (t := .map es) (v := .map m) (by simp only [interp, hm, Option.map_some]) he rest
  refine ⟨m, hd, (C18_unique_keys env ver _ _ _ hd).1, ?_⟩
  intro k
  rw [interpEntries_get env ver es _ _ hm k]
  cases lastFor k es <;> rfl

/-- {a: 1, b: 2, a: 3} is read as {a: 3, b: 2}. -/
example : decode env0 .v2 [0xA3, 0x81, 0x61, 0x01, 0x81, 0x62, 0x02, 0x81, 0x61, 0x03] =
    .ok (.map [([0x61], .int .int64 3), ([0x62], .int .int64 2)], []) := by decide +kernel

example : Spec.Enc signed (.map [([0x61], .null), ([0x61], .bool true)]) [0xA2, 0x81, 0x61, 0xC0, 0x81, 0x61, 0xC3] :=
  ⟨[0xA2], [0x81, 0x61, 0xC0, 0x81, 0x61, 0xC3], .inl ⟨by decide, rfl⟩,
    ⟨[0x81, 0x61], [0xC0], [0x81, 0x61, 0xC3], ⟨[0x81], .inl ⟨by decide, rfl⟩, rfl⟩, rfl,
      ⟨[0x81, 0x61], [0xC3], [], ⟨[0x81], .inl ⟨by decide, rfl⟩, rfl⟩, rfl, rfl, rfl⟩, rfl⟩, rfl⟩

end Verif
