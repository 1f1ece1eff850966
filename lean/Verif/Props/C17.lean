/-
C17  Map iteration order is irrelevant.
-/
import Verif.Proofs.Reorder
import Verif.Props.C01
import Verif.Proofs.ValEq
namespace Verif
open Spec

/-- Two iteration orders of the same value (maps at any depth): both are accepted, and the decoded values differ at most in the order in which the
entries of their maps are listed. -/
theorem C17_order_irrelevant (env : Env) (ver : Ver) (v w : Val) (h : Reorder v w) (hd : v.All (decodable ver)) (hi : v.All intsInRange)
    (hr : v.All readable) (hs : v.All (strAtMost 65535)) :
    ∃ v' w', unmarshal env ver (marshal env ver v).1 = .ok v' ∧ unmarshal env ver (marshal env ver w).1 = .ok w' ∧ Reorder v' w' := by
  refine ⟨_, _, (C01_roundtrip env ver v hd hi hr hs).2, (C01_roundtrip env ver w (h.all (decodable_orderFree ver) hd)
    (h.all intsInRange_orderFree hi) (h.all readable_orderFree hr) (h.all (strAtMost_orderFree _) hs)).2, canon_reorder env h⟩

theorem mapGet_mid (k x : Bytes) {v w : Val} (h : Reorder v w) (post : Entries) : (pre : Entries) →
    match mapGet (pre ++ (k, v) :: post) x, mapGet (pre ++ (k, w) :: post) x with
    | some a, some b => Reorder a b
    | none, none => True
    | _, _ => False
  | [] => by
    simp only [List.nil_append, mapGet]
    by_cases hk : k = x
    · simp only [if_pos hk]; exact h
    · simp only [if_neg hk]; cases mapGet post x <;> simp only; exact .refl _
  | (k', v') :: pre => by
    simp only [List.cons_append, mapGet]
    by_cases hk : k' = x
    · simp only [if_pos hk]; exact .refl _
    · simp only [if_neg hk]; exact mapGet_mid k x h post pre

theorem mapGet_mem {m : Entries} {k : Bytes} {v : Val} (h : mapGet m k = some v) : (k, v) ∈ m := by
  induction m with
  | nil => cases h
  | cons e m ih =>
    obtain ⟨k', v'⟩ := e
    simp only [mapGet] at h
    split at h
    · rename_i hk; subst hk; simp only [Option.some.injEq] at h; subst h; simp
    · exact List.mem_cons_of_mem _ (ih h)

theorem mapGet_of_mem {m : Entries} (hn : (m.map Prod.fst).Nodup) {k : Bytes} {v : Val} (h : (k, v) ∈ m) : mapGet m k = some v := by
  induction m with
  | nil => cases h
  | cons e m ih =>
    obtain ⟨k', v'⟩ := e
    simp only [List.map_cons, List.nodup_cons] at hn
    rw [List.mem_cons] at h
    simp only [mapGet]
    rcases h with h | h
    · cases h; rw [if_pos rfl]
    · rw [if_neg, ih hn.2 h]
      rintro rfl
      exact hn.1 (List.mem_map.mpr ⟨_, h, rfl⟩)

theorem mapGet_perm {es fs : Entries} (hn : (es.map Prod.fst).Nodup) (hp : es.Perm fs) (k : Bytes) : mapGet es k = mapGet fs k := by
  have hn' := (hp.map Prod.fst).nodup_iff.mp hn
  cases h : mapGet es k with
  | some v => exact (mapGet_of_mem hn' (hp.mem_iff.mp (mapGet_mem h))).symm
  | none =>
    cases h' : mapGet fs k with
    | none => rfl
    | some v => rw [mapGet_of_mem hn (hp.mem_iff.mpr (mapGet_mem h'))] at h; cases h

/-- For maps, `Reorder` says what a Go program can observe: the same keys are present and their values correspond. -/
theorem C17_lookup {v w : Val} (h : Reorder v w) : ∀ es, v = .map es → (es.map Prod.fst).Nodup →
    ∃ fs, w = .map fs ∧ (fs.map Prod.fst).Nodup ∧ ∀ k, match mapGet es k, mapGet fs k with
      | some a, some b => Reorder a b
      | none, none => True
      | _, _ => False := by
  induction h with
  | refl v =>
    rintro es rfl hn
    exact ⟨es, rfl, hn, fun k => by cases mapGet es k <;> simp only; exact .refl _⟩
  | trans _ _ ih1 ih2 =>
    rintro es rfl hn
    obtain ⟨fs, rfl, hn1, h1⟩ := ih1 es rfl hn
    obtain ⟨gs, rfl, hn2, h2⟩ := ih2 fs rfl hn1
    refine ⟨gs, rfl, hn2, fun k => ?_⟩
    have a1 := h1 k
    have a2 := h2 k
    cases e1 : mapGet es k <;> cases e2 : mapGet fs k <;> cases e3 : mapGet gs k <;> rw [e1, e2] at a1 <;> rw [e2, e3] at a2 <;>
      simp only at a1 a2 ⊢
    exact a1.trans a2
  | @perm es fs hp =>
    intro es' he hn
    cases he
    refine ⟨fs, rfl, (hp.map Prod.fst).nodup_iff.mp hn, fun k => ?_⟩
    rw [mapGet_perm hn hp k]
    cases mapGet fs k <;> simp only; exact .refl _
  | inList => intro es he; cases he
  | inStruct => intro es he; cases he
  | @inMap pre post k v w h ih =>
    intro es' he hn
    cases he
    refine ⟨_, rfl, by simpa using hn, fun x => mapGet_mid k x h post pre⟩

/-- A list containing the map {a: {c: 1, d: 2}, b: nil} in two orders, both levels permuted. -/
example : Reorder (.list true [.map [([0x61], .map [([0x63], .int .int 1), ([0x64], .int .int 2)]), ([0x62], .nil)]])
    (.list true [.map [([0x62], .nil), ([0x61], .map [([0x64], .int .int 2), ([0x63], .int .int 1)])]]) :=
  (Reorder.inList true [] [] (.inMap [] [([0x62], .nil)] [0x61] (.perm (.swap _ _ _)))).trans
    (Reorder.inList true [] [] (.perm (.swap _ _ _)))

/-- Reordering is not trivial: other values are not related. -/
example : ¬ Reorder (.map [([0x61], .int .int 1)]) (.map [([0x61], .int .int 2)]) := by
  intro h
  obtain ⟨fs, hf, _, hk⟩ := C17_lookup h _ rfl (by simp)
  cases hf
  have := hk [0x61]
  simp only [mapGet, if_pos] at this
  have := this.int
  cases this

end Verif
