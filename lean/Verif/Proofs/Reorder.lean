/-
The hypotheses of the round trip and the canonical form do not depend on the iteration order of maps.
-/
import Verif.Proofs.RoundTrip
import Verif.Spec.Reorder
namespace Verif
open Spec

/-- Element-wise reordering. -/
def ReorderL : List Val → List Val → Prop
  | [], [] => True
  | v :: vs, w :: ws => Reorder v w ∧ ReorderL vs ws
  | _, _ => False

theorem ReorderL.refl : (vs : List Val) → ReorderL vs vs
  | [] => trivial
  | v :: vs => ⟨.refl v, ReorderL.refl vs⟩

theorem ReorderL.trans : {us vs ws : List Val} → ReorderL us vs → ReorderL vs ws → ReorderL us ws
  | [], [], [], _, _ => trivial
  | _ :: _, _ :: _, _ :: _, h, h' => ⟨.trans h.1 h'.1, ReorderL.trans h.2 h'.2⟩
  | [], [], _ :: _, _, h' => h'.elim
  | [], _ :: _, _, h, _ => h.elim
  | _ :: _, [], _, h, _ => h.elim
  | _ :: _, _ :: _, [], _, h' => h'.elim

theorem ReorderL.mid {v w : Val} (h : Reorder v w) : (pre post : List Val) → ReorderL (pre ++ v :: post) (pre ++ w :: post)
  | [], post => ⟨h, ReorderL.refl post⟩
  | _ :: pre, post => ⟨.refl _, ReorderL.mid h pre post⟩

theorem ReorderL.length : {vs ws : List Val} → ReorderL vs ws → ws.length = vs.length
  | [], [], _ => rfl
  | _ :: _, _ :: _, h => by simp [ReorderL.length h.2]

theorem ReorderL.mem : {vs ws : List Val} → ReorderL vs ws → ∀ w ∈ ws, ∃ v ∈ vs, Reorder v w
  | [], [], _, w, hw => by cases hw
  | v :: vs, w' :: ws, h, w, hw => by
    rw [List.mem_cons] at hw
    rcases hw with rfl | hw
    · exact ⟨v, by simp, h.1⟩
    · obtain ⟨v', h1, h2⟩ := ReorderL.mem h.2 w hw
      exact ⟨v', by simp [h1], h2⟩

/-- What reordering does to the outermost constructor. -/
theorem Spec.Reorder.shape {v w : Val} (h : Reorder v w) : match v with
    | .list i vs => ∃ ws, w = .list i ws ∧ ReorderL vs ws
    | .map es => ∃ fs, w = .map fs ∧ (es.map Prod.fst).Perm (fs.map Prod.fst)
    | .struct k vs => ∃ ws, w = .struct k ws ∧ ReorderL vs ws
    | v => w = v := by
  induction h with
  | refl v =>
    cases v <;> first
      | rfl
      | exact ⟨_, rfl, ReorderL.refl _⟩
      | exact ⟨_, rfl, .refl _⟩
  | @trans u v w h1 h2 ih1 ih2 =>
    cases u <;> simp only at ih1 ⊢
    case list i vs =>
      obtain ⟨ws, rfl, h3⟩ := ih1
      obtain ⟨ws', rfl, h4⟩ := ih2
      exact ⟨_, rfl, h3.trans h4⟩
    case map es =>
      obtain ⟨ws, rfl, h3⟩ := ih1
      obtain ⟨ws', rfl, h4⟩ := ih2
      exact ⟨_, rfl, h3.trans h4⟩
    case struct k vs =>
      obtain ⟨ws, rfl, h3⟩ := ih1
      obtain ⟨ws', rfl, h4⟩ := ih2
      exact ⟨_, rfl, h3.trans h4⟩
    all_goals (subst ih1; exact ih2)
  | perm hp => exact ⟨_, rfl, hp.map _⟩
  | inList i pre post h ih => exact ⟨_, rfl, ReorderL.mid h pre post⟩
  | inMap pre post k h ih => exact ⟨_, rfl, by simp⟩
  | inStruct k pre post h ih => exact ⟨_, rfl, ReorderL.mid h pre post⟩

theorem Spec.Reorder.int {k : IntKind} {n : Int} {w : Val} (h : Reorder (.int k n) w) : w = .int k n := h.shape
theorem Spec.Reorder.str {s : Bytes} {w : Val} (h : Reorder (.str s) w) : w = .str s := h.shape
theorem Spec.Reorder.float64 {s : UInt64} {w : Val} (h : Reorder (.float64 s) w) : w = .float64 s := h.shape
theorem Spec.Reorder.list {i : Bool} {vs : List Val} {w : Val} (h : Reorder (.list i vs) w) : ∃ ws, w = .list i ws ∧ ReorderL vs ws := h.shape
theorem Spec.Reorder.map {es : Entries} {w : Val} (h : Reorder (.map es) w) : ∃ fs, w = .map fs ∧ (es.map Prod.fst).Perm (fs.map Prod.fst) := h.shape
theorem Spec.Reorder.struct {k : StructKind} {vs : List Val} {w : Val} (h : Reorder (.struct k vs) w) : ∃ ws, w = .struct k ws ∧ ReorderL vs ws :=
  h.shape

theorem allList_iff {p : Val → Prop} : {vs : List Val} → (AllList p vs ↔ ∀ v ∈ vs, v.All p)
  | [] => by simp [AllList]
  | v :: vs => by simp [AllList, allList_iff (vs := vs)]

theorem allEntries_iff {p : Val → Prop} : {es : Entries} → (AllEntries p es ↔ ∀ e ∈ es, e.2.All p)
  | [] => by simp [AllEntries]
  | (k, v) :: es => by simp [AllEntries, allEntries_iff (es := es)]

/-- A predicate on values that does not depend on the order of maps. -/
def OrderFree (p : Val → Prop) : Prop := ∀ v w, Reorder v w → p v → p w

theorem Spec.Reorder.all {p : Val → Prop} (hp : OrderFree p) {v w : Val} (h : Reorder v w) : v.All p → w.All p := by
  induction h with
  | refl v => exact id
  | trans _ _ ih1 ih2 => exact fun h => ih2 (ih1 h)
  | perm he =>
    simp only [Val.All, allEntries_iff]
    exact fun h => ⟨hp _ _ (.perm he) h.1, fun e hm => h.2 e (he.mem_iff.mpr hm)⟩
  | inList i pre post h ih =>
    simp only [Val.All, allList_iff, List.mem_append, List.mem_cons]
    refine fun hh => ⟨hp _ _ (.inList i pre post h) hh.1, ?_⟩
    rintro v (hv | rfl | hv)
    · exact hh.2 v (.inl hv)
    · exact ih (hh.2 _ (.inr (.inl rfl)))
    · exact hh.2 v (.inr (.inr hv))
  | inMap pre post k h ih =>
    simp only [Val.All, allEntries_iff, List.mem_append, List.mem_cons]
    refine fun hh => ⟨hp _ _ (.inMap pre post k h) hh.1, ?_⟩
    rintro v (hv | rfl | hv)
    · exact hh.2 v (.inl hv)
    · exact ih (hh.2 _ (.inr (.inl rfl)))
    · exact hh.2 v (.inr (.inr hv))
  | inStruct k pre post h ih =>
    simp only [Val.All, allList_iff, List.mem_append, List.mem_cons]
    refine fun hh => ⟨hp _ _ (.inStruct k pre post h) hh.1, ?_⟩
    rintro v (hv | rfl | hv)
    · exact hh.2 v (.inl hv)
    · exact ih (hh.2 _ (.inr (.inl rfl)))
    · exact hh.2 v (.inr (.inr hv))

theorem intsInRange_orderFree : OrderFree intsInRange := by
  intro v w h hv
  have := h.shape
  cases v
  case list i vs => obtain ⟨ws, rfl, _⟩ := this; trivial
  case map es => obtain ⟨ws, rfl, _⟩ := this; trivial
  case struct k vs => obtain ⟨ws, rfl, _⟩ := this; trivial
  all_goals (simp only at this; rw [this]; exact hv)

theorem keys_forall {P : Bytes → Prop} {es : Entries} : (∀ e ∈ es, P e.1) ↔ ∀ k ∈ es.map Prod.fst, P k := by simp

theorem readable_orderFree : OrderFree readable := by
  intro v w h hv
  have := h.shape
  cases v
  case list i vs => obtain ⟨ws, rfl, h1⟩ := this; simp only [readable, h1.length] at hv ⊢; exact hv
  case map es =>
    obtain ⟨ws, rfl, h1⟩ := this
    simp only [readable] at hv ⊢
    refine ⟨?_, ?_⟩
    · have := h1.length_eq; simp only [List.length_map] at this; rw [← this]; exact hv.1
    · rw [keys_forall (P := fun k => readableLen k.length)] at hv ⊢; exact fun k hk => hv.2 k (h1.mem_iff.mpr hk)
  case struct k vs => obtain ⟨ws, rfl, _⟩ := this; trivial
  all_goals (simp only at this; rw [this]; exact hv)

theorem strAtMost_orderFree (m : Nat) : OrderFree (strAtMost m) := by
  intro v w h hv
  have := h.shape
  cases v
  case list i vs => obtain ⟨ws, rfl, h1⟩ := this; trivial
  case map es =>
    obtain ⟨ws, rfl, h1⟩ := this
    simp only [strAtMost] at hv ⊢
    rw [keys_forall (P := fun k => k.length ≤ m)] at hv ⊢; exact fun k hk => hv k (h1.mem_iff.mpr hk)
  case struct k vs => obtain ⟨ws, rfl, _⟩ := this; trivial
  all_goals (simp only at this; rw [this]; exact hv)

theorem ReorderL.cons_inv {v : Val} {vs ws : List Val} (h : ReorderL (v :: vs) ws) : ∃ w ws', ws = w :: ws' ∧ Reorder v w ∧ ReorderL vs ws' := by
  cases ws with
  | nil => exact h.elim
  | cons w ws => exact ⟨w, ws, rfl, h.1, h.2⟩

theorem ReorderL.nil_inv {ws : List Val} (h : ReorderL [] ws) : ws = [] := by
  cases ws with
  | nil => rfl
  | cons w ws => exact h.elim

theorem decodable_struct_orderFree (ver : Ver) (k : StructKind) (vs ws : List Val) (h : ReorderL vs ws) (hv : decodable ver (.struct k vs)) :
    decodable ver (.struct k ws) := by
  cases k <;> simp only [decodable] at hv ⊢
  case node =>
    obtain ⟨id, b, ls, m, rfl, hl⟩ := hv
    obtain ⟨w1, _, rfl, h1, h⟩ := h.cons_inv
    obtain ⟨w2, _, rfl, h2, h⟩ := h.cons_inv
    obtain ⟨w3, _, rfl, h3, h⟩ := h.cons_inv
    obtain rfl := h.nil_inv
    obtain rfl := h1.int
    obtain ⟨ls', rfl, hr⟩ := h2.list
    obtain ⟨m', rfl, _⟩ := h3.map
    refine ⟨_, _, _, _, rfl, ?_⟩
    intro l hl'
    obtain ⟨v, hv, hr'⟩ := hr.mem l hl'
    obtain ⟨s, rfl⟩ := hl v hv
    exact ⟨s, hr'.str⟩
  case relationship =>
    obtain ⟨id, s, e, t, m, rfl⟩ := hv
    obtain ⟨w1, _, rfl, h1, h⟩ := h.cons_inv
    obtain ⟨w2, _, rfl, h2, h⟩ := h.cons_inv
    obtain ⟨w3, _, rfl, h3, h⟩ := h.cons_inv
    obtain ⟨w4, _, rfl, h4, h⟩ := h.cons_inv
    obtain ⟨w5, _, rfl, h5, h⟩ := h.cons_inv
    obtain rfl := h.nil_inv
    obtain rfl := h1.int
    obtain rfl := h2.int
    obtain rfl := h3.int
    obtain rfl := h4.str
    obtain ⟨m', rfl, _⟩ := h5.map
    exact ⟨_, _, _, _, _, rfl⟩
  case unboundRelationship =>
    obtain ⟨id, t, m, rfl⟩ := hv
    obtain ⟨w1, _, rfl, h1, h⟩ := h.cons_inv
    obtain ⟨w4, _, rfl, h4, h⟩ := h.cons_inv
    obtain ⟨w5, _, rfl, h5, h⟩ := h.cons_inv
    obtain rfl := h.nil_inv
    obtain rfl := h1.int
    obtain rfl := h4.str
    obtain ⟨m', rfl, _⟩ := h5.map
    exact ⟨_, _, _, rfl⟩
  case path =>
    obtain ⟨b1, ns, b2, rs, b3, ss, rfl, hn, hr, hs⟩ := hv
    obtain ⟨w1, _, rfl, h1, h⟩ := h.cons_inv
    obtain ⟨w2, _, rfl, h2, h⟩ := h.cons_inv
    obtain ⟨w3, _, rfl, h3, h⟩ := h.cons_inv
    obtain rfl := h.nil_inv
    obtain ⟨ns', rfl, g1⟩ := h1.list
    obtain ⟨rs', rfl, g2⟩ := h2.list
    obtain ⟨ss', rfl, g3⟩ := h3.list
    refine ⟨_, _, _, _, _, _, rfl, ?_, ?_, ?_⟩
    · intro l hl'
      obtain ⟨v, hv, hr'⟩ := g1.mem l hl'
      obtain ⟨s, rfl⟩ := hn v hv
      obtain ⟨ws, rfl, _⟩ := hr'.struct
      exact ⟨_, rfl⟩
    · intro l hl'
      obtain ⟨v, hv, hr'⟩ := g2.mem l hl'
      obtain ⟨s, rfl⟩ := hr v hv
      obtain ⟨ws, rfl, _⟩ := hr'.struct
      exact ⟨_, rfl⟩
    · intro l hl'
      obtain ⟨v, hv, hr'⟩ := g3.mem l hl'
      obtain ⟨s, rfl⟩ := hs v hv
      exact ⟨s, hr'.int⟩
  case point2D ptr =>
    obtain ⟨hv1, hv2, s, x, y, rfl⟩ := hv
    obtain ⟨w1, _, rfl, h1, h⟩ := h.cons_inv
    obtain ⟨w2, _, rfl, h2, h⟩ := h.cons_inv
    obtain ⟨w3, _, rfl, h3, h⟩ := h.cons_inv
    obtain rfl := h.nil_inv
    obtain rfl := h1.int
    obtain rfl := h2.float64
    obtain rfl := h3.float64
    exact ⟨hv1, hv2, _, _, _, rfl⟩
  case point3D ptr =>
    obtain ⟨hv1, hv2, s, x, y, z, rfl⟩ := hv
    obtain ⟨w1, _, rfl, h1, h⟩ := h.cons_inv
    obtain ⟨w2, _, rfl, h2, h⟩ := h.cons_inv
    obtain ⟨w3, _, rfl, h3, h⟩ := h.cons_inv
    obtain ⟨w4, _, rfl, h4, h⟩ := h.cons_inv
    obtain rfl := h.nil_inv
    obtain rfl := h1.int
    obtain rfl := h2.float64
    obtain rfl := h3.float64
    obtain rfl := h4.float64
    exact ⟨hv1, hv2, _, _, _, _, rfl⟩
  case record =>
    obtain ⟨b, us, rfl⟩ := hv
    obtain ⟨w1, _, rfl, h1, h⟩ := h.cons_inv
    obtain rfl := h.nil_inv
    obtain ⟨ns', rfl, g1⟩ := h1.list
    exact ⟨_, _, rfl⟩
  case success =>
    obtain ⟨b, rfl⟩ := hv
    obtain ⟨w1, _, rfl, h1, h⟩ := h.cons_inv
    obtain rfl := h.nil_inv
    obtain ⟨ns', rfl, g1⟩ := h1.map
    exact ⟨_, rfl⟩
  case failure =>
    obtain ⟨b, rfl⟩ := hv
    obtain ⟨w1, _, rfl, h1, h⟩ := h.cons_inv
    obtain rfl := h.nil_inv
    obtain ⟨ns', rfl, g1⟩ := h1.map
    exact ⟨_, rfl⟩
  case ignored => subst hv; exact h.nil_inv
  case discardAll => subst hv; exact h.nil_inv
  case pullAll => subst hv; exact h.nil_inv
  case reset => subst hv; exact h.nil_inv

theorem decodable_orderFree (ver : Ver) : OrderFree (decodable ver) := by
  intro v w h hv
  have := h.shape
  cases v
  case list i vs => obtain ⟨ws, rfl, h1⟩ := this; trivial
  case map es => obtain ⟨ws, rfl, h1⟩ := this; exact h1.nodup_iff.mp hv
  case struct k vs => obtain ⟨ws, rfl, h1⟩ := this; exact decodable_struct_orderFree ver k _ _ h1 hv
  all_goals (simp only at this; rw [this]; exact hv)

theorem asInt_reorder {v w : Val} (h : Reorder v w) : Reorder (asInt v) (asInt w) := by
  have := h.shape
  cases v
  case list i vs => obtain ⟨ws, rfl, h1⟩ := this; exact h
  case map es => obtain ⟨ws, rfl, h1⟩ := this; exact h
  case struct k vs => obtain ⟨ws, rfl, h1⟩ := this; exact h
  all_goals (simp only at this; rw [this]; exact .refl _)

theorem asInts_reorder : {vs ws : List Val} → ReorderL vs ws → ReorderL (vs.map asInt) (ws.map asInt)
  | [], [], _ => trivial
  | _ :: _, _ :: _, h => ⟨asInt_reorder h.1, asInts_reorder h.2⟩

theorem ReorderL.toList {i : Bool} : (pre : List Val) → {vs ws : List Val} → ReorderL vs ws → Reorder (.list i (pre ++ vs)) (.list i (pre ++ ws))
  | pre, [], [], _ => .refl _
  | pre, v :: vs, w :: ws, h => by
    have h1 := Reorder.inList i pre vs h.1
    have h2 := ReorderL.toList (i := i) (pre ++ [w]) h.2
    simp only [List.append_assoc, List.cons_append, List.nil_append] at h2
    exact h1.trans h2

theorem ReorderL.toStruct {k : StructKind} : (pre : List Val) → {vs ws : List Val} → ReorderL vs ws →
    Reorder (.struct k (pre ++ vs)) (.struct k (pre ++ ws))
  | pre, [], [], _ => .refl _
  | pre, v :: vs, w :: ws, h => by
    have h1 := Reorder.inStruct k pre vs h.1
    have h2 := ReorderL.toStruct (k := k) (pre ++ [w]) h.2
    simp only [List.append_assoc, List.cons_append, List.nil_append] at h2
    exact h1.trans h2

theorem retype_reorder (k : StructKind) {vs ws : List Val} (h : ReorderL vs ws) : Reorder (retype k vs) (retype k ws) := by
  have gen : (∀ fs, retype k fs = .struct k fs) → Reorder (retype k vs) (retype k ws) := fun he => by
    rw [he, he]; exact ReorderL.toStruct [] h
  cases k
  case path =>
    match vs, ws, h with
    | [a, b, c], [a', b', c'], h =>
      have hc := h.2.2.1
      by_cases hl : ∃ i ss, c = .list i ss
      · obtain ⟨i, ss, rfl⟩ := hl
        obtain ⟨ss', rfl, hs⟩ := hc.list
        exact ReorderL.toStruct [] ⟨h.1, h.2.1, ReorderL.toList [] (asInts_reorder hs), trivial⟩
      · have hl' : ¬ ∃ i ss, c' = .list i ss := by
          rintro ⟨i, ss, rfl⟩
          have := hc.shape
          cases c <;> first
            | exact hl ⟨_, _, rfl⟩
            | (obtain ⟨_, h1, _⟩ := this; cases h1)
            | cases this
        have e1 : ∀ x y z : Val, (¬ ∃ i ss, z = .list i ss) → retype .path [x, y, z] = .struct .path [x, y, z] := by
          intro x y z hz
          cases z <;> first
            | rfl
            | exact absurd ⟨_, _, rfl⟩ hz
        rw [e1 _ _ _ hl, e1 _ _ _ hl']
        exact ReorderL.toStruct [] h
    | [], [], h => exact .refl _
    | [a], [a'], h => exact ReorderL.toStruct [] h
    | [a, b], [a', b'], h => exact ReorderL.toStruct [] h
    | a :: b :: c :: d :: r, a' :: b' :: c' :: d' :: r', h =>
      have e1 : ∀ x y z u r, retype .path (x :: y :: z :: u :: r) = .struct .path (x :: y :: z :: u :: r) := by
        intro x y z u r; cases z <;> rfl
      rw [e1, e1]
      exact ReorderL.toStruct [] h
    | a :: b :: c :: d :: r, [a', b', c'], h => exact h.2.2.2.elim
    | [a, b, c], a' :: b' :: c' :: d' :: r', h => exact h.2.2.2.elim
    | a :: b :: c :: r, [a', b'], h => exact h.2.2.elim
    | [a, b], a' :: b' :: c' :: r, h => exact h.2.2.elim
    | a :: b :: r, [a'], h => exact h.2.elim
    | [a], a' :: b' :: r, h => exact h.2.elim
    | a :: r, [], h => exact h.elim
    | [], a :: r, h => exact h.elim
  case point2D p =>
    match vs, ws, h with
    | [], [], h => exact .refl _
    | a :: r, a' :: r', h => exact ReorderL.toStruct [] ⟨asInt_reorder h.1, h.2⟩
  case point3D p =>
    match vs, ws, h with
    | [], [], h => exact .refl _
    | a :: r, a' :: r', h => exact ReorderL.toStruct [] ⟨asInt_reorder h.1, h.2⟩
  all_goals exact gen fun fs => by cases fs <;> rfl

/-- The canonical form respects reordering. -/
theorem canon_reorder (env : Env) {v w : Val} (h : Reorder v w) : Reorder (canon env v) (canon env w) := by
  induction h with
  | refl v => exact .refl _
  | trans _ _ ih1 ih2 => exact ih1.trans ih2
  | perm he => simp only [canon, canonEntries_eq]; exact .perm (he.map _)
  | inList i pre post h ih =>
    simp only [canon, canonList_eq, List.map_append, List.map_cons]
    exact .inList true _ _ ih
  | inMap pre post k h ih =>
    simp only [canon, canonEntries_eq, List.map_append, List.map_cons]
    exact .inMap _ _ k ih
  | inStruct k pre post h ih =>
    simp only [canon, canonList_eq, List.map_append, List.map_cons]
    exact retype_reorder k (ReorderL.mid ih _ _)

end Verif
