/-
C73, what does hold: calls that do not lock must not overlap with other calls.

`Begin`, `Commit`, `Rollback`, `Close`, `MakeIdle` and `ValidateOpen` do not take the mutex (`C73_refuted` shows what may happen then).  If the users see to it that while such a call is in
progress no other call is, queries being free to overlap with each other, then all calls are executed one after the other.
-/
import Verif.Props.C46
namespace Verif
variable {σ : Type} (env : Env) (W : World σ)

/-- While a goroutine is inside a call that is not a query, no other goroutine is inside a call. -/
def Spec.Undisturbed (s : Sys σ AnyReq) : Prop :=
  ∀ i j r p, (s.thr i).cur = some (r, p) → (∀ q, r ≠ .query q) → j ≠ i → (s.thr j).cur = none

/-- At every moment. -/
def Spec.AlwaysUndisturbed (fuel : Nat) : List Nat → Sys σ AnyReq → Prop
  | [], s => Spec.Undisturbed s
  | i :: is, s => Spec.Undisturbed s ∧ Spec.AlwaysUndisturbed fuel is ((s.step (anyCode env W fuel) i).getD s)

namespace C73

section
variable {env W} {fuel : Nat}

/-- Every action leaves the protocol alone. -/
theorem keeps : Prog.Acts env W (fun (c c' : Conn σ) => c'.proto = c.proto) where
  same _ := rfl
  endTx _ _ := rfl
  send v c := ((sameProto env W).send v c).1
  recv c := ((sameProto env W).recv c).1
  sock c := ((sameProto env W).sock c).1

theorem prog_keeps (r : AnyReq) : ((anyCode env W fuel).prog r).Each (fun (c c' : Conn σ) => c'.proto = c.proto) := by
  cases r with
  | query r => exact keeps.runQuery fuel _ _ _ _
  | begin_ db => exact Prog.Each.bind (keeps.begin_ (fun _ => rfl) fuel db) fun _ => trivial
  | commit h => exact Prog.Each.bind (keeps.commit fuel h) fun _ => trivial
  | rollback h => exact Prog.Each.bind (keeps.rollback fuel h) fun _ => trivial
  | close => exact Prog.Each.bind (keeps.close fuel) fun _ => trivial
  | makeIdle => exact Prog.Each.bind (keeps.makeIdle fuel) fun _ => trivial
  | validateOpen =>
    refine Prog.Each.bind (Prog.Each.prim fun c => ?_) fun _ => trivial
    unfold Verif.validateOpen
    split
    · rfl
    · split
      · rfl
      · rfl
      · split <;> rfl
  | isClosed h => exact Prog.Each.bind (Prog.Each.prim fun c => rfl) fun _ => trivial
  | setChunkSize n => exact Prog.Each.bind (Prog.Each.prim fun c => rfl) fun _ => trivial
  | setTimeout => exact Prog.Each.bind (Prog.Each.prim fun c => rfl) fun _ => trivial

/-- The program of a call that is not refused does what the call does. -/
theorem prog_alone {r : AnyReq} {c c' : Conn σ} (h : (anyCode env W fuel).pre r c = none) (hp : c'.proto = c.proto) :
    ((anyCode env W fuel).prog r).run c' = r.alone env W fuel c' := by
  cases r with
  | query r => exact (congrFun (Prog.run_runQuery env W fuel _ _ _ _) c').trans (pre_none h hp).symm
  | begin_ db => exact congrFun ((Prog.run_bind' _ _).trans (congrArg (CM.bind · _) (Prog.run_begin env W fuel db))) c'
  | commit h' => exact congrFun ((Prog.run_bind' _ _).trans (congrArg (CM.bind · _) (Prog.run_commit env W fuel h'))) c'
  | rollback h' => exact congrFun ((Prog.run_bind' _ _).trans (congrArg (CM.bind · _) (Prog.run_rollback env W fuel h'))) c'
  | close => exact congrFun ((Prog.run_bind' _ _).trans (congrArg (CM.bind · _) (Prog.run_close env W fuel))) c'
  | makeIdle => exact congrFun ((Prog.run_bind' _ _).trans (congrArg (CM.bind · _) (Prog.run_makeIdle env W fuel))) c'
  | validateOpen => exact congrFun (Prog.run_bind' _ _) c'
  | isClosed h' => exact congrFun (Prog.run_bind' _ _) c'
  | setChunkSize n => exact congrFun (Prog.run_bind' _ _) c'
  | setTimeout => exact congrFun (Prog.run_bind' _ _) c'

theorem refused_alone {r : AnyReq} {c c' : Conn σ} {res : CRes Rows} (h : (anyCode env W fuel).pre r c = some res) (hp : c'.proto = c.proto) :
    r.alone env W fuel c' = (res, c') := by
  cases r with
  | query r => exact pre_some h hp
  | _ => cases h

theorem serial_snoc {l : List (Nat × AnyReq × CRes Rows)} {c c' : Conn σ} (h : Spec.Serial (AnyReq.alone env W fuel) c l c')
    (i : Nat) (r : AnyReq) : Spec.Serial (AnyReq.alone env W fuel) c (l ++ [(i, r, (r.alone env W fuel c').1)]) (r.alone env W fuel c').2 := by
  induction l generalizing c with
  | nil => subst h; exact ⟨rfl, rfl⟩
  | cons e l ih => exact ⟨h.1, ih h.2⟩

/-- Nobody is inside a call, or one goroutine is, and will do what it would have done alone. -/
def Alone (fuel : Nat) (s : Sys σ AnyReq) (c1 : Conn σ) : Prop :=
  (s.holder = none ∧ s.conn = c1 ∧ ∀ j, (s.thr j).cur = none) ∨
  ∃ i r p, (s.thr i).cur = some (r, p) ∧ (∀ j, j ≠ i → (s.thr j).cur = none) ∧ p.run s.conn = r.alone env W fuel c1 ∧
    (p.Each fun c c' => c'.proto = c.proto) ∧ s.holder = (if (anyCode env W fuel).locks r then some i else none)

/-- What holds at every moment. -/
structure Inv (fuel : Nat) (c0 : Conn σ) (todo : Nat → List AnyReq) (s : Sys σ AnyReq) : Prop where
  proto : s.conn.proto = c0.proto
  serial : ∃ c1, Spec.Serial (AnyReq.alone env W fuel) c0 s.log c1 ∧ c1.proto = c0.proto ∧ Alone (env := env) (W := W) fuel s c1
  order : ∀ i, todo i = Spec.callsOf i s.log ++ ((s.thr i).cur.map Prod.fst).toList ++ (s.thr i).todo

theorem Inv.init (c0 : Conn σ) (todo : Nat → List AnyReq) : Inv (env := env) (W := W) fuel c0 todo (Sys.init c0 todo) where
  proto := rfl
  serial := ⟨c0, rfl, rfl, .inl ⟨rfl, rfl, fun _ => rfl⟩⟩
  order _ := rfl

theorem order_keep {ρ : Type} {todo : Nat → List ρ} {s : Sys σ ρ} (h : ∀ i, todo i = Spec.callsOf i s.log ++ ((s.thr i).cur.map Prod.fst).toList ++ (s.thr i).todo)
    {i : Nat} {t : Thread σ ρ} (ht : ((s.thr i).cur.map Prod.fst).toList ++ (s.thr i).todo = (t.cur.map Prod.fst).toList ++ t.todo) (j : Nat) :
    todo j = Spec.callsOf j s.log ++ (((s.setThr i t) j).cur.map Prod.fst).toList ++ ((s.setThr i t) j).todo := by
  by_cases hj : j = i
  · subst hj
    rw [setThr_self, h j, List.append_assoc, List.append_assoc, ht]
  · rw [setThr_ne s hj]
    exact h j

theorem order_return {ρ : Type} {todo : Nat → List ρ} {s : Sys σ ρ} (h : ∀ i, todo i = Spec.callsOf i s.log ++ ((s.thr i).cur.map Prod.fst).toList ++ (s.thr i).todo)
    {i : Nat} {r : ρ} {rs : List ρ} (res : CRes Rows) (ht : ((s.thr i).cur.map Prod.fst).toList ++ (s.thr i).todo = r :: rs) (j : Nat) :
    todo j = Spec.callsOf j (s.log ++ [(i, r, res)]) ++ (((s.setThr i ⟨rs, none⟩) j).cur.map Prod.fst).toList ++ ((s.setThr i ⟨rs, none⟩) j).todo := by
  rw [callsOf_snoc]
  by_cases hj : j = i
  · subst hj
    rw [setThr_self, h j, List.append_assoc, ht, if_pos rfl]
    simp
  · rw [setThr_ne s hj, if_neg (Ne.symm hj), List.append_nil]
    exact h j

theorem Inv.step {c0 : Conn σ} {todo : Nat → List AnyReq} {s s' : Sys σ AnyReq} {i : Nat} (hI : Inv (env := env) (W := W) fuel c0 todo s)
    (h : s.step (anyCode env W fuel) i = some s') (hu : Spec.Undisturbed s') : Inv (env := env) (W := W) fuel c0 todo s' := by
  obtain ⟨hproto, ⟨c1, hser, hc1, hin⟩, horder⟩ := hI
  unfold Sys.step at h
  split at h
  · next hcur =>
    split at h
    · cases h
    · next r rs htodo =>
      have hot : ((s.thr i).cur.map Prod.fst).toList ++ (s.thr i).todo = r :: rs := by rw [hcur, htodo]; rfl
      split at h
      · -- refused
        next res hpre =>
        cases h
        refine ⟨hproto, ⟨c1, ?_, hc1, ?_⟩, order_return horder res hot⟩
        · have := serial_snoc hser i r
          rw [refused_alone hpre (hc1.trans hproto.symm)] at this
          exact this
        · rcases hin with ⟨hh, hc, hall⟩ | ⟨k, r', p, hk, hother, hrest⟩
          · refine .inl ⟨hh, hc, fun j => ?_⟩
            dsimp only
            by_cases hj : j = i
            · subst hj; rw [setThr_self]
            · rw [setThr_ne s hj]; exact hall j
          · have hki : k ≠ i := by rintro rfl; rw [hcur] at hk; cases hk
            refine .inr ⟨k, r', p, ?_, fun j hj => ?_, hrest⟩
            · dsimp only; rw [setThr_ne s hki]; exact hk
            · dsimp only
              by_cases hji : j = i
              · subst hji; rw [setThr_self]
              · rw [setThr_ne s hji]; exact hother j hj
      · -- the call starts
        next hpre =>
        -- nobody else is inside a call
        have free : (∀ k r' p, (s.thr k).cur = some (r', p) → k ≠ i → (s.holder = if (anyCode env W fuel).locks r' then some k else none) → False) →
            s.holder = none ∧ s.conn = c1 ∧ ∀ j, (s.thr j).cur = none := by
          intro hno
          rcases hin with hin | ⟨k, r', p, hk, hother, _, _, hh⟩
          · exact hin
          · exact absurd (hno k r' p hk (by rintro rfl; rw [hcur] at hk; cases hk) hh) id
        have started : ∀ hold, (hold = if (anyCode env W fuel).locks r then some i else none) → s.conn = c1 → (∀ j, (s.thr j).cur = none) →
            Inv (env := env) (W := W) fuel c0 todo { s with holder := hold, thr := s.setThr i ⟨rs, some (r, (anyCode env W fuel).prog r)⟩ } := by
          intro hold hhold hc hall
          subst hc
          refine ⟨hproto, ⟨s.conn, hser, hc1, .inr ⟨i, r, (anyCode env W fuel).prog r, ?_, fun j hj => ?_, prog_alone hpre rfl, prog_keeps r, hhold⟩⟩,
            order_keep horder (t := ⟨rs, some (r, (anyCode env W fuel).prog r)⟩) (by rw [hot]; rfl)⟩
          · dsimp only; rw [setThr_self]
          · dsimp only; rw [setThr_ne s hj]; exact hall j
        split at h
        · next hl =>
          split at h
          · cases h
          · next hh =>
            cases h
            obtain ⟨_, hc, hall⟩ := free fun k r' p hk hki hhold => by
              by_cases hl' : (anyCode env W fuel).locks r' = true
              · rw [if_pos hl', hh] at hhold; cases hhold
              · have := hu k i r' p (by dsimp only; rw [setThr_ne s hki]; exact hk)
                  (by rintro q rfl; exact hl' rfl) (Ne.symm hki)
                dsimp only at this
                rw [setThr_self] at this
                cases this
            exact started _ (by rw [if_pos hl]) hc hall
        · next hl =>
          cases h
          obtain ⟨hh, hc, hall⟩ := free fun k r' p hk hki _ => by
            have := hu i k r _ (by dsimp only; rw [setThr_self]) (by rintro q rfl; exact hl rfl) hki
            dsimp only at this
            rw [setThr_ne s hki, hk] at this
            cases this
          exact started _ (by rw [if_neg hl]; exact hh) hc hall
  · -- an action
    next r _ g k hcur =>
    cases h
    rcases hin with ⟨_, _, hall⟩ | ⟨k', r', p, hk, hother, hrun, heach, hh⟩
    · rw [hall i] at hcur; cases hcur
    · have hki : k' = i := by
        by_cases e : k' = i
        · exact e
        · rw [hother i (Ne.symm e)] at hcur; cases hcur
      subst hki
      rw [hcur] at hk
      cases hk
      have hg := heach s.conn
      refine ⟨hg.1.trans hproto, ⟨c1, hser, hc1, .inr ⟨k', r, k s.conn, ?_, fun j hj => ?_, hrun, hg.2, hh⟩⟩, order_keep horder (by rw [hcur]; rfl)⟩
      · dsimp only; rw [setThr_self]
      · dsimp only; rw [setThr_ne s hj]; exact hother j hj
  · -- the call returns
    next r res hcur =>
    cases h
    rcases hin with ⟨_, _, hall⟩ | ⟨k', r', p, hk, hother, hrun, heach, hh⟩
    · rw [hall i] at hcur; cases hcur
    · have hki : k' = i := by
        by_cases e : k' = i
        · exact e
        · rw [hother i (Ne.symm e)] at hcur; cases hcur
      subst hki
      rw [hcur] at hk
      cases hk
      have ha : r.alone env W fuel c1 = (res, s.conn) := hrun.symm
      refine ⟨hproto, ⟨s.conn, ?_, hproto, .inl ⟨?_, rfl, fun j => ?_⟩⟩, order_return horder res (by rw [hcur]; rfl)⟩
      · have := serial_snoc hser k' r
        rw [ha] at this
        exact this
      · dsimp only
        split
        · rfl
        · next hl => rw [hh, if_neg hl]
      · dsimp only
        by_cases hj : j = k'
        · subst hj; rw [setThr_self]
        · rw [setThr_ne s hj]; exact hother j hj

theorem now : {is : List Nat} → {s : Sys σ AnyReq} → Spec.AlwaysUndisturbed env W fuel is s → Spec.Undisturbed s
  | [], _, h => h
  | _ :: _, _, h => h.1

theorem Inv.sched {c0 : Conn σ} {todo : Nat → List AnyReq} : (is : List Nat) → {s : Sys σ AnyReq} → Spec.AlwaysUndisturbed env W fuel is s →
    Inv (env := env) (W := W) fuel c0 todo s → Inv (env := env) (W := W) fuel c0 todo (s.sched (anyCode env W fuel) is)
  | [], _, _, h => h
  | i :: is, s, hu, h => by
    have hu' := hu.2
    unfold Sys.sched
    cases hs : s.step (anyCode env W fuel) i with
    | none =>
      rw [hs] at hu'
      exact Inv.sched is hu' h
    | some s' =>
      rw [hs] at hu'
      exact Inv.sched is hu' (h.step hs (now hu'))

end
end C73

/-- Any goroutines making calls of any kind in any schedule in which calls that do not lock do not overlap with other calls.
* The calls that returned, in the order in which they returned, are as if made one after the other by a single goroutine, which would have arrived at `c1`, with the same results.
* If no call is in progress the connection is `c1`.
* If one is, no other is, and the rest of it will do what it would have done alone starting with `c1`.
* Every goroutine's calls are made in its order.

What is missing from C73: calls that do overlap, see `C73_refuted`. -/
theorem C73_exclusive_partial (fuel : Nat) (c0 : Conn σ) (todo : Nat → List AnyReq) (is : List Nat)
    (h : Spec.AlwaysUndisturbed env W fuel is (Sys.init c0 todo)) :
    ∃ c1, Spec.Serial (AnyReq.alone env W fuel) c0 ((Sys.init c0 todo).sched (anyCode env W fuel) is).log c1 ∧
      (((Sys.init c0 todo).sched (anyCode env W fuel) is).conn = c1 ∧ (∀ j, (((Sys.init c0 todo).sched (anyCode env W fuel) is).thr j).cur = none) ∨
        ∃ i r p, (((Sys.init c0 todo).sched (anyCode env W fuel) is).thr i).cur = some (r, p) ∧
          (∀ j, j ≠ i → (((Sys.init c0 todo).sched (anyCode env W fuel) is).thr j).cur = none) ∧
          p.run ((Sys.init c0 todo).sched (anyCode env W fuel) is).conn = r.alone env W fuel c1) ∧
      ∀ i, todo i = Spec.callsOf i ((Sys.init c0 todo).sched (anyCode env W fuel) is).log ++
        ((((Sys.init c0 todo).sched (anyCode env W fuel) is).thr i).cur.map Prod.fst).toList ++ (((Sys.init c0 todo).sched (anyCode env W fuel) is).thr i).todo := by
  obtain ⟨_, ⟨c1, hser, _, hin⟩, horder⟩ := C73.Inv.sched is h (C73.Inv.init (env := env) (W := W) (fuel := fuel) c0 todo)
  refine ⟨c1, hser, ?_, horder⟩
  rcases hin with ⟨_, h1, h2⟩ | ⟨i, r, p, h1, h2, h3, _⟩
  · exact .inl ⟨h1, h2⟩
  · exact .inr ⟨i, r, p, h1, h2, h3⟩

namespace C73

/-- Goroutine 1 begins a transaction and commits it; two goroutines make queries. -/
def todo' : Nat → List AnyReq
  | 0 => [.query C46.req]
  | 1 => [.begin_ [], .commit 0]
  | 2 => [.query C46.req]
  | _ => []

/-- Goroutine 1 begins; then the queries overlap; then goroutine 1 commits. -/
def sched' : List Nat := List.replicate 9 1 ++ (List.replicate 20 [0, 2]).flatten ++ List.replicate 20 1

/-- Goroutine `i` is inside a query, or not inside a call. -/
def querying (s : Sys Unit AnyReq) (i : Nat) : Bool :=
  match (s.thr i).cur with
  | none => true
  | some (.query _, _) => true
  | some _ => false

/-- Whether the three goroutines leave each other alone. -/
def calm (s : Sys Unit AnyReq) : Bool :=
  querying s 0 && querying s 2 && ((s.thr 1).cur.isNone || (s.thr 0).cur.isNone && (s.thr 2).cur.isNone)

/-- All of the schedule. -/
def allCalm : List Nat → Sys Unit AnyReq → Bool
  | [], s => calm s
  | i :: is, s => calm s && allCalm is ((s.step (anyCode env0 server 3) i).getD s)

theorem calm_undisturbed {s : Sys Unit AnyReq} (hs : ∀ j, 3 ≤ j → (s.thr j).cur = none) (h : calm s = true) : Spec.Undisturbed s := by
  intro i j r p hi hr hji
  have hi3 : i < 3 := by
    rcases Nat.lt_or_ge i 3 with h | h
    · exact h
    · rw [hs i h] at hi; cases hi
  have hq : ∀ k, querying s k = true → ∀ r p, (s.thr k).cur = some (r, p) → ∃ q, r = .query q := by
    intro k hk r p hr
    unfold querying at hk
    rw [hr] at hk
    cases r with
    | query q => exact ⟨q, rfl⟩
    | _ => cases hk
  unfold calm at h
  simp only [Bool.and_eq_true, Bool.or_eq_true, Option.isNone_iff_eq_none] at h
  obtain ⟨⟨h0, h2⟩, h1⟩ := h
  have hi1 : i = 1 := by
    match i, hi3 with
    | 0, _ => obtain ⟨q, hq⟩ := hq 0 h0 _ _ hi; exact absurd hq (hr q)
    | 1, _ => rfl
    | 2, _ => obtain ⟨q, hq⟩ := hq 2 h2 _ _ hi; exact absurd hq (hr q)
  subst hi1
  rcases h1 with h1 | h1
  · rw [hi] at h1; cases h1
  rcases Nat.lt_or_ge j 3 with hj3 | hj3
  · match j, hj3 with
    | 0, _ => exact h1.1
    | 1, _ => exact absurd rfl hji
    | 2, _ => exact h1.2
  · exact hs j hj3

theorem step_others {s s' : Sys Unit AnyReq} {K : Code Unit AnyReq} {i k : Nat} (hk : k ≠ i) (hs : s.step K i = some s') : s'.thr k = s.thr k := by
  unfold Sys.step at hs
  repeat' split at hs
  all_goals first
    | cases hs; exact setThr_ne s hk _
    | cases hs

theorem allCalm_undisturbed : {is : List Nat} → {s : Sys Unit AnyReq} → (∀ i ∈ is, i < 3) → (∀ j, 3 ≤ j → (s.thr j).cur = none) → allCalm is s = true →
    Spec.AlwaysUndisturbed env0 server 3 is s
  | [], _, _, hs, h => calm_undisturbed hs h
  | i :: is, s, hi, hs, h => by
    have h' := Bool.and_eq_true_iff.mp h
    refine ⟨calm_undisturbed hs h'.1, allCalm_undisturbed (fun x hx => hi x (List.mem_cons_of_mem _ hx)) (fun j hj => ?_) h'.2⟩
    cases hst : s.step (anyCode env0 server 3) i with
    | none => exact hs j hj
    | some s' =>
      have hji : j ≠ i := by have := hi i (List.mem_cons_self ..); omega
      exact (congrArg Thread.cur (step_others hji hst)).trans (hs j hj)

/-- Both queries get their row, the transaction is committed. -/
example : Spec.AlwaysUndisturbed env0 server 3 sched' (Sys.init conn todo') ∧ ((Sys.init conn todo').sched (anyCode env0 server 3) sched').log.map view =
    [(1, .begin_ [], 0, 0), (0, .query C46.req, 0, 1), (2, .query C46.req, 0, 1), (1, .commit 0, 0, 0)] :=
  ⟨allCalm_undisturbed (by decide) (fun _ _ => rfl) (by decide +kernel), by decide +kernel⟩

end C73
end Verif
