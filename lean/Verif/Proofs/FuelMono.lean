/-
The bound on the recursion of `reset` only matters by running out: a call that ends within it behaves the same with every larger bound.
-/
import Verif.Proofs.CM
import Verif.Proofs.ConnInv
import Verif.Spec.History
namespace Verif

section
variable {σ : Type} (env : Env) (W : World σ)

/-- `m'` does the same as `m` whenever `m` does not run out of fuel. -/
def Extends {α : Type} (m m' : CM σ α) : Prop := ∀ c, (m c).1 ≠ .fuel → m' c = m c

namespace Extends
variable {α β : Type}

theorem refl (m : CM σ α) : Extends m m := fun _ _ => rfl

theorem bind {m m' : CM σ α} {f f' : α → CM σ β} (hm : Extends m m') (hf : ∀ a, Extends (f a) (f' a)) : Extends (m >>= f) (m' >>= f') := by
  intro c hne
  rw [CM.bind_apply] at hne
  rw [CM.bind_apply, CM.bind_apply]
  have h1 := hm c
  match h : m c with
  | (.ok a, c1) => rw [h] at h1 hne; rw [h1 (by simp)]; exact hf a c1 hne
  | (.err e, c1) => rw [h] at h1; rw [h1 (by simp)]
  | (.panic, c1) => rw [h] at h1; rw [h1 (by simp)]
  | (.fuel, c1) => rw [h] at hne; exact absurd rfl hne

theorem mapErr {f : Err → Err} {m m' : CM σ α} (hm : Extends m m') : Extends (CM.mapErr f m) (CM.mapErr f m') := by
  intro c hne
  unfold CM.mapErr at hne ⊢
  have h1 := hm c
  match h : m c with
  | (.ok a, c1) => rw [h] at h1; rw [h1 (by simp)]
  | (.err e, c1) => rw [h] at h1; rw [h1 (by simp)]
  | (.panic, c1) => rw [h] at h1; rw [h1 (by simp)]
  | (.fuel, c1) => rw [h] at hne; exact absurd rfl hne

theorem thenFail {m m' : CM σ α} (hm : Extends m m') (e : Err) : Extends (CM.thenFail m e : CM σ β) (CM.thenFail m' e) := by
  intro c hne
  unfold CM.thenFail at hne ⊢
  have h1 := hm c
  match h : m c with
  | (.ok a, c1) => rw [h] at h1; rw [h1 (by simp)]
  | (.err e, c1) => rw [h] at h1; rw [h1 (by simp)]
  | (.panic, c1) => rw [h] at h1; rw [h1 (by simp)]
  | (.fuel, c1) => rw [h] at hne; exact absurd rfl hne

theorem void {m m' : CM σ α} (hm : Extends m m') : Extends m.void m'.void := hm.bind fun _ => refl _

end Extends

theorem consumeWith_extends {r r' : CM σ Unit} (h : Extends r r') : Extends (consumeWith env r) (consumeWith env r') := by
  unfold consumeWith
  refine (Extends.refl _).bind fun v => ?_
  split
  · exact (h.mapErr).bind fun _ => Extends.refl _
  · exact Extends.refl _

theorem resetLoop_extends {cl cl' : CM σ Unit} (h : Extends cl cl') : (n : Nat) → Extends (resetLoop env cl n) (resetLoop env cl' n)
  | 0 => Extends.refl _
  | n + 1 => by
    unfold resetLoop
    refine (Extends.refl _).bind fun v => ?_
    cases isIgnored v <;> cases asSuccess v <;> cases asFailure v
    all_goals first | exact Extends.refl _ | exact h.thenFail _ | exact resetLoop_extends h n

theorem resetWith_extends {cl cl' : CM σ Unit} (h : Extends cl cl') : Extends (resetWith env W cl) (resetWith env W cl') := by
  unfold resetWith
  exact (Extends.refl _).bind fun _ => fun c hne => resetLoop_extends env h _ c hne

theorem txExchange_extends {k k' : CM σ Val} (h : Extends k k') (msg : Val) (what : String) : Extends (txExchange env W k msg what) (txExchange env W k' msg what) := by
  unfold txExchange
  refine (Extends.refl _).bind fun _ => ?_
  split
  · exact h.bind fun _ => Extends.refl _
  · exact (Extends.refl _).bind fun _ => (Extends.refl _).bind fun _ => h.bind fun _ => h.bind fun _ => Extends.refl _

theorem endWith_extends {k k' : CM σ Val} (hk : Extends k k') (m : Proto → Val) (what : String) (h : Nat) :
    Extends (endWith env W k m what h) (endWith env W k' m what h) := by
  unfold endWith
  refine (Extends.refl _).bind fun c => ?_
  split
  · exact Extends.refl _
  · exact (Extends.refl _).bind fun c => (txExchange_extends env W hk _ _).bind fun _ => Extends.refl _

theorem closeWith_extends {r r' : Nat → CM σ Unit} (h : ∀ n, Extends (r n) (r' n)) : Extends (closeWith env W r) (closeWith env W r') := by
  unfold closeWith
  refine (Extends.refl _).bind fun c => ?_
  split
  · exact Extends.refl _
  · refine (Extends.refl _).bind fun c => ?_
    split
    · exact (h _).bind fun _ => Extends.refl _
    · exact Extends.refl _

theorem reset_extends : (fuel : Nat) → Extends (reset (σ := σ) env W fuel) (reset env W (fuel + 1))
  | 0 => fun c h => absurd rfl h
  | fuel + 1 => by
    show Extends (reset env W (fuel + 1)) (reset env W (fuel + 1 + 1))
    rw [reset, reset]
    exact resetWith_extends env W (closeWith_extends env W fun h => endWith_extends env W (consumeWith_extends env (reset_extends fuel)) _ _ h)

theorem consume_extends (fuel : Nat) : Extends (consume (σ := σ) env W fuel) (consume env W (fuel + 1)) := consumeWith_extends env (reset_extends env W fuel)

theorem rowsLoop_extends {k k' : CM σ Val} (h : Extends k k') : (n : Nat) → (out : List (List Val)) → Extends (rowsLoop k n out) (rowsLoop k' n out)
  | 0, _ => Extends.refl _
  | n + 1, out => by
    unfold rowsLoop
    refine h.bind fun v => ?_
    cases asSuccess v <;> cases asRecord v
    all_goals first | exact Extends.refl _ | exact rowsLoop_extends h n _

theorem runQuery_extends (fuel : Nat) (q : Bytes) (ps : Entries) (db : Bytes) (inTx : Bool) :
    Extends (runQuery (σ := σ) env W fuel q ps db inTx) (runQuery env W (fuel + 1) q ps db inTx) := by
  unfold runQuery
  refine (Extends.refl _).bind fun c => ?_
  split
  · exact Extends.refl _
  · refine (Extends.refl _).bind fun c => (Extends.refl _).bind fun _ => (Extends.refl _).bind fun _ => (consume_extends env W fuel).bind fun v => ?_
    split
    · exact Extends.refl _
    · exact fun c hne => rowsLoop_extends (consume_extends env W fuel) _ _ c hne

theorem rollback_extends (fuel h : Nat) : Extends (rollback (σ := σ) env W fuel h) (rollback env W (fuel + 1) h) :=
  endWith_extends env W (consume_extends env W fuel) _ _ h

theorem close_extends (fuel : Nat) : Extends (close (σ := σ) env W fuel) (close env W (fuel + 1)) :=
  closeWith_extends env W fun h => rollback_extends env W fuel h

theorem begin_extends (fuel : Nat) (db : Bytes) : Extends (beginWithDatabase (σ := σ) env W fuel db) (beginWithDatabase env W (fuel + 1) db) := by
  unfold beginWithDatabase
  refine (Extends.refl _).bind fun c => ?_
  split
  · exact Extends.refl _
  · refine (Extends.refl _).bind fun c => ?_
    split
    · exact Extends.refl _
    · exact (Extends.refl _).bind fun c => (txExchange_extends env W (consume_extends env W fuel) _ _).bind fun _ => Extends.refl _

theorem step_extends (fuel : Nat) (op : Op) : Extends (step (σ := σ) env W fuel op) (step env W (fuel + 1) op) := by
  have hq : ∀ q ps db inTx, Extends (checkDb db >>= fun _ => runQuery (σ := σ) env W fuel q ps db inTx)
      (checkDb db >>= fun _ => runQuery env W (fuel + 1) q ps db inTx) := fun q ps db inTx =>
    (Extends.refl _).bind fun _ => runQuery_extends env W fuel q ps db inTx
  have he : ∀ q ps db inTx, Extends (do checkDb db; let r ← runQuery (σ := σ) env W fuel q ps db inTx; Pure.pure r.2)
      (do checkDb db; let r ← runQuery env W (fuel + 1) q ps db inTx; Pure.pure r.2) := fun q ps db inTx =>
    (Extends.refl _).bind fun _ => (runQuery_extends env W fuel q ps db inTx).bind fun _ => Extends.refl _
  cases op with
  | query q ps db => exact (hq q ps db false).void
  | exec q ps db => exact (he q ps db false).void
  | begin_ db => exact (begin_extends env W fuel db).void
  | commit h => exact endWith_extends env W (consume_extends env W fuel) _ _ h
  | rollback h => exact rollback_extends env W fuel h
  | txQuery h q ps db => exact (hq q ps db true).void
  | txExec h q ps => exact (he q ps [] false).void
  | txExecDb h q ps db => exact (he q ps db true).void
  | close => exact close_extends env W fuel
  | makeIdle =>
    show Extends (makeIdle env W fuel) (makeIdle env W (fuel + 1))
    unfold makeIdle
    refine (Extends.refl _).bind fun c => ?_
    split
    · exact rollback_extends env W fuel _
    · exact Extends.refl _
  | validateOpen => exact Extends.refl _
  | setChunkSize n => exact Extends.refl _

theorem sendInit_extends (fuel : Nat) (m : Val) : Extends (sendInit (σ := σ) env W fuel m) (sendInit env W (fuel + 1) m) := by
  unfold sendInit
  refine (Extends.refl _).bind fun _ => (consume_extends env W fuel).bind fun v => ?_
  split
  · exact Extends.refl _
  · exact close_extends env W fuel

theorem initConn_extends (fuel : Nat) (u p : Bytes) : Extends (initConn (σ := σ) env W fuel u p) (initConn env W (fuel + 1) u p) := by
  unfold initConn
  refine (Extends.refl _).bind fun _ => (Extends.refl _).bind fun v => ?_
  split
  · exact (Extends.refl _).bind fun _ => sendInit_extends env W fuel _
  · exact Extends.refl _
  · exact Extends.refl _

end
end Verif
