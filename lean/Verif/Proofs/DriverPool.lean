/-
The pool without routing: effects of the parts.
-/
import Verif.Spec.DriverPool
import Verif.Proofs.StepsAll
namespace Verif
open Spec

section
variable {σ : Type} (env : Env) (W : World σ) (semi : Bool) (fuel : Nat) (net : Net σ)

/-- A relation between states of a pool that is kept by everything but `open`, `close` and `reclaim` themselves. -/
structure DRel (R : DPool σ → DPool σ → Prop) : Prop where
  refl : ∀ s, R s s
  trans : ∀ {a b c}, R a b → R b c → R a c
  dial : ∀ s, R s (dCreate env W semi fuel net s).2
  probe : ∀ r s, R s (onConn r (validateOpen W) s).2
  shut : ∀ r s, R s (onConn r (close env W fuel) s).2
  idle : ∀ r s, R s (passivateObject env W fuel (.conn r) s).2
  objs : ∀ s l, R s { s with objs := l }

namespace DRel
variable {env W semi fuel net} {R : DPool σ → DPool σ → Prop} (P : DRel env W semi fuel net R)
include P

theorem make (s : DPool σ) : R s (makeObject env W semi fuel net s).2 := by
  have h := P.dial s
  unfold makeObject
  split <;> rename_i hc <;> rw [hc] at h
  · exact P.trans h (P.objs _ _)
  · exact h
  · exact h
  · exact h

theorem destroy (x : PObj) (s : DPool σ) : R s (destroyObject env W fuel x s).2 := by
  cases x with
  | nilPointer => exact P.refl s
  | nilObject => exact P.refl s
  | foreign => exact P.refl s
  | conn r =>
    have h := P.probe r s
    unfold destroyObject
    dsimp only
    split <;> rename_i hc <;> rw [hc] at h
    · exact P.trans h (P.shut r _)
    · exact h
    · exact h
    · exact h
    · exact h

theorem validate (x : PObj) (s : DPool σ) : R s (validateObject W x s).2 := by
  cases x with
  | conn r => exact P.probe r s
  | _ => exact P.refl s

theorem activate (o : Nat) (x : PObj) (s : DPool σ) : R s (activateObject env W semi fuel net o x s).2 := by
  cases x with
  | nilPointer => exact P.refl s
  | nilObject => exact P.refl s
  | foreign => exact P.refl s
  | conn r =>
    have h := P.probe r s
    unfold activateObject
    dsimp only
    split <;> rename_i hc <;> rw [hc] at h
    · exact h
    · refine P.trans h ?_
      rename_i s'
      have h2 := P.dial s'
      split <;> rename_i hd <;> rw [hd] at h2
      · exact P.trans h2 (P.objs _ _)
      · exact h2
      · exact h2
      · exact h2
    · exact h
    · exact h
    · exact h

theorem passivate (x : PObj) (s : DPool σ) : R s (passivateObject env W fuel x s).2 := by
  cases x with
  | conn r => exact P.idle r s
  | _ => exact P.refl s

theorem call (c : FCall) (s : DPool σ) : R s (c.run env W semi fuel net s) := by
  cases c with
  | make => exact P.make s
  | destroy o => exact P.destroy _ s
  | validate o => exact P.validate _ s
  | activate o => exact P.activate o _ s
  | passivate o => exact P.passivate _ s

theorem library (calls : List FCall) (s : DPool σ) : R s (library env W semi fuel net calls s) := by
  unfold Verif.library
  induction calls generalizing s with
  | nil => exact P.refl s
  | cons c cs ih => exact P.trans (P.call c s) (ih _)

end DRel

theorem onConn_closed {α : Type} (r : Nat) (m : CM σ α) (s : DPool σ) : (onConn r m s).2.closed = s.closed := by
  unfold onConn
  split <;> rfl

theorem dCreate_closed (s : DPool σ) : (dCreate env W semi fuel net s).2.closed = s.closed := by
  unfold dCreate
  split <;> rfl

/-- The factory does not change whether the pool is closed. -/
theorem sameClosed : DRel env W semi fuel net (fun (s s' : DPool σ) => s'.closed = s.closed) where
  refl _ := rfl
  trans h1 h2 := h2.trans h1
  dial := dCreate_closed env W semi fuel net
  probe r s := onConn_closed r _ s
  shut r s := onConn_closed r _ s
  idle r s := onConn_closed r _ s
  objs _ _ := rfl

end
end Verif
