/-
C63: stopping the routing pool.
-/
import Verif.Proofs.PoolRun
import Verif.Spec.Pool
import Verif.Props.C59
namespace Verif

section
variable {ω : Type} (W : PWorld ω)

/-- **C63**: if `Stop` (not interrupted by others) succeeds, the pool has no idle connections any more, and those that did not validate as open have been closed.  (`evs`: what happened.)
Missing: the connections that are still open; they are not closed (`C63_refuted`). -/
theorem C63_partial (fuel : Nat) (s s' : RPool ω) (h : (stop W fuel).run s = (.ok (), s')) :
    (∀ w, s'.queueOf w = []) ∧ ∃ evs, s'.log = s.log ++ evs ∧ ∀ w, ∀ x ∈ s.queueOf w, .checked x.conn.ref true ∈ evs ∨ .closed x.conn.ref ∈ evs := by
  unfold stop at h
  obtain ⟨ok, s₁, h1, h2⟩ := PProg.run_bind_inv h
  simp only [PProg.run_prim, Prod.mk.injEq, CRes.ok.injEq] at h1
  obtain ⟨rfl, rfl⟩ := h1
  split at h2
  · obtain ⟨_, s₂, h3, h4⟩ := PProg.run_bind_inv h2
    simp only [PProg.run_prim, Prod.mk.injEq] at h3
    obtain ⟨_, rfl⟩ := h3
    obtain ⟨_, s₃, h5, h6⟩ := PProg.run_bind_inv h4
    obtain ⟨a1, a2, evs, a3, a4⟩ := drain_run W false h5
    obtain ⟨b1, b2, evs', b3, b4⟩ := drain_run W true h6
    refine ⟨fun w => ?_, evs ++ evs', by rw [b3, a3, List.append_assoc], fun w x hx => ?_⟩
    · cases w with
      | true => exact b1
      | false => exact b2.trans a1
    · cases w with
      | true => exact (b4 x (by rw [show s₃.queueOf true = _ from a2]; exact hx)).symm.imp (List.mem_append_right _) (List.mem_append_right _)
      | false => exact (a4 x hx).symm.imp (List.mem_append_left _) (List.mem_append_left _)
  · simp [PProg.fail, PProg.run] at h2

end

namespace C63

/-- A call has succeeded. -/
def good : CRes Unit → Bool
  | .ok () => true
  | _ => false

theorem good_iff {r : CRes Unit} (h : good r = true) : r = .ok () := by
  match r, h with
  | .ok (), _ => rfl

/-- One of the three connections of a pool has died. -/
def script : Script where
  rows _ := threeMembers
  alive _ r := r ≠ 2

/-- The pool, and the result of stopping it. -/
def result (script : Script) : Option (RPool Nat × CRes Unit × RPool Nat) :=
  match openRoutingPool script.world (ascii "bolt+routing://a") 3 (ascii "u:p") [] 0 with
  | .ok (.ok (), pool) => some (pool, (stop script.world 100).run pool)
  | _ => none

end C63

/-- The hypothesis of `C63_partial` is met: one connection is closed, two are not. -/
example : (C63.result C63.script).map (fun (pool, r, s) => ((pool.queueOf true ++ pool.queueOf false).map (·.conn.ref), C63.good r,
    s.log.filterMap fun e => match e with | .closed r => some r | _ => none)) = some ([1, 2, 3], true, [0, 2]) := by decide +kernel

/-- **C63 refuted**: a pool with healthy connections is stopped; `Stop` succeeds, and none of them is closed. -/
theorem C63_refuted : ¬ ∀ {ω : Type} (W : PWorld ω) {connStr : Bytes} {size : Int} {user tls : Bytes} {w : ω} {pool : RPool ω},
    openRoutingPool W connStr size user tls w = .ok (.ok (), pool) → ∀ (fuel : Nat) (s : RPool ω), (stop W fuel).run pool = (.ok (), s) →
    ∀ w, ∀ x ∈ pool.queueOf w, .closed x.conn.ref ∈ s.log := by
  intro hall
  have check : (match C63.result { rows := fun _ => threeMembers } with
    | some (pool, r, s) => C63.good r && (pool.queueOf true).any fun x => s.log.all fun e => match e with | .closed r => r != x.conn.ref | _ => true
    | none => false) = true := by decide +kernel
  unfold C63.result at check
  generalize ho : openRoutingPool (Script.world { rows := fun _ => threeMembers }) (ascii "bolt+routing://a") 3 (ascii "u:p") [] 0 = o at check
  match o, ho, check with
  | .ok (.ok (), pool), ho, check =>
    simp only [Bool.and_eq_true, decide_eq_true_eq, List.any_eq_true, List.all_eq_true] at check
    obtain ⟨hr, x, hx, hn⟩ := check
    have := hall _ ho 100 _ (Prod.ext (C63.good_iff hr) rfl) true x hx
    have := hn _ this
    simp at this

end Verif
