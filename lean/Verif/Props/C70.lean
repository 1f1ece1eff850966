/-
C70  A closed driver pool refuses to open connections.
-/
import Verif.Proofs.DriverPool
import Verif.Spec.Scripted
namespace Verif
open Spec

section
variable {σ : Type} (env : Env) (W : World σ) (semi : Bool) (fuel : Nat) (net : Net σ)

theorem dOpen_closed_mono (borrow : DM σ PObj) (hb : ∀ s, (borrow s).2.closed = s.closed) (s : DPool σ) : (dOpen W borrow s).2.closed = s.closed := by
  unfold dOpen
  split
  · rfl
  · have h := hb s
    split <;> rename_i hx <;> rw [hx] at h
    · rename_i r s'
      have h2 := onConn_closed r (validateOpen W) s'
      split <;> rename_i hy <;> rw [hy] at h2 <;> exact h2.trans h
    · exact h
    · exact h
    · exact h
    · exact h

/-- A closed pool stays closed. -/
theorem stays_closed (m : DMove) (s : DPool σ) (h : s.closed = true) : (m.run env W semi fuel net s).closed = true := by
  have hl := fun calls => (sameClosed env W semi fuel net).library calls
  cases m with
  | «open» calls answer => exact (dOpen_closed_mono W _ (fun s => hl calls s) s).trans h
  | reclaim r calls answer =>
    cases r with
    | none => exact h
    | some r => exact (hl calls _).trans h
  | close calls =>
    show (dClose _ s).2.closed = true
    unfold dClose
    rw [if_pos h]
    exact h
  | evict calls => exact (hl calls s).trans h
  | user r op => exact (onConn_closed r _ s).trans h

theorem run_stays_closed (ms : List DMove) (s : DPool σ) (h : s.closed = true) : (dRun env W semi fuel net ms s).closed = true := by
  unfold dRun
  induction ms generalizing s with
  | nil => exact h
  | cons m ms ih => exact ih _ (stays_closed env W semi fuel net m s h)

/-- C70: whatever the library does and returns, whatever state the pool was in when `Close` returned nil, and whatever happens afterwards: every `Open` and every further `Close` returns an
error, and does not even ask the library (nothing changes). -/
theorem C70 {s s1 : DPool σ} {shut : DPool σ → DPool σ} (h : dClose shut s = (.ok (), s1)) (ms : List DMove) :
    let s2 := dRun env W semi fuel net ms s1
    (∀ borrow, ∃ e, dOpen W borrow s2 = (.err e, s2)) ∧ ∀ shut', ∃ e, dClose shut' s2 = (.err e, s2) := by
  have h1 : s1.closed = true := by
    unfold dClose at h
    split at h
    · cases h
    · cases h; rfl
  have h2 := run_stays_closed env W semi fuel net ms s1 h1
  refine ⟨fun borrow => ⟨.new "Driver pool has been closed", ?_⟩, fun shut' => ⟨errClosed.wrap "internalDriver pool is already closed", ?_⟩⟩
  · unfold dOpen
    rw [if_pos h2]
  · unfold dClose
    rw [if_pos h2]

/-- And the first `Close` of a new pool does succeed, whatever happened before. -/
theorem C70_first {s : DPool σ} (h : s.closed = false) (shut : DPool σ → DPool σ) : ∃ s1, dClose shut s = (.ok (), s1) := by
  unfold dClose
  rw [if_neg (by simp [h])]
  exact ⟨_, rfl⟩

theorem C70_new (connStr : Bytes) (ms : List DMove) (h : ∀ m ∈ ms, ∀ calls, m ≠ .close calls) (shut : DPool σ → DPool σ) :
    ∃ s1, dClose shut (dRun env W semi fuel net ms (newDriverPool connStr)) = (.ok (), s1) := by
  refine C70_first ?_ shut
  suffices ∀ (ms : List DMove) (s : DPool σ), (∀ m ∈ ms, ∀ calls, m ≠ .close calls) → s.closed = false → (dRun env W semi fuel net ms s).closed = false from
    this ms _ h rfl
  intro ms
  induction ms with
  | nil => intro s _ h; exact h
  | cons m ms ih =>
    intro s hm h
    refine ih _ (fun m' hm' => hm m' (List.mem_cons_of_mem _ hm')) ?_
    have hl := fun calls => (sameClosed env W semi fuel net).library calls
    cases m with
    | «open» calls answer => exact (dOpen_closed_mono W _ (fun s => hl calls s) s).trans h
    | reclaim r calls answer =>
      cases r with
      | none => exact h
      | some r => exact (hl calls _).trans h
    | close calls => exact absurd rfl (hm _ List.mem_cons_self calls)
    | evict calls => exact (hl calls s).trans h
    | user r op => exact (onConn_closed r _ s).trans h

end

/-- A pool for the scripted server; its library makes one connection and lends it. -/
def C70.history : List DMove := [.open [.make] (.ok (.conn 0)), .user 0 (.begin_ []), .reclaim (some 0) [.passivate 0] none]

/-- Before it is closed, that pool does open connections; afterwards it does not. -/
example :
    let net := noFiles fun _ _ => sOpen4 ++ [sSuccess, sSuccess, sSuccess]
    let s := dRun env0 scripted false 3 net C70.history (newDriverPool (ascii "bolt://u:p@host:7687"))
    let again := borrowed env0 scripted false 3 net [.validate 0, .activate 0] (.ok (.conn 0))
    (dOpen scripted again s).1.kind = 0 ∧ (dClose id s).1.kind = 0 ∧ (dOpen scripted again (dClose id s).2).1.kind = 1 ∧ s.log = [.opened 0, .reclaimed 0, .passivated 0 true] := by
  decide +kernel

end Verif
