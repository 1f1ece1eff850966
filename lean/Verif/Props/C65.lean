/-
C65: connections to servers that left the cluster.
-/
import Verif.Proofs.PoolActs
import Verif.Proofs.PoolRun
import Verif.Props.C58
namespace Verif
open PProg

section
variable {ω : Type} {W : PWorld ω}

/-- No connection is marked, and none is listed for marking. -/
def Unmarked (s : RPool ω) : Prop := s.marked = [] ∧ s.connStrLookup = []

theorem unmarked_act (acc : List Access) (f : RPool ω → RPool ω) (h : PAct W acc f) (s : RPool ω) (hs : Unmarked s) : Unmarked (f s) := by
  obtain ⟨h1, h2⟩ := hs
  cases h with
  | enqueue w x => cases w <;> exact ⟨h1, h2⟩
  | dequeue w =>
    dsimp only
    split
    · exact ⟨h1, h2⟩
    · cases w <;> exact ⟨h1, h2⟩
  | setQueue w q => cases w <;> exact ⟨h1, h2⟩
  | create w str => dsimp only; split <;> exact ⟨h1, h2⟩
  | indexW => dsimp only; split <;> exact ⟨h1, h2⟩
  | indexR => dsimp only; split <;> exact ⟨h1, h2⟩
  | dial => dsimp only; split <;> exact ⟨h1, h2⟩
  | take =>
    refine ⟨?_, h2⟩
    show s.marked ++ _ = []
    rw [h1, List.nil_append, List.flatMap_eq_nil_iff]
    intro str _
    rw [h2]
    rfl
  | startHead => unfold RPool.startHead; split <;> exact ⟨h1, h2⟩
  | _ => exact ⟨h1, h2⟩

theorem open_unmarked {connStr : Bytes} {size : Int} {user tls : Bytes} {w : ω} {r : CRes Unit} {pool : RPool ω} (h : openRoutingPool W connStr size user tls w = .ok (r, pool)) : Unmarked pool := by
  unfold openRoutingPool at h
  cases hn : newRoutingPool connStr size user tls w with
  | error e => rw [hn] at h; cases h
  | ok s₀ =>
    rw [hn] at h
    simp only [Except.ok.injEq] at h
    have h₀ : Unmarked s₀ := by
      unfold newRoutingPool at hn
      split at hn
      · cases hn
      · split at hn
        · cases hn
        · simp only [Except.ok.injEq] at hn
          subst hn
          exact ⟨rfl, rfl⟩
    have := run_of_acts unmarked_act (acts_start (W := W)) h₀
    rw [h] at this
    exact this

/-- The part of the state that refreshing the lists of strings does not touch. -/
structure Steady (s s' : RPool ω) : Prop where
  queues : ∀ w, s'.queueOf w = s.queueOf w
  limits : s'.minWriteIdle = s.minWriteIdle ∧ s'.maxWriteIdle = s.maxWriteIdle ∧ s'.minReadIdle = s.minReadIdle ∧ s'.maxReadIdle = s.maxReadIdle

theorem refreshConnections_run (s : RPool ω) : ∃ s', (refreshConnections W).run s = (.ok (), s') ∧ Steady s s' := by
  unfold refreshConnections
  generalize hc : W.create s.world s.next s.leaderConnStr = c
  match c with
  | (v, some e) =>
    refine ⟨_, run_bind_ok (a := none) (s' := { s with world := v, next := s.next + 1 }) (by simp only [run_prim, hc]), ⟨fun w => by cases w <;> rfl, rfl, rfl, rfl, rfl⟩⟩
  | (v, none) =>
    refine ⟨_, run_bind_ok (a := some s.next) (s' := { s with world := v, next := s.next + 1, log := s.log ++ [.dialled s.next s.leaderConnStr] }) (by simp only [run_prim, hc]), ?_⟩
    exact ⟨fun w => by cases w <;> rfl, rfl, rfl, rfl, rfl⟩

theorem pruneReads_run {s : RPool ω} (h : s.marked = []) : ∀ xs reads, (pruneReads W xs reads).run s = (.ok (reads ++ xs), s)
  | [], reads => by simp [pruneReads, Pure.pure, PProg.run]
  | x :: xs, reads => by
    unfold pruneReads
    refine (run_bind_ok (a := false) (s' := s) (by simp only [pMarked, run_prim, h]; rfl)).trans ?_
    rw [if_neg (by decide), pruneReads_run h xs]
    simp

theorem pruneWrites_run {s : RPool ω} (h : s.marked = []) : ∀ xs writes, (pruneWrites W xs writes).run s = (.ok (writes ++ xs), s)
  | [], writes => by simp [pruneWrites, Pure.pure, PProg.run]
  | x :: xs, writes => by
    unfold pruneWrites
    refine (run_bind_ok (a := false) (s' := s) (by simp only [pMarked, run_prim, h]; rfl)).trans ?_
    rw [if_neg (by decide), pruneWrites_run h xs]
    simp

theorem setQueue_same (s : RPool ω) (w : Bool) : s.setQueue w (s.queueOf w) = s := by cases w <;> rfl

theorem prune_run {s : RPool ω} (h : s.marked = []) : (prune W).run s = (.ok (), s) := by
  unfold prune
  refine (run_bind_ok (a := s.queueOf false) (s' := s) rfl).trans ?_
  refine (run_bind_ok (a := s.queueOf false) (s' := s) (by simpa using pruneReads_run (W := W) h (s.queueOf false) [])).trans ?_
  refine (run_bind_ok (a := s.queueOf true) (s' := s) rfl).trans ?_
  refine (run_bind_ok (a := s.queueOf true) (s' := s) (by simpa using pruneWrites_run (W := W) h (s.queueOf true) [])).trans ?_
  refine (run_bind_ok (a := ()) (s' := s) (by simp only [pSetQueue, run_prim, setQueue_same])).trans ?_
  simp only [pSetQueue, run_prim, setQueue_same]

theorem compare_run {s : RPool ω} (w : Bool) (h : ¬ ((s.queueOf w).length : Int) < (if w then s.minWriteIdle else s.minReadIdle))
    (h' : ¬ ((s.queueOf w).length : Int) > (if w then s.maxWriteIdle else s.maxReadIdle)) : (pCompare w : PP ω Ordering).run s = (.ok .eq, s) := by
  simp only [pCompare, run_prim, if_neg h, if_neg h']

theorem balance_run {s : RPool ω} (fuel : Nat) (hw : s.minWriteIdle ≤ s.writeQueue.length ∧ (s.writeQueue.length : Int) ≤ s.maxWriteIdle)
    (hr : s.minReadIdle ≤ s.readQueue.length ∧ (s.readQueue.length : Int) ≤ s.maxReadIdle) : (balance W fuel).run s = (.ok (), s) := by
  have cr : (pCompare false : PP ω Ordering).run s = (.ok .eq, s) := compare_run false (by simp [RPool.queueOf]; exact hr.1) (by simp [RPool.queueOf]; exact hr.2)
  have cw : (pCompare true : PP ω Ordering).run s = (.ok .eq, s) := compare_run true (by simp [RPool.queueOf]; exact hw.1) (by simp [RPool.queueOf]; exact hw.2)
  unfold balance
  refine (run_bind_ok cr).trans ?_
  refine (run_bind_ok cw).trans ?_
  exact (run_bind_ok cr).trans rfl

/-- A refresh (not interrupted by others) of a pool within its limits leaves the queues as they are. -/
theorem refreshRound_run {s : RPool ω} (fuel : Nat) (hm : Unmarked s) (hl : s.writer = false ∧ s.readers = 0)
    (hw : s.minWriteIdle ≤ s.writeQueue.length ∧ (s.writeQueue.length : Int) ≤ s.maxWriteIdle)
    (hr : s.minReadIdle ≤ s.readQueue.length ∧ (s.readQueue.length : Int) ≤ s.maxReadIdle) :
    ∃ s', (refreshRound W fuel).run s = (.ok (), s') ∧ ∀ w, s'.queueOf w = s.queueOf w := by
  obtain ⟨s₁, h1, h2⟩ := refreshConnections_run (W := W) { s with writer := true }
  have hm₁ : Unmarked s₁ := by
    have := run_of_acts unmarked_act (acts_refresh (W := W)) (s := { s with writer := true }) hm
    rw [h1] at this
    exact this
  have hqw : s₁.writeQueue = s.writeQueue := h2.queues true
  have hqr : s₁.readQueue = s.readQueue := h2.queues false
  refine ⟨unlock s₁, ?_, h2.queues⟩
  unfold refreshRound
  refine (run_bind_ok (a := ()) (s' := { s with writer := true }) (by simp [lock, PProg.run, hl])).trans ?_
  refine (run_bind_ok h1).trans ?_
  refine (run_bind_ok (prune_run hm₁.1)).trans ?_
  refine (run_bind_ok (balance_run fuel ?_ ?_)).trans rfl
  · rw [hqw, h2.limits.1, h2.limits.2.1]; exact hw
  · rw [hqr, h2.limits.2.2.1, h2.limits.2.2.2]; exact hr

/-- **C65**, what happens instead: whatever the servers report, a refresh leaves all idle connections in the queues. -/
theorem C65_kept {size : Int} {s : PSys ω} (h : Spec.Reached W size Spec.noRestart s) (hid : Spec.IdsDiffer s.pool.log) (hsize : size > 1)
    (hl : s.pool.writer = false ∧ s.pool.readers = 0) (fuel : Nat) :
    ∃ pool', (refreshRound W fuel).run s.pool = (.ok (), pool') ∧ ∀ w, pool'.queueOf w = s.pool.queueOf w := by
  obtain ⟨⟨h1, h2⟩, h3⟩ := C64_partial h hid
  have hm : Unmarked s.pool := by
    obtain ⟨_, _, _, _, pool, f, ms, ho, _, rfl⟩ := h
    exact (moves_of_acts unmarked_act f ms (PSys.fresh pool) (open_unmarked ho) (fun _ h => absurd h List.not_mem_nil)).1
  exact refreshRound_run fuel hm hl ⟨h1, (h3 hsize).1⟩ ⟨h2, (h3 hsize).2⟩

end

namespace C65

/-- The first server leaves the cluster. -/
def script : Script where
  rows w := if w < 11 then threeMembers else [memberRow "2" "bolt://b" "LEADER", memberRow "3" "bolt://c" "READ_REPLICA"]

/-- A connection is borrowed and returned, and the pool is refreshed. -/
def before : List PMove := [.call (.borrow true)] ++ List.replicate 10 (.step 0) ++ [.call (.reclaim ⟨1, [49, 45, 0, 4]⟩)] ++ List.replicate 10 (.step 0) ++
  [.call .refresh] ++ List.replicate 40 (.step 0)

/-- Somebody borrows a connection for writing. -/
def after : List PMove := [.call (.borrow true)] ++ List.replicate 10 (.step 0)

/-- The states before and after. -/
def states : Option (RPool Nat × PSys Nat × PSys Nat) :=
  match openRoutingPool script.world (ascii "bolt+routing://a") 3 (ascii "u:p") [] 0 with
  | .ok (.ok (), pool) => some (pool, (PSys.fresh pool).moves script.world 100 before, ((PSys.fresh pool).moves script.world 100 before).moves script.world 100 after)
  | _ => none

theorem states_eq {pool : RPool Nat} {s s' : PSys Nat} (h : states = some (pool, s, s')) :
    openRoutingPool script.world (ascii "bolt+routing://a") 3 (ascii "u:p") [] 0 = .ok (.ok (), pool) ∧ s = (PSys.fresh pool).moves script.world 100 before ∧
    s' = s.moves script.world 100 after := by
  unfold states at h
  generalize openRoutingPool script.world (ascii "bolt+routing://a") 3 (ascii "u:p") [] 0 = o at h ⊢
  match o, h with
  | .ok (.ok (), pool'), h =>
    simp only [Option.some.injEq, Prod.mk.injEq] at h
    obtain ⟨rfl, rfl, rfl⟩ := h
    exact ⟨rfl, rfl, rfl⟩

/-- The connections returned to borrowers. -/
def borrowed (rs : List (PReq × CRes PRet)) : List ConnRef := rs.filterMap fun
  | (.borrow _, .ok c) => c
  | _ => none

theorem mem_borrowed {rs : List (PReq × CRes PRet)} {c : ConnRef} (h : c ∈ borrowed rs) : ∃ w, (.borrow w, .ok (some c)) ∈ rs := by
  obtain ⟨e, he, h⟩ := List.mem_filterMap.1 h
  match e, he, h with
  | (.borrow w, .ok c'), he, h => simp only at h; subst h; exact ⟨w, he⟩

end C65

/-- **C65 refuted**: server a is no longer listed when the pool is refreshed; the next one to borrow a connection is given one to a. -/
theorem C65_refuted : ¬ ∀ {ω : Type} {W : PWorld ω} {user tls connStr : Bytes} {size : Int} {w : ω} {pool : RPool ω},
    openRoutingPool W connStr size user tls w = .ok (.ok (), pool) → ∀ (fuel : Nat) (before after : List PMove), (∀ m ∈ before ++ after, Spec.noRestart m) →
    ∀ s s' : PSys ω, s = (PSys.fresh pool).moves W fuel before → s' = s.moves W fuel after → s.calls = [] →
    ∀ ms : List (Option (Spec.Role × NodeConfig)), Spec.Members s.pool.log ms →
    ∀ c write, (.borrow write, .ok (some c)) ∈ s'.returned.drop s.returned.length → ∀ str write', .created c.ref c.id str write' ∈ s.pool.log →
    ∃ role n, some (role, n) ∈ ms ∧ (str = n.boltString ∨ Spec.Carries user tls n.boltString str) := by
  intro hall
  have check : (match C65.states with
    | some (_, s, s') => decide (s.calls.length = 0 ∧ (clusterOf s.pool.log).addrs true = [ascii "bolt://b"] ∧ (clusterOf s.pool.log).addrs false = [ascii "bolt://c"] ∧
        (C65.borrowed (s'.returned.drop s.returned.length)).any fun c =>
          s.pool.log.any fun e => match e with | .created r id str _ => r = c.ref ∧ id = c.id ∧ str = ascii "bolt://u:p@a" | _ => false)
    | none => false) = true := by decide +kernel
  cases hst : C65.states with
  | none => rw [hst] at check; cases check
  | some x =>
    obtain ⟨pool, s, s'⟩ := x
    rw [hst] at check
    obtain ⟨ho, hs, hs'⟩ := C65.states_eq hst
    replace check := of_decide_eq_true check
    obtain ⟨h1, h2, h3, h4⟩ := check
    rw [List.any_eq_true] at h4
    obtain ⟨c, hc, h4⟩ := h4
    rw [List.any_eq_true] at h4
    obtain ⟨e, he, h4⟩ := h4
    obtain ⟨ms, hms⟩ := C58.members_of (log := s.pool.log) fun e => by rw [e] at h2; exact absurd h2 (by decide)
    obtain ⟨write, hw⟩ := C65.mem_borrowed hc
    match e, he, h4 with
    | .created r id str write', he, h4 =>
      simp only [decide_eq_true_eq] at h4
      obtain ⟨rfl, rfl, rfl⟩ := h4
      obtain ⟨role, n, hm, hstr⟩ := hall ho 100 C65.before C65.after (by unfold Spec.noRestart; decide +kernel) s s' hs hs' (List.eq_nil_of_length_eq_zero h1) ms hms c write hw _ _ he
      have hb : n.boltString ∈ (clusterOf s.pool.log).addrs true ∨ n.boltString ∈ (clusterOf s.pool.log).addrs false := by
        rw [members_cluster hms]
        cases role with
        | leader => exact .inl (addrs_cluster_iff.2 ⟨_, n, hm, by simp, rfl⟩)
        | follower => exact .inr (addrs_cluster_iff.2 ⟨_, n, hm, by simp, rfl⟩)
        | readReplica => exact .inr (addrs_cluster_iff.2 ⟨_, n, hm, by simp, rfl⟩)
      rw [h2, h3, List.mem_singleton, List.mem_singleton] at hb
      rw [carries_iff] at hstr
      rcases hb with hb | hb <;> rw [hb] at hstr <;> exact absurd hstr (by decide +kernel)

/-- The hypotheses of `C65_kept` are met. -/
example : ∃ s, Spec.Reached (Script.world { rows := fun _ => threeMembers }) 3 Spec.noRestart s ∧ Spec.IdsDiffer s.pool.log ∧
    decide (s.pool.writer = false ∧ s.pool.readers = 0 ∧ s.lent.length = 1 ∧ s.pool.writeQueue.length = 1) = true :=
  check59_reached (ms := [.call (.borrow true)] ++ List.replicate 10 (.step 0)) (by decide +kernel) (by unfold Spec.noRestart; decide +kernel)

end Verif
