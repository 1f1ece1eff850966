/-
C86: does an attempt to open a routing pool that fails leave connections behind?
-/
import Verif.Props.C85
namespace Verif
open PProg

/-- **C86** (false, see `C86_refuted`): if a routing pool cannot be opened, every connection that was made is closed again. -/
def C86_statement : Prop := ∀ {ω : Type} (W : PWorld ω) (connStr : Bytes) (size : Int) (user tls : Bytes) (w : ω) (res : CRes Unit) (pool : RPool ω),
  openRoutingPool W connStr size user tls w = .ok (res, pool) → res ≠ .ok () → ∀ r id str v, .created r id str v ∈ pool.log → .closed r ∈ pool.log

section
variable {ω : Type} {W : PWorld ω}

/-- Opening a pool, step by step, whatever the result. -/
theorem open_run {connStr : Bytes} {size : Int} (user tls : Bytes) (w : ω) (h1 : connStr ≠ []) (h2 : size ≠ 0 ∧ size ≠ 1) :
    ∃ s : RPool ω, s.totalConns = size ∧ s.log = [] ∧ s.next = 0 ∧ s.world = w ∧ s.rwStrings = [] ∧
      openRoutingPool W connStr size user tls w = .ok ((startRest W s.startHead.maxWriteIdle s.startHead.maxReadIdle).run s.startHead) := by
  obtain ⟨s, hn, a1, a2, a3, a4, a5, a6⟩ : ∃ s, newRoutingPool connStr size user tls w = .ok s ∧ s.totalConns = size ∧ s.log = [] ∧ s.next = 0 ∧ s.world = w ∧ s.rwStrings = [] ∧
      s.running = false := by
    unfold newRoutingPool
    rw [if_neg h1, if_neg (fun h => h.elim h2.1 h2.2)]
    exact ⟨_, rfl, rfl, rfl, rfl, rfl, rfl, rfl⟩
  refine ⟨s, a1, a2, a3, a4, a5, ?_⟩
  unfold openRoutingPool
  rw [hn]
  simp only [start, Bind.bind, PProg.bind, PProg.prim, PProg.run, a6, if_true, Bool.false_eq_true, if_false]

theorem startHead_same (s : RPool ω) : s.startHead.log = s.log ∧ s.startHead.next = s.next ∧ s.startHead.world = s.world ∧ s.startHead.rwStrings = s.rwStrings := by
  unfold RPool.startHead
  split <;> exact ⟨rfl, rfl, rfl, rfl⟩

/-- **C86**, if the cluster cannot be reached: opening fails and no connection was made.  Missing: a cluster that answers, but some member of which cannot be reached (`C86_leak`). -/
theorem C86_unreachable_partial {connStr : Bytes} {size : Int} (user tls : Bytes) (w : ω) (hc : connStr ≠ []) (hs : 2 ≤ size) (hu : ∀ str, (W.create w 0 str).2 ≠ none) :
    ∃ e pool, openRoutingPool W connStr size user tls w = .ok (.err e, pool) ∧ pool.log = [] := by
  obtain ⟨s, h1, h2, h3, h4, h5, h6⟩ := open_run (W := W) (size := size) user tls w hc ⟨fun h => by omega, fun h => by omega⟩
  obtain ⟨k1, k2, k3, k4⟩ := startHead_same s
  obtain ⟨m1, _⟩ := startHead_shares s (by omega)
  have hm : s.startHead.maxWriteIdle.toNat = (s.startHead.maxWriteIdle.toNat - 1) + 1 := by
    have : 0 < Spec.share s.totalConns.toNat true := by
      unfold Spec.share
      simp only [if_true]
      omega
    omega
  have hcr := hu s.startHead.leaderConnStr
  generalize hcv : W.create w 0 s.startHead.leaderConnStr = c at hcr
  match c, hcr with
  | (v, none), hcr => exact absurd rfl hcr
  | (v, some e), _ =>
    have hr : (refreshConnections W).run s.startHead = (.ok (), { s.startHead with world := v, next := s.startHead.next + 1 }) := by
      unfold refreshConnections
      rw [← h4, ← h3, ← k2, ← k3] at hcv
      simp only [Bind.bind, PProg.bind, PProg.prim, PProg.run, hcv, if_true, Pure.pure]
    have ha : (addWriteConn W).run { s.startHead with world := v, next := s.startHead.next + 1 } =
        (.err (.plain "no connection strings"), { s.startHead with world := v, next := s.startHead.next + 1 }) := by
      have hrw : s.startHead.rwStrings = [] := by rw [k4, h5]
      unfold addWriteConn
      simp only [Bind.bind, PProg.bind, PProg.prim, PProg.run, hrw, if_true]
    refine ⟨.plain "no connection strings", { s.startHead with world := v, next := s.startHead.next + 1 }, ?_, by rw [← h2, ← k1]⟩
    rw [h6]
    unfold startRest
    refine congrArg Except.ok ((run_bind_ok hr).trans (run_bind_err ?_))
    rw [hm]
    exact run_bind_err ha

/-- Nothing that was made for lending is closed. -/
def Unclosed (s : RPool ω) : Prop := (∀ r, .closed r ∈ s.log → r < s.next) ∧ ∀ r id str v, .created r id str v ∈ s.log → .closed r ∉ s.log

/-- An action that closes nothing. -/
def Leaving (_ : List Access) (f : RPool ω → RPool ω) : Prop := ∀ s, Unclosed s → Unclosed (f s)

theorem leaving_same {acc : List Access} {f : RPool ω → RPool ω} (h1 : ∀ s, (f s).log = s.log) (h2 : ∀ s, (f s).next = s.next) : Leaving acc f :=
  fun s hs => by
    unfold Unclosed
    rw [h1, h2]
    exact hs

theorem leaving_new (w : Bool) (str : Bytes) : Acts Leaving (do let x ← newConnection W w str; pEnqueue w x : PP ω Unit) := by
  refine Acts.bind (fun x => Acts.prim (leaving_same (fun s => by cases w <;> rfl) fun s => by cases w <;> rfl)) ?_
  refine Acts.bind (fun r => ?_) (Acts.prim fun s hs => ?_)
  · cases r with
    | error _ => exact Acts.done
    | ok x => exact Acts.bind (fun _ => Acts.done) (Acts.prim (leaving_same (fun _ => rfl) fun _ => rfl))
  · dsimp only
    generalize W.create s.world s.next str = c
    match c with
    | (u, some e) => exact ⟨fun r hr => Nat.lt_succ_of_lt (hs.1 r hr), hs.2⟩
    | (u, none) =>
      refine ⟨fun r hr => ?_, fun r id str' v hr hcl => ?_⟩
      · rcases List.mem_append.1 hr with hr | hr
        · exact Nat.lt_succ_of_lt (hs.1 r hr)
        · cases List.mem_singleton.1 hr
      · have hcl : .closed r ∈ s.log := by
          rcases List.mem_append.1 hcl with hcl | hcl
          · exact hcl
          · cases List.mem_singleton.1 hcl
        rcases List.mem_append.1 hr with hr | hr
        · exact hs.2 r id str' v hr hcl
        · cases List.mem_singleton.1 hr
          exact absurd (hs.1 _ hcl) (Nat.lt_irrefl _)

theorem leaving_add (w : Bool) : Acts Leaving (addConn W w) := by
  cases w with
  | true =>
    refine Acts.bind (fun r => ?_) (Acts.prim (leaving_same (fun s => ?_) fun s => ?_))
    · cases r with
      | error _ => exact Acts.done
      | ok str => exact leaving_new true str
    · dsimp only; split <;> rfl
    · dsimp only; split <;> rfl
  | false =>
    refine Acts.bind (fun r => ?_) (Acts.prim (leaving_same (fun s => ?_) fun s => ?_))
    · cases r with
      | error _ => exact Acts.done
      | ok str => exact leaving_new false str
    · dsimp only; split <;> rfl
    · dsimp only; split <;> rfl

theorem leaving_times (w : Bool) : ∀ n, Acts Leaving (times n (addConn W w))
  | 0 => Acts.done
  | n + 1 => Acts.bind (fun _ => leaving_times w n) (leaving_add w)

theorem run_leaving {α : Type} {p : PP ω α} (hp : Acts Leaving p) {s : RPool ω} (hs : Unclosed s) : Unclosed (p.run s).2 := by
  induction p generalizing s with
  | done => exact hs
  | act acc en f k ih =>
    simp only [PProg.run]
    split
    · exact ih s (hp.2 s) (hp.1 s hs)
    · exact hs

/-- Whether or not opening a pool succeeds, none of the connections made for lending is closed: if it fails, all of them are left behind. -/
theorem C86_leak {connStr : Bytes} {size : Int} {user tls : Bytes} {w : ω} {res : CRes Unit} {pool : RPool ω} (h : openRoutingPool W connStr size user tls w = .ok (res, pool))
    {r : Nat} {id str : Bytes} {v : Bool} (hm : .created r id str v ∈ pool.log) : .closed r ∉ pool.log := by
  have hok : connStr ≠ [] ∧ size ≠ 0 ∧ size ≠ 1 := by
    unfold openRoutingPool newRoutingPool at h
    refine ⟨fun hc => ?_, fun hc => ?_, fun hc => ?_⟩
    · rw [if_pos hc] at h
      cases h
    all_goals
      split at h
      · cases h
      · rename_i hn
        split at hn
        · cases hn
        · rw [if_pos (by omega)] at hn
          cases hn
  obtain ⟨s, h1, h2, h3, h4, h5, h6⟩ := open_run (W := W) user tls w hok.1 hok.2
  obtain ⟨k1, k2, k3, k4⟩ := startHead_same s
  rw [h] at h6
  simp only [Except.ok.injEq] at h6
  have hr : ∃ s', (refreshConnections W).run s.startHead = (.ok (), s') ∧ Unclosed s' := by
    unfold refreshConnections
    generalize hc : W.create s.startHead.world s.startHead.next s.startHead.leaderConnStr = c
    match c with
    | (u, some e) =>
      simp only [Bind.bind, PProg.bind, PProg.prim, PProg.run, hc, if_true, Pure.pure]
      refine ⟨_, rfl, ?_⟩
      unfold Unclosed
      dsimp only
      rw [k1, h2]
      exact ⟨fun _ h => absurd h List.not_mem_nil, fun _ _ _ _ h => absurd h List.not_mem_nil⟩
    | (u, none) =>
      simp only [Bind.bind, PProg.bind, PProg.prim, PProg.run, hc, if_true, Pure.pure, pClose]
      refine ⟨_, rfl, ?_⟩
      unfold Unclosed RPool.takeStrings
      dsimp only
      rw [k1, h2]
      refine ⟨fun r h => ?_, fun r id str v h => ?_⟩
      · simp at h
        omega
      · simp at h
  obtain ⟨s', r1, r2⟩ := hr
  have := run_leaving (Acts.bind (fun _ => leaving_times (W := W) false s.startHead.maxReadIdle.toNat) (leaving_times (W := W) true s.startHead.maxWriteIdle.toNat)) r2
  unfold startRest at h6
  have h7 := h6.trans (run_bind_ok r1)
  rw [show pool = _ from congrArg Prod.snd h7] at hm ⊢
  exact this.2 r id str v hm

end

namespace C86

/-- The replica cannot be reached. -/
def script : Script where
  rows _ := threeMembers
  refuse _ str := str = ascii "bolt://u:p@c"

/-- The connections that were made for lending, and those that were closed, if opening a pool of a size fails. -/
def left (size : Int) : Option (List Nat × List Nat) :=
  match openRoutingPool script.world (ascii "bolt+routing://a") size (ascii "u:p") [] 0 with
  | .ok (.err _, pool) => some (pool.log.filterMap fun | .created r _ _ _ => some r | _ => none, pool.log.filterMap fun | .closed r => some r | _ => none)
  | _ => none

/-- Only the connection for asking is closed. -/
example : left 4 = some ([1, 2], [0]) := by decide +kernel

/-- A cluster that cannot be reached. -/
example : ∃ e pool, openRoutingPool C82.unreachable.world (ascii "bolt+routing://a") 4 [] [] 0 = .ok (.err e, pool) ∧ pool.log = [] :=
  C86_unreachable_partial [] [] 0 (by decide) (by decide) fun _ h => by cases h

end C86

/-- **C86 refuted**: the leader can be reached, the replica cannot: the connections to the leader are left behind. -/
theorem C86_refuted : ¬ C86_statement := by
  intro hall
  have check : C86.left 4 = some ([1, 2], [0]) := by decide +kernel
  unfold C86.left at check
  split at check
  · rename_i e pool ho
    simp only [Option.some.injEq, Prod.mk.injEq] at check
    have hm : 1 ∈ pool.log.filterMap fun | .created r _ _ _ => some r | _ => none := by rw [check.1]; decide
    obtain ⟨ev, hev, hr⟩ := List.mem_filterMap.1 hm
    match ev, hr with
    | .created r id str v, hr =>
      cases hr
      have := hall _ _ _ _ _ _ _ pool ho (fun h => by cases h) 1 id str v hev
      have : 1 ∈ pool.log.filterMap fun | .closed r => some r | _ => none := List.mem_filterMap.2 ⟨_, this, rfl⟩
      rw [check.2] at this
      exact absurd this (by decide)
  · cases check

end Verif
