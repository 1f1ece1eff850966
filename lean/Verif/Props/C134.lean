/-
C134: whether a routing pool makes new connections for those that broke.
-/
import Verif.Proofs.PoolStarve
import Verif.Props.C82
import Verif.Props.C69
namespace Verif
open PProg

namespace Spec

/-- The cluster is fine: every attempt to connect succeeds, connections can be closed, and none of them but `broken` ever breaks. -/
def ClusterFine {ω : Type} (W : PWorld ω) (broken : Nat) : Prop :=
  (∀ w r str, (W.create w r str).2 = none) ∧ (∀ w r, r ≠ broken → (W.validate w r).2 = true) ∧ ∀ w r, (W.close w r).2 = none

end Spec

/-- The full claim: if nothing is wrong but that one connection broke, a pool in which no call is in progress can still be used for writing: there is
a way to go on, with refreshes of the pool or without, after which borrowing for writing has succeeded. -/
def C134_statement : Prop :=
  ∀ {ω : Type} {W : PWorld ω} {size : Int} {s : PSys ω} {broken : Nat}, Spec.ClusterFine W broken → Spec.Reached W size Spec.inUse s → s.calls = [] → s.lent = [] →
    ∃ fuel ms, (∀ m ∈ ms, Spec.inUse m) ∧ ∃ c, (PReq.borrow true, CRes.ok (some c)) ∈ (s.moves W fuel ms).returned.drop s.returned.length

section
variable {ω : Type} {W : PWorld ω}

theorem reached_starved {size : Int} {s : PSys ω} (h : Spec.Reached W size Spec.anything s) (w : Bool) : Starved false w s.pool := by
  obtain ⟨connStr, user, tls, ω₀, pool, fuel, ms, ho, _, rfl⟩ := h
  refine (starved_moves (b := false) (w := w) (W := W) fuel ms (fun _ _ _ => rfl) (PSys.fresh pool) ?_ fun _ h => absurd h List.not_mem_nil).1
  unfold openRoutingPool at ho
  cases hn : newRoutingPool connStr size user tls ω₀ with
  | error e => rw [hn] at ho; cases ho
  | ok s₀ =>
    rw [hn] at ho
    simp only [Except.ok.injEq] at ho
    have h0 : Starved false w s₀ := by
      unfold newRoutingPool at hn
      split at hn
      · cases hn
      · split at hn
        · cases hn
        · cases hn
          exact ⟨rfl, rfl, (fun v x hx => by cases v <;> cases hx), (fun h => by cases h), (fun h => by cases h)⟩
    have := Under.run (under_start (W := W) (b := false) (w := w) rfl) h0
    rw [ho] at this
    exact this

/-- Once no connection of a kind is idle or lent, borrowing one never succeeds again, whatever happens, unless the pool is stopped and started again: neither users nor
the refreshes make new connections, even if all servers can be reached. -/
theorem C134_starved {size : Int} {s : PSys ω} (h : Spec.Reached W size Spec.anything s) (hc : s.calls = []) {w : Bool} (hq : s.pool.queueOf w = [])
    (hl : ∀ e ∈ s.pool.borrowedConns, e.2.write ≠ w) (fuel : Nat) (ms : List PMove) (hms : ∀ m ∈ ms, Spec.noRestart m) :
    (s.moves W fuel ms).pool.queueOf w = [] ∧
    ∃ new, (s.moves W fuel ms).returned = s.returned ++ new ∧ ∀ c, (PReq.borrow w, CRes.ok c) ∉ new := by
  have h0 := reached_starved h w
  obtain ⟨h1, new, h2, h3⟩ := starved_moves (b := true) (w := w) (W := W) fuel ms (fun m hm e => absurd e (hms m hm)) s
    ⟨h0.minW, h0.minR, h0.kind, fun _ => hq, fun _ => hl⟩ (fun e he => by rw [hc] at he; cases he)
  exact ⟨h1.idle rfl, new, h2, fun c hm => h3 _ _ hm w rfl rfl rfl⟩

theorem run_deferred_inv {α : Type} {f : RPool ω → RPool ω} {a : α} : ∀ {p : PP ω α} {s s' : RPool ω}, (PProg.deferred f p).run s = (.ok a, s') →
    ∃ s₁, p.run s = (.ok a, s₁) ∧ s' = f s₁
  | .done r, s, s', h => by
    simp only [PProg.deferred, PProg.run, if_true, Prod.mk.injEq] at h
    exact ⟨s, by simp [PProg.run, h.1], h.2.symm⟩
  | .act _ en g k, s, s', h => by
    simp only [PProg.deferred, PProg.run] at h ⊢
    split at h
    · rename_i he
      rw [if_pos he]
      exact run_deferred_inv h
    · cases h

/-- What is left to do after `Reclaim` has found the connection. -/
theorem reclaim_inv {c : ConnRef} {x : Wrap} {s s' : RPool ω} (hw : s.writer = false) (hr : s.readers = 0) (hrun : s.running = true)
    (hb : s.borrowedConns.get? c.id = some x) (h : (reclaim W c).run s = (.ok (), s')) :
    ∃ s₁ s₂, (∀ v, s₁.queueOf v = s.queueOf v) ∧ s₁.log = s.log ∧ s₁.world = s.world ∧ (do
        let ok ← pValidate W x.conn
        let bad ← (if ok then pure none else (removeConn W (some x)).attempt : PP ω (Option Err))
        match bad with
        | some _ => if x.write then addWriteConn W else addReadConn W
        | none => pEnqueue x.write x : PP ω Unit).run s₁ = (.ok (), s₂) ∧ (∀ v, s'.queueOf v = s₂.queueOf v) ∧ s'.log = s₂.log := by
  obtain ⟨_, t₁, h1, h2⟩ := run_bind_inv h
  simp only [lock, PProg.run, hw, hr, Bool.not_false, decide_true, Bool.and_self, if_true, Prod.mk.injEq, true_and] at h1
  subst h1
  obtain ⟨s₂, h3, rfl⟩ := run_deferred_inv h2
  obtain ⟨ok, t₂, h4, h5⟩ := run_bind_inv h3
  simp only [run_prim, Prod.mk.injEq, CRes.ok.injEq] at h4
  obtain ⟨rfl, rfl⟩ := h4
  simp only [hrun, Bool.not_true, Bool.false_eq_true, if_false] at h5
  obtain ⟨found, t₃, h6, h7⟩ := run_bind_inv h5
  simp only [run_prim, Prod.mk.injEq, CRes.ok.injEq] at h6
  obtain ⟨rfl, rfl⟩ := h6
  simp only [hb] at h7
  obtain ⟨_, t₄, h8, h9⟩ := run_bind_inv h7
  simp only [run_prim, Prod.mk.injEq] at h8
  obtain ⟨_, rfl⟩ := h8
  obtain ⟨_, t₅, h10, h11⟩ := run_bind_inv h9
  simp only [run_prim, Prod.mk.injEq] at h10
  obtain ⟨_, rfl⟩ := h10
  refine ⟨_, s₂, ?_, ?_, ?_, h11, ?_, ?_⟩
  · intro v; cases v <;> rfl
  · rfl
  · rfl
  · intro v; cases v <;> rfl
  · rfl

/-- **C134**, returning a connection that broke: if it cannot be closed, and `Reclaim` returns no error, a new connection of its kind has been made and put into the queue in its place.
Missing: connections that can be closed (`C134_kept`), and connections that break while they are idle. -/
theorem C134_partial {c : ConnRef} {x : Wrap} {s s' : RPool ω} (hw : s.writer = false) (hr : s.readers = 0) (hrun : s.running = true)
    (hb : s.borrowedConns.get? c.id = some x) (hd : (W.validate s.world x.conn.ref).2 = false)
    (hd' : (W.validate (W.validate s.world x.conn.ref).1 x.conn.ref).2 = false)
    (hc : (W.close (W.validate (W.validate s.world x.conn.ref).1 x.conn.ref).1 x.conn.ref).2 ≠ none)
    (h : (reclaim W c).run s = (.ok (), s')) :
    ∃ y : Wrap, s'.queueOf x.write = s.queueOf x.write ++ [y] ∧ ∃ str, PEv.created y.conn.ref y.conn.id str x.write ∈ s'.log := by
  obtain ⟨s₁, s₂, hq, _, hwd, h1, hq', hl'⟩ := reclaim_inv hw hr hrun hb h
  obtain ⟨ok, t₁, h2, h3⟩ := run_bind_inv h1
  simp only [pValidate, run_prim, hwd, hd, Prod.mk.injEq, CRes.ok.injEq] at h2
  obtain ⟨rfl, rfl⟩ := h2
  obtain ⟨bad, t₂, h4, h5⟩ := run_bind_inv h3
  have hbad : ∃ e, bad = some e ∧ ∀ v, t₂.queueOf v = s₁.queueOf v := by
    cases hcl : (W.close (W.validate (W.validate s.world x.conn.ref).1 x.conn.ref).1 x.conn.ref).2 with
    | none => exact absurd hcl hc
    | some e =>
      simp [removeConn, pValidate, pClose, Bind.bind, PProg.bind, PProg.prim, PProg.attempt, PProg.run, PProg.fail, hd', hcl] at h4
      obtain ⟨rfl, rfl⟩ := h4
      exact ⟨e, rfl, fun v => by cases v <;> rfl⟩
  obtain ⟨e, rfl, ht⟩ := hbad
  have add : ∃ y : Wrap, s₂.queueOf x.write = t₂.queueOf x.write ++ [y] ∧ ∃ str, PEv.created y.conn.ref y.conn.id str x.write ∈ s₂.log := by
    have main : ∀ {str : Bytes} {v : Bool} {t : RPool ω}, (∀ u, t.queueOf u = t₂.queueOf u) → (do let x ← newConnection W v str; pEnqueue v x : PP ω Unit).run t = (.ok (), s₂) →
        ∃ y : Wrap, s₂.queueOf v = t₂.queueOf v ++ [y] ∧ ∃ str, PEv.created y.conn.ref y.conn.id str v ∈ s₂.log := by
      intro str v t ht h
      obtain ⟨y, g1, _, g3⟩ := new_queue v str h
      exact ⟨y, by rw [g1, ht], str, by rw [g3]; exact List.mem_append_right _ List.mem_cons_self⟩
    dsimp only at h5
    cases hx : x.write with
    | true =>
      rw [hx] at h5
      obtain ⟨r, t₃, h6, h7⟩ := run_bind_inv (show (addWriteConn W).run t₂ = (.ok (), s₂) from h5)
      have hu : ∀ u, t₃.queueOf u = t₂.queueOf u := by
        simp only [run_prim, Prod.mk.injEq] at h6
        rw [← h6.2]
        intro u
        split <;> cases u <;> rfl
      cases r with
      | error r => cases r <;> cases h7; simp [run_prim] at h6; split at h6 <;> simp_all; split at h6 <;> simp_all
      | ok str => exact main hu h7
    | false =>
      rw [hx] at h5
      obtain ⟨r, t₃, h6, h7⟩ := run_bind_inv (show (addReadConn W).run t₂ = (.ok (), s₂) from h5)
      have hu : ∀ u, t₃.queueOf u = t₂.queueOf u := by
        simp only [run_prim, Prod.mk.injEq] at h6
        rw [← h6.2]
        intro u
        split <;> cases u <;> rfl
      cases r with
      | error r => cases r <;> cases h7; simp [run_prim] at h6; split at h6 <;> simp_all; split at h6 <;> simp_all
      | ok str => exact main hu h7
  obtain ⟨y, g1, str, g2⟩ := add
  exact ⟨y, by rw [hq', g1, ht, hq], str, by rw [hl']; exact g2⟩

/-- The rest of what `Reclaim` does with a connection that broke: if it can be closed, it is put back into the queue although it broke and is closed now, no new one is made, and no
error is returned. -/
theorem C134_kept {c : ConnRef} {x : Wrap} {s s' : RPool ω} (hw : s.writer = false) (hr : s.readers = 0) (hrun : s.running = true)
    (hb : s.borrowedConns.get? c.id = some x) (hd : (W.validate s.world x.conn.ref).2 = false)
    (hd' : (W.validate (W.validate s.world x.conn.ref).1 x.conn.ref).2 = false)
    (hc : (W.close (W.validate (W.validate s.world x.conn.ref).1 x.conn.ref).1 x.conn.ref).2 = none)
    (h : (reclaim W c).run s = (.ok (), s')) :
    s'.queueOf x.write = s.queueOf x.write ++ [x] ∧ ∃ evs, s'.log = s.log ++ evs ∧ PEv.closed x.conn.ref ∈ evs ∧ ∀ n id str v, PEv.created n id str v ∉ evs := by
  obtain ⟨s₁, s₂, hq, hl, hwd, h1, hq', hl'⟩ := reclaim_inv hw hr hrun hb h
  simp [removeConn, pValidate, pClose, pEnqueue, delHeld, Bind.bind, PProg.bind, PProg.prim, PProg.attempt, PProg.run, hwd, hd, hd', hc] at h1
  subst h1
  refine ⟨?_, [.checked x.conn.ref false, .checked x.conn.ref false, .closed x.conn.ref], ?_, by simp, by simp⟩
  · rw [hq', ← hq]
    cases x.write <;> rfl
  · rw [hl', ← hl]
    cases x.write <;> simp [RPool.setQueue]

end

namespace C134

/-- Everything is fine but connection 1, which breaks after it has been lent. -/
def script : Script where
  rows _ := threeMembers
  alive w r := r ≠ 1 || w < 8

/-- The state after a history of a pool of 2 connections. -/
def state (W : PWorld Nat) (ms : List PMove) : Option (PSys Nat) :=
  match openRoutingPool W (ascii "bolt+routing://a") 2 (ascii "u:p") [] 0 with
  | .ok (.ok (), pool) => some ((PSys.fresh pool).moves W 100 ms)
  | _ => none

theorem state_reached {W : PWorld Nat} {ok : PMove → Prop} {ms : List PMove} (hok : ∀ m ∈ ms, ok m) {s : PSys Nat} (h : state W ms = some s) :
    Spec.Reached W 2 ok s := by
  unfold state at h
  generalize ho : openRoutingPool W (ascii "bolt+routing://a") 2 (ascii "u:p") [] 0 = o at h
  match o, h with
  | .ok (.ok (), pool), h =>
    simp only [Option.some.injEq] at h
    exact ⟨_, _, _, _, _, _, _, ho, hok, h.symm⟩

/-- A call from its beginning to its end. -/
def whole (r : PReq) : List PMove := .call r :: List.replicate 15 (.step 0)

/-- A user borrows a connection, returns it broken, and another user tries to borrow one. -/
def history : List PMove := whole (.borrow true) ++ whole (.reclaim ⟨1, [49, 45, 0, 4]⟩) ++ whole (.borrow true)


/-- No call is in progress, and no connection for writing is idle or lent. -/
def bare (s : PSys Nat) : Bool := s.calls.isEmpty && s.lent.isEmpty && (s.pool.queueOf true).isEmpty && s.pool.borrowedConns.all fun e => !e.2.write

theorem witness : ∃ s, Spec.Reached script.world 2 Spec.inUse s ∧ s.calls = [] ∧ s.lent = [] ∧ s.pool.queueOf true = [] ∧ ∀ e ∈ s.pool.borrowedConns, e.2.write ≠ true := by
  have check : ((state script.world history).map bare) = some true := by decide +kernel
  cases h : state script.world history with
  | none => rw [h] at check; cases check
  | some s =>
    rw [h] at check
    simp only [Option.map_some, Option.some.injEq, bare, Bool.and_eq_true, List.isEmpty_iff, List.all_eq_true, Bool.not_eq_true'] at check
    refine ⟨s, state_reached (fun m hm => ?_) h, check.1.1.1, check.1.1.2, check.1.2, fun e he => by rw [check.2 e he]; exact Bool.false_ne_true⟩
    simp only [history, whole, List.mem_append, List.mem_replicate, List.mem_cons] at hm
    rcases hm with ((rfl | ⟨_, rfl⟩) | rfl | ⟨_, rfl⟩) | rfl | ⟨_, rfl⟩ <;> exact ⟨by simp, by simp⟩

theorem fine : Spec.ClusterFine script.world 1 :=
  ⟨fun _ _ _ => rfl, fun w r h => by simp [Script.world, script, h], fun _ _ => rfl⟩

end C134

/-- **C134 refuted**: the one connection for writing of a pool breaks while it is lent.  Its user returns it; it is closed and put back into the queue.  The next user is told that it is
stale.  From then on nobody can write through this pool: no call and no refresh makes a new connection, although the leader can be reached all the time. -/
theorem C134_refuted : ¬ C134_statement := by
  intro h
  obtain ⟨s, hs, hc, hl, hq, hb⟩ := C134.witness
  obtain ⟨fuel, ms, hms, c, hm⟩ := h C134.fine hs hc hl
  obtain ⟨connStr, user, tls, ω₀, pool, f, ms₀, ho, _, hs'⟩ := hs
  obtain ⟨_, new, hn, hno⟩ := C134_starved (w := true) ⟨connStr, user, tls, ω₀, pool, f, ms₀, ho, fun _ _ => trivial, hs'⟩ hc hq hb fuel ms fun m hm => (hms m hm).2
  rw [hn, List.drop_left] at hm
  exact hno _ hm

namespace C134

/-- The same with connections that cannot be closed. -/
def stuck : Script := { script with closing := fun _ => some (.plain "broken pipe") }

/-- Returning the connection that broke: whether the hypotheses of the theorems about `Reclaim` are met, and connection `r` is then in the queue. -/
def returning (sc : Script) (closes : Bool) (r : Nat) : Bool :=
  match state sc.world (whole (.borrow true)) with
  | none => false
  | some s =>
    let c : ConnRef := ⟨1, [49, 45, 0, 4]⟩
    s.lent = [c] && !s.pool.writer && s.pool.readers == 0 && s.pool.running &&
    match s.pool.borrowedConns.get? c.id with
    | none => false
    | some x =>
      let v := sc.world.validate s.pool.world x.conn.ref
      let v' := sc.world.validate v.1 x.conn.ref
      x.write && !v.2 && !v'.2 && (sc.world.close v'.1 x.conn.ref).2.isNone == closes &&
      match (reclaim sc.world c).run s.pool with
      | (.ok (), s') => (s'.queueOf true).map (·.conn.ref) == [r]
      | _ => false

end C134

/-- A connection that broke is returned and cannot be closed: connection 3 is made in its place.  One that can be closed is kept. -/
example : C134.returning C134.stuck false 3 = true ∧ C134.returning C134.script true 1 = true := by decide +kernel

/-- The hypotheses of `C134_starved` are met. -/
example : ∃ s, Spec.Reached C134.script.world 2 Spec.inUse s ∧ s.calls = [] ∧ s.lent = [] ∧ s.pool.queueOf true = [] ∧ ∀ e ∈ s.pool.borrowedConns, e.2.write ≠ true := C134.witness

end Verif
