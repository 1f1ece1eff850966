/-
C87: borrowing succeeds if there is a healthy idle connection.
-/
import Verif.Props.C65
import Verif.Props.C88
namespace Verif
open PProg

namespace Spec

/-- The connection answers whenever it is asked. -/
def Healthy {ω : Type} (W : PWorld ω) (r : Nat) : Prop := ∀ st, (W.validate st r).2 = true

/-- Closing the connection never fails. -/
def ClosesWell {ω : Type} (W : PWorld ω) (r : Nat) : Prop := ∀ st, (W.close st r).2 = none

end Spec

/-- **C87**, full statement: when nobody else uses the pool and there is a healthy idle connection for writing (`v = true`) or for reading, borrowing one succeeds. -/
def C87_statement : Prop := ∀ {ω : Type} (W : PWorld ω) (connStr : Bytes) (size : Int) (user tls : Bytes) (w : ω) (pool : RPool ω) (fuel : Nat) (ms : List PMove) (s : PSys ω),
  openRoutingPool W connStr size user tls w = .ok (.ok (), pool) → s = (PSys.fresh pool).moves W fuel ms → (∀ m ∈ ms, Spec.noRestart m) → Spec.IdsDiffer s.pool.log →
    size.toNat + (2 * size.toNat + 1) * Spec.callsIn ms < fuel → s.calls = [] →
    ∀ v, ∀ x ∈ s.pool.queueOf v, Spec.Healthy W x.conn.ref → ∃ c, (((PReq.borrow v).prog W fuel).run s.pool).1 = .ok (some c)

section
variable {ω : Type} {W : PWorld ω}

theorem setQueue_gives (s : RPool ω) (v : Bool) (q : List Wrap) : (s.setQueue v q).queueOf v = q := by cases v <;> rfl

/-- Retiring a connection. -/
theorem remove_run_ok {x : Wrap} (hc : Spec.ClosesWell W x.conn.ref) (v : Bool) (s : RPool ω) :
    ∃ s', (removeConn W (some x)).run s = (.ok (), s') ∧ s'.marked = s.marked ∧ s'.queueOf v = s.queueOf v := by
  simp only [removeConn, Bind.bind, PProg.bind, pValidate, PProg.prim, PProg.run, if_true]
  split
  · exact ⟨_, rfl, rfl, rfl⟩
  · simp only [PProg.bind, pClose, PProg.prim, PProg.run, if_true]
    rw [hc]
    exact ⟨_, rfl, rfl, rfl⟩

/-- The search for a healthy connection. -/
theorem internalBorrow_finds (v : Bool) : ∀ (fuel : Nat) (s : RPool ω), s.marked = [] → (s.queueOf v).length < fuel → ∀ x ∈ s.queueOf v, Spec.Healthy W x.conn.ref →
    (∀ y ∈ s.queueOf v, Spec.ClosesWell W y.conn.ref) →
    ∃ y q₁ q₂ s', (internalBorrow W v fuel).run s = (.ok y, s') ∧ s.queueOf v = q₁ ++ y :: q₂ ∧ s'.queueOf v = q₂ ∧ ∀ z ∈ q₁, ¬ Spec.Healthy W z.conn.ref
  | 0, s, _, hf, _, _, _, _ => by omega
  | fuel + 1, s, hm, hf, x, hx, hh, hc => by
    cases hq : s.queueOf v with
    | nil => rw [hq] at hx; cases hx
    | cons y q =>
      rw [hq] at hx hf hc
      simp only [internalBorrow, Bind.bind, PProg.bind, pDequeue, pMarked, PProg.prim, PProg.run, if_true, hq]
      have hmk : (s.setQueue v q).marked = [] := by rw [← hm]; cases v <;> rfl
      rw [hmk]
      simp only [List.contains_nil, Bool.false_eq_true, if_false, PProg.bind, pValidate, PProg.prim, PProg.run, if_true]
      by_cases hok : (W.validate (s.setQueue v q).world y.conn.ref).2 = true
      · rw [if_pos hok]
        exact ⟨y, [], q, _, rfl, rfl, setQueue_gives _ _ _, fun _ h => absurd h List.not_mem_nil⟩
      · rw [if_neg hok]
        have hy : ¬ Spec.Healthy W y.conn.ref := fun h => hok (h _)
        have hx : x ∈ q := by
          rcases List.mem_cons.1 hx with rfl | hx
          · exact absurd hh hy
          · exact hx
        generalize hs₁ : ({ s.setQueue v q with world := (W.validate (s.setQueue v q).world y.conn.ref).1, log := (s.setQueue v q).log ++ [PEv.checked y.conn.ref (W.validate (s.setQueue v q).world y.conn.ref).2] } : RPool ω) = s₁
        have hq₁ : s₁.queueOf v = q := by rw [← hs₁]; exact setQueue_gives s v q
        have hm₁ : s₁.marked = [] := by rw [← hs₁]; exact hmk
        obtain ⟨s₂, h1, h2, h3⟩ := remove_run_ok (W := W) (x := y) (hc y List.mem_cons_self) v s₁
        rw [run_bind_ok h1]
        rw [hq₁] at h3
        obtain ⟨z, q₁, q₂, s', a1, a2, a3, a4⟩ := internalBorrow_finds v fuel s₂ (h2.trans hm₁) (by rw [h3]; simp only [List.length_cons] at hf; omega) x (by rw [h3]; exact hx) hh
          (fun z hz => hc z (List.mem_cons_of_mem _ (by rwa [h3] at hz)))
        refine ⟨z, y :: q₁, q₂, s', a1, by rw [← h3, a2]; rfl, a3, fun u hu => ?_⟩
        rcases List.mem_cons.1 hu with rfl | hu
        · exact hy
        · exact a4 u hu

theorem run_deferred {α : Type} (f : RPool ω → RPool ω) : ∀ (p : PP ω α) (s : RPool ω) (a : α) (s' : RPool ω), p.run s = (.ok a, s') → (PProg.deferred f p).run s = (.ok a, f s')
  | .done _, _, _, _, h => by cases h; rfl
  | .act _ en g k, s, a, s', h => by
    simp only [PProg.run, PProg.deferred] at h ⊢
    by_cases he : en s = true
    · rw [if_pos he] at h ⊢
      exact run_deferred f (k s) _ a s' h
    · rw [if_neg he] at h
      cases h

/-- **C87**: when nobody else uses the pool and there is a healthy idle connection of the kind asked for, and the idle connections of that kind can be closed without error, then borrowing
succeeds, with the connection that has waited longest but for connections that are not healthy, and what is behind it stays in the queue.
Missing: connections that return an error when they are closed (`C87_refuted`). -/
theorem C87_partial {connStr : Bytes} {size : Int} {user tls : Bytes} {w : ω} {pool : RPool ω} (h : openRoutingPool W connStr size user tls w = .ok (.ok (), pool)) (fuel : Nat) (ms : List PMove)
    {s : PSys ω} (hs : s = (PSys.fresh pool).moves W fuel ms) (hr : ∀ m ∈ ms, Spec.noRestart m) (hid : Spec.IdsDiffer s.pool.log)
    (hf : size.toNat + (2 * size.toNat + 1) * Spec.callsIn ms < fuel) (hc : s.calls = []) (v : Bool) {x : Wrap} (hx : x ∈ s.pool.queueOf v) (hh : Spec.Healthy W x.conn.ref)
    (hcl : ∀ y ∈ s.pool.queueOf v, Spec.ClosesWell W y.conn.ref) :
    ∃ y q₁ q₂ s', ((PReq.borrow v).prog W fuel).run s.pool = (.ok (some y.conn), s') ∧ s.pool.queueOf v = q₁ ++ y :: q₂ ∧ s'.queueOf v = q₂ ∧ ∀ z ∈ q₁, ¬ Spec.Healthy W z.conn.ref := by
  subst hs
  obtain ⟨fuel, rfl⟩ : ∃ n, fuel = n + 1 := ⟨fuel - 1, by omega⟩
  obtain ⟨l, hl⟩ := binv_reached h (Spec.callsIn ms) [] (fuel := fuel) (by omega) _ ms rfl hr (by rwa [List.append_nil]) (Nat.le_refl _)
  have hb := reached_bounds h _ ms hr hid
  have hun : Unmarked ((PSys.fresh pool).moves W (fuel + 1) ms).pool := (moves_of_acts (W := W) unmarked_act _ ms (PSys.fresh pool) (open_unmarked h) fun _ h => absurd h List.not_mem_nil).1
  have hwr : ((PSys.fresh pool).moves W (fuel + 1) ms).pool.writer = false := by
    have h1 := hl.writers
    have h2 := hl.calls
    rw [hc, List.map_eq_nil_iff] at h2
    rw [h2, holding] at h1
    cases hw : ((PSys.fresh pool).moves W (fuel + 1) ms).pool.writer with
    | false => rfl
    | true => rw [hw] at h1; cases h1
  have hlen : (((PSys.fresh pool).moves W (fuel + 1) ms).pool.queueOf v).length < fuel + 1 := by
    have := hb.total
    unfold RPool.idle at this
    cases v <;> omega
  generalize (PSys.fresh pool).moves W (fuel + 1) ms = s at *
  have hq : ({ s.pool with readers := s.pool.readers + 1 } : RPool ω).queueOf v = s.pool.queueOf v := by cases v <;> rfl
  obtain ⟨y, q₁, q₂, s', a1, a2, a3, a4⟩ := internalBorrow_finds (W := W) v (fuel + 1) { s.pool with readers := s.pool.readers + 1 } hun.1 (by rw [hq]; exact hlen) x (by rw [hq]; exact hx) hh
    (by rw [hq]; exact hcl)
  rw [hq] at a2
  have hrun : ((do rlock; PProg.deferred runlock (do let x ← internalBorrow W v (fuel + 1); pure x.conn) : PP ω ConnRef)).run s.pool = (.ok y.conn, runlock s') := by
    have hl : (rlock : PP ω Unit).run s.pool = (.ok (), { s.pool with readers := s.pool.readers + 1 }) := by
      simp only [rlock, PProg.run]
      rw [if_pos (by rw [hwr]; rfl)]
    refine (run_bind_ok hl).trans (run_deferred _ _ _ _ _ ?_)
    exact run_bind_ok a1
  refine ⟨y, q₁, q₂, runlock s', ?_, a2, by rw [← a3]; cases v <;> rfl, a4⟩
  have hp : (PReq.borrow v).prog W (fuel + 1) = (do return some (← (do rlock; PProg.deferred runlock (do let x ← internalBorrow W v (fuel + 1); pure x.conn) : PP ω ConnRef)) : PProg (RPool ω) PRet) := by
    cases v <;> rfl
  rw [hp]
  exact run_bind_ok hrun

end

namespace C87

/-- The first connection for writing (connection 1) breaks at some time, and then cannot be closed properly; everything else works. -/
def script : Script where
  rows _ := threeMembers
  alive _ r := r ≠ 1
  closing r := if r = 1 then some (.plain "broken pipe") else none

/-- The pool of four connections just after opening. -/
def pool : Option (RPool Nat) := match openRoutingPool script.world (ascii "bolt+routing://a") 4 (ascii "u:p") [] 0 with
  | .ok (.ok (), pool) => some pool
  | _ => none

/-- The connections for writing are 1 and 2, and borrowing fails. -/
def fails : Bool := match pool with
  | some p => decide ((p.queueOf true).map (·.conn.ref) = [1, 2] ∧ ((made p.log).map (·.2)).Nodup) && match (((PReq.borrow true).prog script.world 100).run p).1 with
    | .err _ => true
    | _ => false
  | none => false

end C87

/-- **C87 refuted**: the connection in front is dead and closing it fails; the healthy one behind it is not offered. -/
theorem C87_refuted : ¬ C87_statement := by
  intro hall
  have check : C87.fails = true := by decide +kernel
  unfold C87.fails at check
  split at check
  · rename_i p hp
    unfold C87.pool at hp
    split at hp
    · rename_i p' ho
      cases hp
      simp only [Bool.and_eq_true, decide_eq_true_eq] at check
      obtain ⟨⟨hq, hn⟩, he⟩ := check
      have hx : ∃ x ∈ p.queueOf true, x.conn.ref = 2 := by
        have : 2 ∈ (p.queueOf true).map (·.conn.ref) := by rw [hq]; simp
        obtain ⟨x, h1, h2⟩ := List.mem_map.1 this
        exact ⟨x, h1, h2⟩
      obtain ⟨x, hx, hr⟩ := hx
      obtain ⟨c, hc⟩ := hall C87.script.world _ 4 _ _ 0 p 100 [] (PSys.fresh p) ho rfl (fun _ h => absurd h List.not_mem_nil) ((idsDiffer_iff _).2 hn) (by decide) rfl true x hx
        (fun st => by rw [hr]; rfl)
      rw [show (PSys.fresh p).pool = p from rfl] at hc
      rw [hc] at he
      cases he
    · cases hp
  · cases check

/-- The hypotheses of `C87_partial` are met by a pool whose first connection is dead, but can be closed. -/
example : (match openRoutingPool (Script.world { rows := fun _ => threeMembers, alive := fun _ r => r ≠ 1 }) (ascii "bolt+routing://a") 4 (ascii "u:p") [] 0 with
    | .ok (.ok (), p) => some ((p.queueOf true).map (·.conn.ref), decide ((made p.log).map (·.2)).Nodup,
        match (((PReq.borrow true).prog (Script.world { rows := fun _ => threeMembers, alive := fun _ r => r ≠ 1 }) 100).run p).1 with
        | .ok (some c) => some c.ref
        | _ => none)
    | _ => none) = some ([1, 2], true, some 2) ∧
    Spec.Healthy (Script.world { rows := fun _ => threeMembers, alive := fun _ r => r ≠ 1 }) 2 ∧ (∀ r, Spec.ClosesWell (Script.world { rows := fun _ => threeMembers, alive := fun _ r => r ≠ 1 }) r) :=
  ⟨by decide +kernel, fun _ => rfl, fun _ _ => rfl⟩

end Verif
