/-
C137: the idle connections of a routing pool are used in turn.
-/
import Verif.Props.C87
import Verif.Props.C136
namespace Verif
open PProg

namespace Spec

/-- `k` users, one after the other: each of them borrows a connection (for writing if `v`) and returns it.  The connections they got, and the pool afterwards; nothing if one of the calls fails. -/
def turns {ω : Type} (W : PWorld ω) (fuel : Nat) (v : Bool) : Nat → RPool ω → Option (List Nat × RPool ω)
  | 0, s => some ([], s)
  | k + 1, s =>
    match ((PReq.borrow v).prog W fuel).run s with
    | (.ok (some c), s₁) =>
      match ((PReq.reclaim c).prog W fuel).run s₁ with
      | (.ok _, s₂) => (turns W fuel v k s₂).map fun r => (c.ref :: r.1, r.2)
      | _ => none
    | _ => none

end Spec

section
variable {ω : Type} {W : PWorld ω}

/-- What a turn leaves as it is. -/
structure Turned (v : Bool) (s s' : RPool ω) : Prop where
  other : s'.queueOf (!v) = s.queueOf (!v)
  marked : s'.marked = s.marked
  writer : s'.writer = s.writer
  readers : s'.readers = s.readers
  running : s'.running = s.running

theorem Turned.trans {v : Bool} {a b c : RPool ω} (h : Turned v a b) (h' : Turned v b c) : Turned v a c :=
  ⟨h'.other.trans h.other, h'.marked.trans h.marked, h'.writer.trans h.writer, h'.readers.trans h.readers, h'.running.trans h.running⟩

/-- Borrowing the first connection of the queue. -/
theorem borrow_run (v : Bool) (fuel : Nat) {s : RPool ω} (hm : s.marked = []) (hw : s.writer = false) {x : Wrap} {q : List Wrap} (hq : s.queueOf v = x :: q) (hh : Spec.Healthy W x.conn.ref) :
    ∃ s', ((PReq.borrow v).prog W (fuel + 1)).run s = (.ok (some x.conn), s') ∧ s'.queueOf v = q ∧ s'.borrowedConns.get? x.conn.id = some x ∧ Turned v s s' := by
  have hib : ∃ s', (internalBorrow W v (fuel + 1)).run { s with readers := s.readers + 1 } = (.ok x, s') ∧ s'.queueOf v = q ∧ s'.borrowedConns.get? x.conn.id = some x ∧
      Turned v { s with readers := s.readers + 1 } s' := by
    have hq' : ({ s with readers := s.readers + 1 } : RPool ω).queueOf v = x :: q := by rw [← hq]; cases v <;> rfl
    have hm' : ({ s with readers := s.readers + 1 } : RPool ω).marked = [] := hm
    generalize ({ s with readers := s.readers + 1 } : RPool ω) = t at *
    simp only [internalBorrow, Bind.bind, PProg.bind, pDequeue, pMarked, PProg.prim, PProg.run, if_true, hq']
    have hmk : (t.setQueue v q).marked = [] := by rw [← hm']; cases v <;> rfl
    rw [hmk]
    simp only [List.contains_nil, Bool.false_eq_true, if_false, PProg.bind, pValidate, PProg.prim, PProg.run, if_true]
    rw [if_pos (hh _)]
    refine ⟨_, rfl, setQueue_gives _ _ _, ?_, ?_⟩
    · simp [ConnMap.put, ConnMap.get?]
    · cases v <;> exact ⟨rfl, rfl, rfl, rfl, rfl⟩
  obtain ⟨s', h1, h2, h3, h4⟩ := hib
  have hrun : ((do rlock; PProg.deferred runlock (do let x ← internalBorrow W v (fuel + 1); pure x.conn) : PP ω ConnRef)).run s = (.ok x.conn, runlock s') := by
    have hl : (rlock : PP ω Unit).run s = (.ok (), { s with readers := s.readers + 1 }) := by
      simp only [rlock, PProg.run]
      rw [if_pos (by rw [hw]; rfl)]
    refine (run_bind_ok hl).trans (run_deferred _ _ _ _ _ ?_)
    exact run_bind_ok h1
  refine ⟨runlock s', ?_, by rw [← h2]; cases v <;> rfl, h3, ?_⟩
  · have hp : (PReq.borrow v).prog W (fuel + 1) = (do return some (← (do rlock; PProg.deferred runlock (do let x ← internalBorrow W v (fuel + 1); pure x.conn) : PP ω ConnRef)) : PProg (RPool ω) PRet) := by
      cases v <;> rfl
    rw [hp]
    exact run_bind_ok hrun
  · refine ⟨?_, h4.marked, h4.writer, ?_, h4.running⟩
    · have := h4.other
      cases v <;> exact this
    · show s'.readers - 1 = s.readers
      rw [h4.readers]
      rfl

/-- Returning a lent connection. -/
theorem reclaim_run (fuel : Nat) {s : RPool ω} (hl : s.writer = false ∧ s.readers = 0) (hr : s.running = true) {x : Wrap} (hx : s.borrowedConns.get? x.conn.id = some x)
    (hh : Spec.Healthy W x.conn.ref) :
    ∃ s', ((PReq.reclaim x.conn).prog W fuel).run s = (.ok none, s') ∧ s'.queueOf x.write = s.queueOf x.write ++ [x] ∧ Turned x.write s s' := by
  have hrun : ∃ s', (reclaim W x.conn).run s = (.ok (), s') ∧ s'.queueOf x.write = s.queueOf x.write ++ [x] ∧ Turned x.write s s' := by
    unfold reclaim
    have hlock : (lock : PP ω Unit).run s = (.ok (), { s with writer := true }) := by
      simp only [lock, PProg.run]
      rw [if_pos (by rw [hl.1, hl.2]; rfl)]
    refine Exists.intro (unlock ?st) ⟨(run_bind_ok hlock).trans (run_deferred unlock _ _ _ ?st ?_), ?_⟩
    rotate_left
    · simp only [Bind.bind, PProg.bind, PProg.prim, PProg.run, if_true, hr, hx, Bool.not_true, Bool.false_eq_true, if_false, pValidate, hh _, Pure.pure, pEnqueue]
      rfl
    · cases x.write <;> exact ⟨rfl, rfl, rfl, hl.1.symm, rfl, hr.symm⟩
  obtain ⟨s', h1, h2, h3⟩ := hrun
  exact ⟨s', run_bind_ok h1, h2, h3⟩

theorem rotate_get {α : Type} (x : α) (t : List α) (i : Nat) : (t ++ [x])[i % (t.length + 1)]? = (x :: t)[(i + 1) % (t.length + 1)]? := by
  have hlt : i % (t.length + 1) < t.length + 1 := Nat.mod_lt i (Nat.succ_pos t.length)
  rw [← Nat.mod_add_mod]
  generalize i % (t.length + 1) = j at *
  by_cases h : j = t.length
  · subst h
    rw [Nat.mod_self]
    simp
  · have h1 : (j + 1) % (t.length + 1) = j + 1 := Nat.mod_eq_of_lt (by omega)
    rw [h1, List.getElem?_cons_succ, List.getElem?_append_left (by omega)]

theorem turns_run (v : Bool) (fuel : Nat) : ∀ (k : Nat) {s : RPool ω}, s.marked = [] → s.writer = false ∧ s.readers = 0 → s.running = true → s.queueOf v ≠ [] →
    (∀ x ∈ s.queueOf v, x.write = v ∧ Spec.Healthy W x.conn.ref) →
    ∃ l s', Spec.turns W (fuel + 1) v k s = some (l, s') ∧ l.length = k ∧ (∀ i, i < k → l[i]? = ((s.queueOf v)[i % (s.queueOf v).length]?).map (·.conn.ref)) ∧
      (s'.queueOf v).length = (s.queueOf v).length ∧ (∀ i, (s'.queueOf v)[i % (s.queueOf v).length]? = (s.queueOf v)[(i + k) % (s.queueOf v).length]?) ∧ Turned v s s'
  | 0, s, _, _, _, _, _ => ⟨[], s, rfl, rfl, fun i h => absurd h (Nat.not_lt_zero i), rfl, fun _ => rfl, ⟨rfl, rfl, rfl, rfl, rfl⟩⟩
  | k + 1, s, hm, hl, hr, hne, hq => by
    cases hs : s.queueOf v with
    | nil => exact absurd hs hne
    | cons x t =>
      obtain ⟨hxv, hxh⟩ := hq x (by rw [hs]; exact List.mem_cons_self)
      obtain ⟨s₁, a1, a2, a3, a4⟩ := borrow_run v fuel hm hl.1 hs hxh
      obtain ⟨s₂, b1, b2, b3⟩ := reclaim_run (fuel + 1) (s := s₁) ⟨a4.writer.trans hl.1, a4.readers.trans hl.2⟩ (a4.running.trans hr) a3 hxh
      rw [hxv] at b2 b3
      rw [a2] at b2
      have c := a4.trans b3
      have hq' : ∀ y ∈ s₂.queueOf v, y.write = v ∧ Spec.Healthy W y.conn.ref := by
        intro y hy
        refine hq y ?_
        rw [b2] at hy
        rw [hs]
        rcases List.mem_append.1 hy with hy | hy
        · exact List.mem_cons_of_mem _ hy
        · exact List.mem_singleton.1 hy ▸ List.mem_cons_self
      obtain ⟨l, s', d1, d2, d3, d4, d5, d6⟩ := turns_run v fuel k (s := s₂) (c.marked.trans hm) ⟨c.writer.trans hl.1, c.readers.trans hl.2⟩ (c.running.trans hr) (by rw [b2]; simp)
        hq'
      have hlen : (t ++ [x]).length = t.length + 1 := by simp
      rw [b2, hlen] at d3 d4 d5
      refine ⟨x.conn.ref :: l, s', ?_, by simp [d2], fun i hi => ?_, by rw [d4]; simp, fun i => ?_, c.trans d6⟩
      · simp only [Spec.turns, a1, b1, d1, Option.map_some]
      · cases i with
        | zero => simp
        | succ i => rw [List.getElem?_cons_succ, d3 i (by omega), rotate_get]; rfl
      · rw [List.length_cons, d5, rotate_get]
        congr 2

/-- **C137**: in whatever history a pool got here, if nobody holds its mutex and the idle connections for writing (`v = true`) or for reading are healthy: users who come one after the other get these
connections in turn, none of the calls fails, and afterwards the queue holds the same connections, as many places further on; the other queue is as before. -/
theorem C137 {size : Int} {s : PSys ω} (h : Spec.Reached W size Spec.inUse s) (hid : Spec.IdsDiffer s.pool.log) (hl : s.pool.writer = false ∧ s.pool.readers = 0) (v : Bool)
    (hne : s.pool.queueOf v ≠ []) (hh : ∀ x ∈ s.pool.queueOf v, Spec.Healthy W x.conn.ref) (fuel k : Nat) :
    ∃ l s', Spec.turns W (fuel + 1) v k s.pool = some (l, s') ∧ l.length = k ∧ (∀ i, i < k → l[i]? = ((s.pool.queueOf v)[i % (s.pool.queueOf v).length]?).map (·.conn.ref)) ∧
      (s'.queueOf v).length = (s.pool.queueOf v).length ∧ (∀ i, (s'.queueOf v)[i % (s.pool.queueOf v).length]? = (s.pool.queueOf v)[(i + k) % (s.pool.queueOf v).length]?) ∧
      s'.queueOf (!v) = s.pool.queueOf (!v) := by
  have hr : Spec.Reached W size Spec.noRestart s := by
    obtain ⟨a, b, c, d, e, f, g, h1, h2, h3⟩ := h
    exact ⟨a, b, c, d, e, f, g, h1, fun m hm => (h2 m hm).2, h3⟩
  obtain ⟨hi, _⟩ := reached_inv hr hid false (.inr fun h => h rfl)
  obtain ⟨_, q, _, _, _, _, led, _⟩ := lent_inv hi
  have hm : s.pool.marked = [] := by
    obtain ⟨_, _, _, _, pool, fuel, ms, ho, _, rfl⟩ := h
    exact (moves_of_acts (W := W) unmarked_act fuel ms (PSys.fresh pool) (open_unmarked ho) fun _ h => absurd h List.not_mem_nil).1.1
  obtain ⟨l, s', h1, h2, h3, h4, h5, h6⟩ := turns_run v fuel k hm hl (reached_running h) hne fun x hx => ⟨led.kind v x ((led.sub v).subset hx), hh x hx⟩
  exact ⟨l, s', h1, h2, h3, h4, h5, h6.other⟩

/-- **C137**, the first round: as many users as there are idle connections all get different ones. -/
theorem C137_round {size : Int} {s : PSys ω} (h : Spec.Reached W size Spec.inUse s) (hid : Spec.IdsDiffer s.pool.log) (hl : s.pool.writer = false ∧ s.pool.readers = 0) (v : Bool)
    (hne : s.pool.queueOf v ≠ []) (hh : ∀ x ∈ s.pool.queueOf v, Spec.Healthy W x.conn.ref) (fuel : Nat) :
    ∃ s', Spec.turns W (fuel + 1) v (s.pool.queueOf v).length s.pool = some ((s.pool.queueOf v).map (·.conn.ref), s') ∧ s'.queueOf v = s.pool.queueOf v ∧
      ((s.pool.queueOf v).map (·.conn.ref)).Nodup := by
  obtain ⟨l, s', h1, h2, h3, h4, h5, _⟩ := C137 h hid hl v hne hh fuel (s.pool.queueOf v).length
  refine ⟨s', ?_, ?_, ?_⟩
  · rw [h1]
    congr 2
    refine List.ext_getElem? fun i => ?_
    by_cases hi : i < (s.pool.queueOf v).length
    · rw [h3 i hi, Nat.mod_eq_of_lt hi, List.getElem?_map]
    · rw [List.getElem?_eq_none (by omega), List.getElem?_eq_none (by rw [List.length_map]; omega)]
  · refine List.ext_getElem? fun i => ?_
    by_cases hi : i < (s.pool.queueOf v).length
    · have := h5 i
      rwa [Nat.add_mod_right, Nat.mod_eq_of_lt hi] at this
    · rw [List.getElem?_eq_none (by omega), List.getElem?_eq_none (by omega)]
  · have hn := C136_once (s := s) (size := size) (W := W) (by
      obtain ⟨a, b, c, d, e, f, g, g1, _, g3⟩ := h
      exact ⟨a, b, c, d, e, f, g, g1, fun _ _ => trivial, g3⟩) hid
    have hn := List.nodup_append.1 (List.nodup_append.1 hn).1
    cases v
    · exact hn.1
    · exact hn.2.1

end

/-- The hypotheses are met: in a pool of four of which one connection for reading is lent, five users in turn write. -/
example : (C136.state C69.script C136.borrows).map (fun s => decide ((made s.pool.log).map (·.2)).Nodup && decide (s.pool.writer = false ∧ s.pool.readers = 0) && decide ((s.pool.queueOf true).map (·.conn.ref) = [1, 2]) &&
    match Spec.turns C69.script.world 100 true 5 s.pool with
    | some (l, s') => decide (l = [1, 2, 1, 2, 1] ∧ (s'.queueOf true).map (·.conn.ref) = [2, 1])
    | none => false) = some true ∧ ∀ r, Spec.Healthy C69.script.world r :=
  ⟨by decide +kernel, fun _ _ => rfl⟩

end Verif
