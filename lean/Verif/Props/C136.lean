/-
C136: where the connections of a routing pool are.
-/
import Verif.Proofs.PoolOwn
import Verif.Props.C82
import Verif.Props.C88
import Verif.Props.C69
namespace Verif
open PProg

namespace Spec

/-- The pool made this connection and never tried to close it, but nobody has it: it is not lent, and it is in no queue. -/
def Lost {ω : Type} (s : PSys ω) (n : Nat) : Prop :=
  (∃ id str w, PEv.created n id str w ∈ s.pool.log) ∧ PEv.closed n ∉ s.pool.log ∧ (∀ c ∈ s.lent, c.ref ≠ n) ∧ ∀ w, ∀ x ∈ s.pool.queueOf w, x.conn.ref ≠ n

end Spec

/-- The full claim: whenever no call is in progress, every connection that a pool in use has made is idle, or lent, or the pool has closed it. -/
def C136_statement : Prop := ∀ {ω : Type} {W : PWorld ω} {size : Int} {s : PSys ω}, 1 < size → Spec.Reached W size Spec.inUse s → Spec.IdsDiffer s.pool.log → s.calls = [] →
  ∀ n, ¬ Spec.Lost s n

section
variable {ω : Type} {W : PWorld ω}

/-- The pool runs. -/
theorem running_act (acc : List Access) (f : RPool ω → RPool ω) (h : PActD W true false acc f) (s : RPool ω) (hs : s.running = true) : (f s).running = true := by
  cases h with
  | enqueue w x => cases w <;> exact hs
  | dequeue w =>
    dsimp only
    split
    · exact hs
    · cases w <;> exact hs
  | setQueue w q => cases w <;> exact hs
  | create w str => dsimp only; split <;> exact hs
  | indexW => dsimp only; split <;> exact hs
  | indexR => dsimp only; split <;> exact hs
  | dial => dsimp only; split <;> exact hs
  | stopped h => cases h
  | startHead h => cases h
  | _ => exact hs

theorem run_of_some {P : RPool ω → Prop} {A : List Access → (RPool ω → RPool ω) → Prop} (hP : ∀ acc f, A acc f → ∀ s, P s → P (f s)) {α : Type} {p : PP ω α} (hp : Acts A p)
    {s : RPool ω} (hs : P s) : P (p.run s).2 := by
  induction p generalizing s with
  | done => exact hs
  | act acc en f k ih =>
    simp only [PProg.run]
    split
    · exact ih s (hp.2 s) (hP acc f hp.1 s hs)
    · exact hs

/-- All connections that were made are idle. -/
def AllIdle (s : RPool ω) : Prop := ∀ n id, (n, id) ∈ made s.log → ∃ w, ∃ x ∈ s.queueOf w, x.conn.ref = n

theorem addConn_idle (w : Bool) {s s' : RPool ω} (hs : AllIdle s) (h : (addConn W w).run s = (.ok (), s')) : AllIdle s' := by
  obtain ⟨x, str, h1, h2, h3⟩ := addConn_new w h
  intro n id hn
  rw [h3, made_append] at hn
  rcases List.mem_append.1 hn with hn | hn
  · obtain ⟨v, y, hy, rfl⟩ := hs n id hn
    refine ⟨v, y, ?_, rfl⟩
    by_cases hv : v = w
    · subst hv; rw [h1]; exact List.mem_append_left _ hy
    · have hv : v = !w := by cases v <;> cases w <;> simp_all
      subst hv; rw [h2]; exact hy
  · simp only [made, List.mem_singleton, Prod.mk.injEq] at hn
    exact ⟨w, x, by rw [h1]; simp, hn.1.symm⟩

theorem times_idle (w : Bool) : ∀ (n : Nat) {s s' : RPool ω}, AllIdle s → (times n (addConn W w)).run s = (.ok (), s') → AllIdle s'
  | 0, s, s', hs, h => by
    simp only [times, Pure.pure, PProg.run, Prod.mk.injEq] at h
    obtain ⟨_, rfl⟩ := h
    exact hs
  | n + 1, s, s', hs, h => by
    obtain ⟨_, s₁, h1, h2⟩ := run_bind_inv h
    exact times_idle w n (addConn_idle w hs h1) h2

theorem run_neutral {α : Type} {p : PP ω α} (h : NeutralActs p) : ∀ {s : RPool ω}, (∀ v, (p.run s).2.queueOf v = s.queueOf v) ∧ made (p.run s).2.log = made s.log := by
  induction p with
  | done => exact ⟨fun _ => rfl, rfl⟩
  | act acc en f k ih =>
    intro s
    simp only [PProg.run]
    split
    · obtain ⟨h1, h2⟩ := ih s (h.2 s) (s := f s)
      have n := h.1 s
      obtain ⟨evs, he, hm⟩ := n.log
      exact ⟨fun v => (h1 v).trans (n.queue v), h2.trans (by rw [he, made_append, hm, List.append_nil])⟩
    · exact ⟨fun _ => rfl, rfl⟩

/-- After opening: the pool runs, and all its connections are idle. -/
theorem open_idle {connStr : Bytes} {size : Int} {user tls : Bytes} {w : ω} {pool : RPool ω} (h : openRoutingPool W connStr size user tls w = .ok (.ok (), pool)) :
    pool.running = true ∧ AllIdle pool := by
  unfold openRoutingPool at h
  cases hn : newRoutingPool connStr size user tls w with
  | error e => rw [hn] at h; cases h
  | ok s =>
    rw [hn] at h
    simp only [Except.ok.injEq] at h
    obtain ⟨hrun, hlog⟩ : s.running = false ∧ s.log = [] := by
      unfold newRoutingPool at hn
      split at hn
      · cases hn
      · split at hn
        · cases hn
        · simp only [Except.ok.injEq] at hn
          subst hn
          exact ⟨rfl, rfl⟩
    have hstart : (start W).run s = (startRest W s.startHead.maxWriteIdle s.startHead.maxReadIdle).run s.startHead := by
      simp only [start, Bind.bind, PProg.bind, PProg.prim, PProg.run, hrun, if_true, Bool.false_eq_true, if_false]
    rw [hstart] at h
    obtain ⟨h1, h2⟩ : s.startHead.running = true ∧ s.startHead.log = [] := by
      unfold RPool.startHead
      split <;> exact ⟨rfl, hlog⟩
    constructor
    · have := run_of_some (P := fun s : RPool ω => s.running = true) running_act (acts_startRest (W := W) (e := false) s.startHead.maxWriteIdle s.startHead.maxReadIdle) h1
      rw [h] at this
      exact this
    · have hi : AllIdle s.startHead := fun n id hn => by rw [h2] at hn; cases hn
      obtain ⟨_, s₁, k1, k2⟩ := run_bind_inv h
      obtain ⟨g1, g2⟩ := run_neutral (neutral_refresh W) (s := s.startHead)
      rw [k1] at g1 g2
      obtain ⟨_, s₂, k3, k4⟩ := run_bind_inv k2
      have hi₁ : AllIdle s₁ := fun n id hn => by
        obtain ⟨v, x, hx, hr⟩ := hi n id (g2 ▸ hn)
        exact ⟨v, x, (g1 v) ▸ hx, hr⟩
      exact times_idle false _ (times_idle true _ hi₁ k3) k4

/-- A pool in use runs. -/
theorem reached_running {size : Int} {s : PSys ω} (h : Spec.Reached W size Spec.inUse s) : s.pool.running = true := by
  obtain ⟨_, _, _, _, pool, fuel, ms, ho, hok, rfl⟩ := h
  refine (moves_of_some (P := fun s : RPool ω => s.running = true) running_act fuel ms (fun r hr => acts_use fuel ?_) (PSys.fresh pool) (open_idle ho).1 fun _ h => absurd h List.not_mem_nil).1
  exact ⟨fun h => (hok _ hr).1 (by rw [h]), fun h => (hok _ hr).2 (by rw [h])⟩

/-- A pool in use is sound. -/
theorem reached_sound {size : Int} {s : PSys ω} (hn : 1 < size) (h : Spec.Reached W size Spec.inUse s) (hid : Spec.IdsDiffer s.pool.log) (hv : Spec.NoRevival s.pool.log) :
    Sound s.pool ∧ ∀ c ∈ s.lent, ∃ str w, PEv.created c.ref c.id str w ∈ s.pool.log := by
  have hr : Spec.Reached W size Spec.noRestart s := by
    obtain ⟨a, b, c, d, e, f, g, h1, h2, h3⟩ := h
    exact ⟨a, b, c, d, e, f, g, h1, fun m hm => (h2 m hm).2, h3⟩
  obtain ⟨hi, _⟩ := reached_inv hr hid false (.inr fun h => h rfl)
  obtain ⟨xs, q, gs, hx, _, hb, l, _⟩ := lent_inv hi
  have hmade : ∀ x ∈ s.pool.borrowedConns.map (·.2), PEv.created x.conn.ref x.conn.id x.connStr x.write ∈ s.pool.log := fun x hx =>
    l.made x (List.mem_append_left _ (List.mem_append_right _ hx))
  obtain ⟨⟨b1, b2⟩, b3⟩ := C64_partial hr hid
  obtain ⟨b3, b4⟩ := b3 hn
  refine ⟨⟨?_, fun w => ?_, ?_, fun e he => ⟨l.key e he, _, _, hmade _ (List.mem_map.2 ⟨e, he, rfl⟩)⟩, (idsDiffer_iff _).1 hid, hv⟩, fun c hc => ?_⟩
  · obtain ⟨_, _, _, _, pool, fuel, ms, ho, _, rfl⟩ := h
    exact (moves_of_acts (W := W) unmarked_act fuel ms (PSys.fresh pool) (open_unmarked ho) fun _ h => absurd h List.not_mem_nil).1.1
  · cases w
    · exact ⟨b2, b4⟩
    · exact ⟨b1, b3⟩
  · exact reached_running h
  · rw [← hx] at hc
    obtain ⟨x, hx, rfl⟩ := List.mem_map.1 hc
    exact ⟨_, _, hmade x (hb x hx)⟩

theorem noRevival_prefix {a b : List PEv} (h : Spec.NoRevival (a ++ b)) : Spec.NoRevival a := fun x y r e => h x (y ++ b) r (by rw [e]; simp)

theorem moves_own {connStr : Bytes} {size : Int} {user tls : Bytes} {w : ω} {pool : RPool ω} (hn : 1 < size) (ho : openRoutingPool W connStr size user tls w = .ok (.ok (), pool)) (fuel : Nat) :
    ∀ (n : Nat) (ms : List PMove), ms.length = n → (∀ m ∈ ms, Spec.inUse m) → Spec.IdsDiffer ((PSys.fresh pool).moves W fuel ms).pool.log →
      Spec.NoRevival ((PSys.fresh pool).moves W fuel ms).pool.log → SysOwn ((PSys.fresh pool).moves W fuel ms)
  | 0, ms, hl, hok, hid, hv => by
    obtain rfl := List.length_eq_zero_iff.1 hl
    obtain ⟨hs, _⟩ := reached_sound hn ⟨_, _, _, _, pool, fuel, [], ho, hok, rfl⟩ hid hv
    refine ⟨[], [], rfl, ?_, fun _ h => absurd h List.not_mem_nil, fun _ h => absurd h List.not_mem_nil⟩
    exact {
      sound := hs
      writers := by
        show 0 = if pool.writer then 1 else 0
        rw [(open_lock ho).1]
        rfl
      snapLk := fun _ h => absurd h List.not_mem_nil
      snap := fun _ h => absurd h List.not_mem_nil
      saw := fun _ h => absurd h List.not_mem_nil
      all := fun n id h => .inr (.inl ((open_idle ho).2 n id h)) }
  | n + 1, ms, hl, hok, hid, hv => by
    obtain ⟨ms, m, rfl⟩ : ∃ ms' m, ms = ms' ++ [m] := by
      refine ⟨ms.dropLast, ms.getLast (fun h => by rw [h] at hl; cases hl), ?_⟩
      rw [List.dropLast_concat_getLast]
    have hok' : ∀ m ∈ ms, Spec.inUse m := fun m hm => hok m (List.mem_append_left _ hm)
    obtain ⟨hs, _⟩ := reached_sound hn ⟨_, _, _, _, pool, fuel, ms ++ [m], ho, hok, rfl⟩ hid hv
    rw [moves_append_one] at hs hid hv ⊢
    have hg := (moves_grows W fuel ms (s := PSys.fresh pool) fun _ h => absurd h List.not_mem_nil).1
    have hg := (move_grows W fuel hg m).2
    have hid' := (idsDiffer_iff _).2 (hg.distinct ((idsDiffer_iff _).1 hid))
    have hv' : Spec.NoRevival ((PSys.fresh pool).moves W fuel ms).pool.log := by
      obtain ⟨evs, he⟩ := hg.log
      rw [he] at hv
      exact noRevival_prefix hv
    obtain ⟨_, hlent⟩ := reached_sound hn ⟨_, _, _, _, pool, fuel, ms, ho, hok', rfl⟩ hid' hv'
    exact own_move W fuel (hok m (by simp)) hlent hs (moves_own hn ho fuel n ms (by simpa using hl) hok' hid' hv')

/-- **C136**, once: in every history, even of pools that are stopped and started again, no connection is in the queues twice or in both, is lent twice, or is idle while it is lent. -/
theorem C136_once {size : Int} {s : PSys ω} (h : Spec.Reached W size Spec.anything s) (hid : Spec.IdsDiffer s.pool.log) :
    ((s.pool.queueOf false).map (·.conn.ref) ++ (s.pool.queueOf true).map (·.conn.ref) ++ s.lent.map (·.ref)).Nodup := by
  obtain ⟨hi, _⟩ := reached_inv h hid true (.inl rfl)
  obtain ⟨xs, q, gs, hx, hnd, _, l, _⟩ := lent_inv hi
  obtain ⟨h1, h2⟩ := C60 h hid
  have hq : ((s.pool.queueOf false).map (·.conn.ref) ++ (s.pool.queueOf true).map (·.conn.ref)).Nodup := by
    have hn := l.nodup
    rw [allWraps, List.append_assoc, List.map_append] at hn
    have hn := (List.nodup_append.1 hn).1
    rw [List.map_append] at hn
    exact hn.sublist (((l.sub false).map _).append ((l.sub true).map _))
  refine List.nodup_append.2 ⟨hq, h1, fun n hn m hm => ?_⟩
  obtain ⟨c, hc, rfl⟩ := List.mem_map.1 hm
  rcases List.mem_append.1 hn with hn | hn
  all_goals
    obtain ⟨x, hx, rfl⟩ := List.mem_map.1 hn
    exact h2 c hc _ x hx

/-- **C136**, if no connection that was found to be dead is found to be alive later.  Missing: connections that come back to life (`C136_refuted`). -/
theorem C136_partial {size : Int} {s : PSys ω} (hn : 1 < size) (h : Spec.Reached W size Spec.inUse s) (hid : Spec.IdsDiffer s.pool.log) (hc : s.calls = [])
    (hv : Spec.NoRevival s.pool.log) (n : Nat) : ¬ Spec.Lost s n := by
  rintro ⟨⟨id, str, w, h1⟩, h2, h3, h4⟩
  obtain ⟨_, _, _, _, pool, fuel, ms, ho, hok, rfl⟩ := h
  obtain ⟨E, L, hL, hA, hE, _⟩ := moves_own hn ho fuel ms.length ms rfl hok hid hv
  rw [hc, List.map_eq_nil_iff] at hL
  subst hL
  rcases hA.all n id (mem_made.2 ⟨_, _, h1⟩) with ⟨g, hg, hn⟩ | ⟨v, x, hx, hr⟩ | hcl
  · rw [List.map_nil, List.append_nil] at hg
    obtain ⟨c, hc, hr⟩ := hE g hg n hn
    exact h3 c hc hr
  · exact h4 v x hx hr
  · exact h2 hcl

end

namespace C136

/-- The state after a history of a pool of 4 connections. -/
def state (sc : Script) (ms : List PMove) : Option (PSys Nat) :=
  match openRoutingPool sc.world (ascii "bolt+routing://a") 4 (ascii "u:p") [] 0 with
  | .ok (.ok (), pool) => some ((PSys.fresh pool).moves sc.world 100 ms)
  | _ => none

theorem state_reached {sc : Script} {ok : PMove → Prop} {ms : List PMove} (hok : ∀ m ∈ ms, ok m) {s : PSys Nat} (h : state sc ms = some s) : Spec.Reached sc.world 4 ok s := by
  unfold state at h
  generalize ho : openRoutingPool sc.world (ascii "bolt+routing://a") 4 (ascii "u:p") [] 0 = o at h
  match o, h with
  | .ok (.ok (), pool), h =>
    simp only [Option.some.injEq] at h
    exact ⟨_, _, _, _, _, _, _, ho, hok, h.symm⟩

/-- Somebody borrows a connection for reading. -/
def borrows : List PMove := .call (.borrow false) :: List.replicate 20 (.step 0)

theorem borrows_inUse : ∀ m ∈ borrows, Spec.inUse m := by
  intro m hm
  simp only [borrows, List.mem_cons, List.mem_replicate] at hm
  rcases hm with rfl | ⟨_, rfl⟩ <;> exact ⟨by simp, by simp⟩

/-- `Lost` can be computed. -/
def lost (s : PSys Nat) (n : Nat) : Bool :=
  (s.pool.log.any fun | .created r .. => r == n | _ => false) && !(s.pool.log.any fun | .closed r => r == n | _ => false) && s.lent.all (·.ref ≠ n) &&
    (s.pool.queueOf true).all (·.conn.ref ≠ n) && (s.pool.queueOf false).all (·.conn.ref ≠ n)

/-- `NoRevival` can be computed. -/
def steady : List PEv → Bool
  | [] => true
  | .checked r false :: l => !(l.any fun | .checked r' true => r' == r | _ => false) && steady l
  | _ :: l => steady l

theorem lost_iff {s : PSys Nat} {n : Nat} (h : lost s n = true) : Spec.Lost s n := by
  simp only [lost, Bool.and_eq_true, List.any_eq_true, List.all_eq_true, decide_eq_true_eq, Bool.not_eq_true', List.any_eq_false, ne_eq] at h
  obtain ⟨⟨⟨⟨⟨e, he, h1⟩, h2⟩, h3⟩, h4⟩, h5⟩ := h
  refine ⟨?_, fun hc => ?_, h3, fun w => ?_⟩
  · cases e with
    | created r id str w =>
      obtain rfl : r = n := by simpa using h1
      exact ⟨_, _, _, he⟩
    | _ => cases h1
  · exact h2 _ hc (by simp)
  · cases w
    · exact h5
    · exact h4

theorem steady_iff : ∀ {log : List PEv}, steady log = true → Spec.NoRevival log
  | [], _ => fun a b r h => by simp at h
  | e :: log, h => by
    have hl : steady log = true := by
      cases e with
      | checked r ok => cases ok <;> simp only [steady, Bool.and_eq_true] at h
                        · exact h.2
                        · exact h
      | _ => exact h
    intro a b r he
    cases a with
    | nil => exact List.not_mem_nil
    | cons x a =>
      simp only [List.cons_append, List.cons.injEq] at he
      obtain ⟨rfl, he⟩ := he
      intro hm
      rcases List.mem_cons.1 hm with hm | hm
      · subst hm
        simp only [steady, Bool.and_eq_true, Bool.not_eq_true', List.any_eq_false] at h
        exact h.1 (.checked r true) (by rw [he]; simp) (by simp)
      · exact steady_iff hl a b r he hm

/-- A cluster in which the check at time 11, and no other, fails. -/
def flaky : Script where
  rows _ := threeMembers
  alive w _ := w ≠ 11

/-- A cluster in which connection 3 is dead. -/
def dead : Script where
  rows _ := threeMembers
  alive _ r := r ≠ 3

end C136

/-- **C136 refuted**: `internalBorrow` (pool.go 429-459) finds that connection 3 is dead, and calls `removeConn`, which (pool.go 101-115) checks it again.  If it is alive then, it is not closed, but
it has been taken from its queue: nobody will ever use or close it. -/
theorem C136_refuted : ¬ C136_statement := by
  intro h
  have check : ((C136.state C136.flaky C136.borrows).map fun s => C136.lost s 3 && s.calls.isEmpty && decide ((made s.pool.log).map (·.2)).Nodup) = some true := by
    decide +kernel
  cases hs : C136.state C136.flaky C136.borrows with
  | none => rw [hs] at check; cases check
  | some s =>
    rw [hs] at check
    simp only [Option.map_some, Option.some.injEq, Bool.and_eq_true, List.isEmpty_iff, decide_eq_true_eq] at check
    exact h (by decide) (C136.state_reached C136.borrows_inUse hs) ((idsDiffer_iff _).2 check.2) check.1.2 3 (C136.lost_iff check.1.1)

/-- The hypotheses of `C136_partial` are met: connection 3 is dead; somebody borrows for reading and gets connection 4.  Then 3 has been closed, 4 is lent, 1 and 2 are idle. (So are those of `C136_once`.) -/
example : ∃ s, Spec.Reached C136.dead.world 4 Spec.inUse s ∧ Spec.IdsDiffer s.pool.log ∧ s.calls = [] ∧ Spec.NoRevival s.pool.log ∧ PEv.closed 3 ∈ s.pool.log ∧
    s.lent.map (·.ref) = [4] ∧ (s.pool.queueOf true).map (·.conn.ref) = [1, 2] := by
  have check : ((C136.state C136.dead C136.borrows).map fun s => s.calls.isEmpty && decide ((made s.pool.log).map (·.2)).Nodup && C136.steady s.pool.log &&
      (s.pool.log.any fun | .closed r => r == 3 | _ => false) && decide (s.lent.map (·.ref) = [4] ∧ (s.pool.queueOf true).map (·.conn.ref) = [1, 2])) = some true := by
    decide +kernel
  cases hs : C136.state C136.dead C136.borrows with
  | none => rw [hs] at check; cases check
  | some s =>
    rw [hs] at check
    simp only [Option.map_some, Option.some.injEq, Bool.and_eq_true, List.isEmpty_iff, decide_eq_true_eq, List.any_eq_true] at check
    obtain ⟨⟨⟨⟨h1, h2⟩, h3⟩, e, he, h4⟩, h5⟩ := check
    refine ⟨s, C136.state_reached C136.borrows_inUse hs, (idsDiffer_iff _).2 h2, h1, C136.steady_iff h3, ?_, h5⟩
    cases e with
    | closed r =>
      obtain rfl : r = 3 := by simpa using h4
      exact he
    | _ => cases h4

end Verif
