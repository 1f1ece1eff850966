/-
C84: a routing pool that has been stopped lends nothing and takes nothing back.
-/
import Verif.Proofs.PoolKnow
import Verif.Props.C82
namespace Verif
open PProg

namespace Spec

/-- The calls that returned after `s`, up to `s'`. -/
def returnedSince {ω : Type} (s s' : PSys ω) : List (PReq × CRes PRet) := s'.returned.drop s.returned.length

/-- The number of connections the pool has made. -/
def madeConns (log : List PEv) : Nat := log.countP fun | .created .. => true | _ => false

end Spec

/-- **C84**, full statement: once `Stop` has succeeded and no call is in progress, and as long as the pool is not started again, `Borrow…`, `Reclaim` and `Stop` return errors, and the pool makes
no connections. -/
def C84_statement : Prop := ∀ {ω : Type} (W : PWorld ω) (connStr : Bytes) (size : Int) (user tls : Bytes) (w : ω) (pool : RPool ω) (fuel : Nat) (before after : List PMove),
  openRoutingPool W connStr size user tls w = .ok (.ok (), pool) → (PReq.stop, CRes.ok none) ∈ ((PSys.fresh pool).moves W fuel before).returned → 0 < fuel →
    (∀ m ∈ before, Spec.noRestart m) → ((PSys.fresh pool).moves W fuel before).calls = [] → (∀ m ∈ after, Spec.noRestart m) →
    (∀ e ∈ Spec.returnedSince ((PSys.fresh pool).moves W fuel before) ((PSys.fresh pool).moves W fuel (before ++ after)), e.1 = .refresh ∨ ∃ err, e.2 = .err err) ∧
    Spec.madeConns ((PSys.fresh pool).moves W fuel (before ++ after)).pool.log = Spec.madeConns ((PSys.fresh pool).moves W fuel before).pool.log

section
variable {ω : Type} {W : PWorld ω}

/-- While the pool is being stopped: it is not running, and some queues are known to be empty. -/
def Stopping (k : Bool → Bool) (s : RPool ω) : Prop := s.running = false ∧ ∀ w, k w = true → s.queueOf w = []

/-- An action that adds nothing to the queues. -/
def Mild (_ : List Access) (f : RPool ω → RPool ω) : Prop := ∀ k s, Stopping k s → Stopping k (f s)

theorem mild_same {acc : List Access} {f : RPool ω → RPool ω} (h1 : ∀ s, (f s).running = s.running) (h2 : ∀ s w, (f s).queueOf w = s.queueOf w) : Mild acc f :=
  fun _ s hs => ⟨(h1 s).trans hs.1, fun w hw => (h2 s w).trans (hs.2 w hw)⟩

theorem mild_prim {α : Type} {acc : List Access} {m : RPool ω → α × RPool ω} (h1 : ∀ s, (m s).2.running = s.running) (h2 : ∀ s w, (m s).2.queueOf w = s.queueOf w) : Acts Mild (.prim acc m) :=
  Acts.prim (mild_same h1 h2)

theorem mild_validate (c : ConnRef) : Acts Mild (pValidate W c) := mild_prim (fun _ => rfl) fun _ _ => rfl
theorem mild_close (r : Nat) : Acts Mild (pClose W r) := mild_prim (fun _ => rfl) fun _ _ => rfl
theorem mild_delHeld (id : Bytes) : Acts Mild (delHeld id : PP ω Unit) := mild_prim (fun _ => rfl) fun _ _ => rfl
theorem mild_marked (c : ConnRef) : Acts Mild (pMarked c : PP ω Bool) := mild_prim (fun _ => rfl) fun _ _ => rfl

theorem mild_dequeue (w : Bool) : Acts Mild (pDequeue w : PP ω (Option Wrap)) := by
  refine Acts.prim fun k s hs => ?_
  dsimp only
  cases hq : s.queueOf w with
  | nil => exact hs
  | cons x q =>
    refine ⟨by cases w <;> exact hs.1, fun v hv => ?_⟩
    have := hs.2 v hv
    cases v <;> cases w
    · rw [hq] at this; cases this
    · exact this
    · exact this
    · rw [hq] at this; cases this

theorem mild_remove (x : Option Wrap) : Acts Mild (removeConn W x) := by
  cases x with
  | none => exact Acts.done
  | some x =>
    refine Acts.bind (fun ok => ?_) (mild_validate x.conn)
    split
    · exact mild_delHeld _
    · refine Acts.bind (fun r => ?_) (mild_close _)
      split
      · exact Acts.done
      · exact mild_delHeld _

theorem mild_internalBorrow (w : Bool) : ∀ fuel, Acts Mild (internalBorrow W w fuel)
  | 0 => Acts.done
  | fuel + 1 => by
    refine Acts.bind (fun x => ?_) (mild_dequeue w)
    cases x with
    | none => exact Acts.done
    | some x =>
      refine Acts.bind (fun m => ?_) (mild_marked _)
      split
      · exact Acts.bind (fun _ => mild_internalBorrow w fuel) (mild_remove _)
      · refine Acts.bind (fun ok => ?_) (mild_validate _)
        split
        · exact Acts.bind (fun _ => Acts.bind (fun _ => Acts.done) (mild_prim (fun _ => rfl) fun _ _ => rfl)) (mild_delHeld _)
        · exact Acts.bind (fun _ => mild_internalBorrow w fuel) (mild_remove _)

theorem mild_borrow (w : Bool) (fuel : Nat) : Acts Mild (PReq.prog W fuel (.borrow w)) := by
  have hl : Acts Mild (rlock : PP ω Unit) := ⟨mild_same (fun _ => rfl) fun _ _ => rfl, fun _ => Acts.done⟩
  have : Acts Mild (do rlock; PProg.deferred runlock (do let x ← internalBorrow W w fuel; pure x.conn) : PP ω ConnRef) :=
    Acts.bind (fun _ => Acts.deferred (f := runlock) (mild_same (fun _ => rfl) fun _ _ => rfl) (Acts.bind (fun _ => Acts.done) (mild_internalBorrow w fuel))) hl
  cases w <;> exact Acts.bind (fun _ => Acts.done) this

/-- What is known when a call returns: if `Stop` has succeeded, both queues are empty. -/
def Emptied (r : PReq) (k : Bool → Bool) (res : CRes PRet) : Prop := r = .stop → res = .ok none → ∀ w, k w = true

theorem know_drain (w : Bool) : ∀ (fuel : Nat) (k : Bool → Bool), Know Stopping (fun k' res => (∀ v, k v = true → k' v = true) ∧ (res = .ok () → k' w = true)) k (drain W w fuel)
  | 0, k => ⟨fun _ h => h, fun h => by cases h⟩
  | fuel + 1, k => by
    intro s hs
    refine ⟨fun _ h => h, ?_⟩
    dsimp only
    by_cases hn : (s.queueOf w).length = 0
    · refine ⟨fun v => k v || v == w, ⟨hs.1, fun v hv => ?_⟩, ?_⟩
      · rcases Bool.or_eq_true_iff.1 hv with hv | hv
        · exact hs.2 v hv
        · rw [eq_of_beq hv]; exact List.eq_nil_of_length_eq_zero hn
      · dsimp only [PProg.bind]
        rw [if_pos hn]
        exact ⟨fun v hv => by simp [hv], fun _ => by simp⟩
    · refine ⟨k, hs, ?_⟩
      dsimp only [PProg.bind]
      rw [if_neg hn]
      refine Know.bind (R := fun k' _ => k' = k) (fun k' x hk => ?_) (fun k' _ hk => ?_) (fun k' hk => ?_) (fun k' hk => ?_) (Know.of_acts (fun _ => rfl) (mild_dequeue w))
      · subst hk
        refine Know.bind (R := fun k₂ _ => k₂ = k') (fun k₂ _ hk => ?_) (fun k₂ _ hk => ?_) (fun k₂ hk => ?_) (fun k₂ hk => ?_) (Know.of_acts (fun _ => rfl) (mild_remove x))
        · subst hk; exact know_drain w fuel k₂
        all_goals subst hk; exact ⟨fun _ h => h, fun h => by cases h⟩
      all_goals subst hk; exact ⟨fun _ h => h, fun h => by cases h⟩

/-- What is left of `Stop` when it has declared the pool stopped. -/
theorem know_rest (fuel : Nat) : Know Stopping (Emptied .stop) (fun _ => false) (do (do drain W false fuel; drain W true fuel : PP ω Unit); return none : PProg (RPool ω) PRet) := by
  refine Know.bind (R := fun (k : Bool → Bool) res => res = .ok () → ∀ w, k w = true) (fun k _ h => ?_) (fun _ _ _ _ h => by cases h) (fun _ _ _ h => by cases h) (fun _ _ _ h => by cases h) ?_
  · exact fun _ _ => h rfl
  refine Know.bind (fun k _ h => ?_) (fun _ _ _ h => by cases h) (fun _ _ h => by cases h) (fun _ _ h => by cases h) (know_drain false fuel _)
  refine Know.mono (fun k' res h' hres w => ?_) (know_drain true fuel k)
  cases w with
  | true => exact h'.2 hres
  | false => exact h'.1 _ (h.2 rfl)

/-- Calls made while the pool is being stopped. -/
theorem know_during (fuel : Nat) (r : PReq) (hr : r ≠ .start) (hr' : r ≠ .refresh) : Know Stopping (Emptied r) (fun _ => false) (r.prog W fuel) := by
  match r with
  | .borrow w => exact Know.of_acts (fun _ h => by cases h) (mild_borrow w fuel)
  | .reclaim c =>
    intro s hs
    refine ⟨fun _ h => h, _, hs, fun s' hs' => ⟨fun _ h => h, _, hs', ?_⟩⟩
    dsimp only [PProg.bind]
    rw [hs'.1]
    exact fun s₂ hs₂ => ⟨fun _ h => h, _, hs₂, fun h => by cases h⟩
  | .stop =>
    intro s hs
    refine ⟨fun _ h => h, _, hs, ?_⟩
    dsimp only [PProg.bind]
    rw [hs.1]
    exact fun _ h => by cases h

/-- The pool is stopped, and has made `n` connections. -/
def Stopped (mw mr : Int) (n : Nat) (_ : Unit) (s : RPool ω) : Prop :=
  s.running = false ∧ (∀ w, s.queueOf w = []) ∧ s.minWriteIdle = 0 ∧ s.minReadIdle = 0 ∧ s.maxWriteIdle = mw ∧ s.maxReadIdle = mr ∧ Spec.madeConns s.log = n

theorem madeConns_snoc (log : List PEv) (e : PEv) : Spec.madeConns (log ++ [e]) = Spec.madeConns log + Spec.madeConns [e] := List.countP_append

variable {mw mr : Int} {n : Nat}

theorem stopped_refresh : Acts (fun _ f => ∀ k s, Stopped mw mr n k s → Stopped mw mr n k (f s)) (refreshConnections W) := by
  have snoc : ∀ {s s' : RPool ω} {e : PEv}, Stopped mw mr n () s → s'.running = s.running → (∀ w, s'.queueOf w = s.queueOf w) → s'.minWriteIdle = s.minWriteIdle → s'.minReadIdle = s.minReadIdle →
      s'.maxWriteIdle = s.maxWriteIdle → s'.maxReadIdle = s.maxReadIdle → s'.log = s.log ++ [e] → Spec.madeConns [e] = 0 → Stopped mw mr n () s' := by
    rintro s s' e ⟨a1, a2, a3, a4, a5, a6, a7⟩ b1 b2 b3 b4 b5 b6 b7 b8
    exact ⟨b1.trans a1, fun w => (b2 w).trans (a2 w), b3.trans a3, b4.trans a4, b5.trans a5, b6.trans a6, by rw [b7, madeConns_snoc, b8, a7]; rfl⟩
  refine Acts.bind (fun r => ?_) (Acts.prim fun k s hs => ?_)
  · cases r with
    | none => exact Acts.done
    | some r =>
      refine Acts.bind (fun _ => Acts.bind (fun _ => Acts.bind (fun _ => Acts.done) (Acts.prim fun k s hs => ?_)) (Acts.prim fun k s hs => hs)) (Acts.prim fun k s hs => ?_)
      · exact snoc hs rfl (fun _ => rfl) rfl rfl rfl rfl rfl rfl
      · exact snoc hs rfl (fun _ => rfl) rfl rfl rfl rfl rfl rfl
  · dsimp only
    generalize W.create s.world s.next s.leaderConnStr = c
    match c with
    | (_, some _) => exact hs
    | (_, none) => exact snoc hs rfl (fun _ => rfl) rfl rfl rfl rfl rfl rfl

/-- There is nothing to prune. -/
theorem stopped_prune : Know (Stopped mw mr n) (fun _ _ => True) () (prune W) := by
  intro s hs
  refine ⟨fun _ h => h, (), hs, ?_⟩
  dsimp only [PProg.bind]
  rw [hs.2.1 false]
  intro s₁ hs₁
  refine ⟨fun _ h => h, (), hs₁, ?_⟩
  dsimp only [PProg.bind]
  rw [hs₁.2.1 true]
  have set : ∀ w (s : RPool ω), Stopped mw mr n () s → Stopped mw mr n () (s.setQueue w []) := by
    rintro w s ⟨a1, a2, a3⟩
    cases w
    · exact ⟨a1, fun v => by cases v; rfl; exact a2 true, a3⟩
    · exact ⟨a1, fun v => by cases v; exact a2 false; rfl, a3⟩
  intro s₂ hs₂
  refine ⟨fun _ h => set true s₂ h, (), set true s₂ hs₂, ?_⟩
  intro s₃ hs₃
  exact ⟨fun _ h => set false s₃ h, (), set false s₃ hs₃, trivial⟩

/-- The limits as the comparison sees them. -/
theorem stopped_compare {s : RPool ω} (hs : Stopped mw mr n () s) (w : Bool) :
    ((if ((s.queueOf w).length : Int) < (if w then s.minWriteIdle else s.minReadIdle) then .lt
      else if ((s.queueOf w).length : Int) > (if w then s.maxWriteIdle else s.maxReadIdle) then .gt else .eq : Ordering)) =
    if (if w then mw else mr) < 0 then .gt else .eq := by
  obtain ⟨_, a2, a3, a4, a5, a6, _⟩ := hs
  rw [a2 w, a3, a4, a5, a6]
  cases w <;> simp

theorem stopped_while (w : Bool) (lim : RPool ω → Int) (hlim : ∀ s, Stopped mw mr n () s → lim s < 0) (step : PP ω Unit) : ∀ fuel, Know (Stopped mw mr n) (fun _ _ => True) () (whileSize w lim step fuel)
  | 0 => trivial
  | fuel + 1 => by
    intro s hs
    refine ⟨fun _ h => h, (), hs, ?_⟩
    dsimp only [PProg.bind]
    have := hlim s hs
    rw [hs.2.1 w, decide_eq_false (by simp only [List.length_nil]; omega)]
    trivial

/-- There is nothing to balance. -/
theorem stopped_balance (fuel : Nat) : Know (Stopped mw mr n) (fun _ _ => True) () (balance W fuel) := by
  have third : Know (Stopped mw mr n) (fun _ _ => True) () (do
      match ← pCompare false with
      | .lt => whileSize false (·.minReadIdle) (addReadConn W) fuel
      | .gt => whileSize false (·.maxReadIdle) (do removeConn W (← pDequeue false)) fuel
      | .eq => pure () : PP ω Unit) := by
    intro s hs
    refine ⟨fun _ h => h, (), hs, ?_⟩
    dsimp only [PProg.bind]
    rw [stopped_compare hs false]
    by_cases hm : mr < 0
    · rw [show (if (if false = true then mw else mr) < 0 then Ordering.gt else .eq) = .gt from if_pos hm]
      exact stopped_while false _ (fun s hs => by rw [hs.2.2.2.2.2.1]; exact hm) _ fuel
    · rw [show (if (if false = true then mw else mr) < 0 then Ordering.gt else .eq) = .eq from if_neg hm]
      trivial
  have second : Know (Stopped mw mr n) (fun _ _ => True) () (do
      match ← pCompare true with
      | .lt => whileSize true (·.minWriteIdle) (addWriteConn W) fuel
      | .gt => whileSize true (·.maxWriteIdle) (do removeConn W (← pDequeue true)) fuel
      | .eq => pure ()
      match ← pCompare false with
      | .lt => whileSize false (·.minReadIdle) (addReadConn W) fuel
      | .gt => whileSize false (·.maxReadIdle) (do removeConn W (← pDequeue false)) fuel
      | .eq => pure () : PP ω Unit) := by
    intro s hs
    refine ⟨fun _ h => h, (), hs, ?_⟩
    dsimp only [PProg.bind]
    rw [stopped_compare hs true]
    by_cases hm : mw < 0
    · rw [show (if (if true = true then mw else mr) < 0 then Ordering.gt else .eq) = .gt from if_pos hm]
      exact Know.bind (fun _ _ _ => third) (fun _ _ _ => trivial) (fun _ _ => trivial) (fun _ _ => trivial)
        (stopped_while true _ (fun s hs => by rw [hs.2.2.2.2.1]; exact hm) _ fuel)
    · rw [show (if (if true = true then mw else mr) < 0 then Ordering.gt else .eq) = .eq from if_neg hm]
      exact third
  intro s hs
  refine ⟨fun _ h => h, (), hs, ?_⟩
  dsimp only [PProg.bind]
  rw [stopped_compare hs false]
  by_cases hm : mr < 0
  · rw [show (if (if false = true then mw else mr) < 0 then Ordering.gt else .eq) = .gt from if_pos hm]
    exact second
  · rw [show (if (if false = true then mw else mr) < 0 then Ordering.gt else .eq) = .eq from if_neg hm]
    exact second

/-- Calls made after the pool has been stopped. -/
theorem know_after (fuel : Nat) (r : PReq) (hr : r ≠ .start) :
    Know (Stopped mw mr n) (fun _ res => r = .refresh ∨ ∃ err, res = .err err) () (r.prog W (fuel + 1)) := by
  match r with
  | .borrow true =>
    refine fun s hs => ⟨fun _ h => h, (), hs, fun s₁ hs₁ => ?_⟩
    have hq := hs₁.2.1 true
    refine ⟨fun _ h => ?_, (), ?_, ?_⟩
    · dsimp only; rw [hq]; exact h
    · dsimp only; rw [hq]; exact hs₁
    · dsimp only; rw [hq]
      exact fun s₂ hs₂ => ⟨fun _ h => h, (), hs₂, .inr ⟨_, rfl⟩⟩
  | .borrow false =>
    refine fun s hs => ⟨fun _ h => h, (), hs, fun s₁ hs₁ => ?_⟩
    have hq := hs₁.2.1 false
    refine ⟨fun _ h => ?_, (), ?_, ?_⟩
    · dsimp only; rw [hq]; exact h
    · dsimp only; rw [hq]; exact hs₁
    · dsimp only; rw [hq]
      exact fun s₂ hs₂ => ⟨fun _ h => h, (), hs₂, .inr ⟨_, rfl⟩⟩
  | .reclaim c =>
    refine fun s hs => ⟨fun _ h => h, (), hs, fun s' hs' => ⟨fun _ h => h, (), hs', ?_⟩⟩
    dsimp only [PProg.bind]
    rw [hs'.1]
    exact fun s₂ hs₂ => ⟨fun _ h => h, (), hs₂, .inr ⟨_, rfl⟩⟩
  | .stop =>
    refine fun s hs => ⟨fun _ h => h, (), hs, ?_⟩
    dsimp only [PProg.bind]
    rw [hs.1]
    exact .inr ⟨_, rfl⟩
  | .refresh =>
    have hl : Know (Stopped mw mr n) (fun _ _ => True) () (refreshRound W (fuel + 1)) := by
      refine Know.bind (p := lock) (R := fun _ _ => True) (fun _ _ _ => ?_) (fun _ _ _ => trivial) (fun _ _ => trivial) (fun _ _ => trivial) fun s hs => ⟨fun _ h => h, (), hs, trivial⟩
      refine Know.bind (R := fun _ _ => True) (fun _ _ _ => ?_) (fun _ _ _ => trivial) (fun _ _ => trivial) (fun _ _ => trivial) (Know.of_acts (fun _ => trivial) stopped_refresh)
      refine Know.bind (R := fun _ _ => True) (fun _ _ _ => ?_) (fun _ _ _ => trivial) (fun _ _ => trivial) (fun _ _ => trivial) stopped_prune
      refine Know.bind (R := fun _ _ => True) (fun _ _ _ => ?_) (fun _ _ _ => trivial) (fun _ _ => trivial) (fun _ _ => trivial) (stopped_balance _)
      exact fun s hs => ⟨fun _ h => h, (), hs, trivial⟩
    refine Know.bind (R := fun _ _ => True) (fun _ _ _ => ?_) (fun _ _ _ => .inl rfl) (fun _ _ => .inl rfl) (fun _ _ => .inl rfl) hl
    exact .inl rfl

/-- The least numbers of idle connections are never set. -/
theorem mins_zero {connStr : Bytes} {size : Int} {user tls : Bytes} {w : ω} {pool : RPool ω} (h : openRoutingPool W connStr size user tls w = .ok (.ok (), pool)) (fuel : Nat) (ms : List PMove) :
    ((PSys.fresh pool).moves W fuel ms).pool.minWriteIdle = 0 ∧ ((PSys.fresh pool).moves W fuel ms).pool.minReadIdle = 0 := by
  have act : ∀ (acc : List Access) (f : RPool ω → RPool ω), PAct W acc f → ∀ s, (s.minWriteIdle = 0 ∧ s.minReadIdle = 0) → (f s).minWriteIdle = 0 ∧ (f s).minReadIdle = 0 := by
    intro acc f h s hs
    cases h with
    | enqueue w x => cases w <;> exact hs
    | dequeue w =>
      dsimp only
      split
      · exact hs
      · cases w <;> exact hs
    | setQueue w q => cases w <;> exact hs
    | create w str => dsimp only; split <;> exact hs
    | dial => dsimp only; split <;> exact hs
    | indexW => dsimp only; split <;> exact hs
    | indexR => dsimp only; split <;> exact hs
    | startHead => unfold RPool.startHead; split <;> exact hs
    | _ => exact hs
  have hopen : pool.minWriteIdle = 0 ∧ pool.minReadIdle = 0 := by
    unfold openRoutingPool at h
    cases hn : newRoutingPool connStr size user tls w with
    | error e => rw [hn] at h; cases h
    | ok s =>
      rw [hn] at h
      simp only [Except.ok.injEq] at h
      have hs : s.minWriteIdle = 0 ∧ s.minReadIdle = 0 := by
        unfold newRoutingPool at hn
        split at hn
        · cases hn
        · split at hn
          · cases hn
          · simp only [Except.ok.injEq] at hn
            subst hn
            exact ⟨rfl, rfl⟩
      have := run_of_acts (W := W) act acts_start hs
      rwa [h] at this
  exact (moves_of_acts act fuel ms (PSys.fresh pool) hopen fun _ h => absurd h List.not_mem_nil).1

/-- `Stop` has begun: the pool has been declared stopped. -/
theorem stop_begun (fuel : Nat) (s : PSys ω) (hc : s.calls = []) (hr : s.pool.running = true) :
    s.moves W fuel [.call .stop, .step 0, .step 0] = { s with pool := { s.pool with running := false }, calls := [(.stop, do (do drain W false fuel; drain W true fuel : PP ω Unit); return none)] } := by
  obtain ⟨pool, calls, lent, returned⟩ := s
  subst hc
  simp only [PSys.moves, List.foldl_cons, List.foldl_nil, PSys.move, PReq.prog, stop, Bind.bind, PProg.bind, PProg.prim, List.nil_append, List.getElem?_cons_zero, if_true, List.set_cons_zero]
  rw [hr]
  rfl

/-- **C84**: `Stop` is called when no other call is in progress, and until it returns the pool is not refreshed.  (The first two steps declare the pool stopped; other calls of `Borrow…`,
`Reclaim` and `Stop` may come in between afterwards.)  If it succeeds, all later calls of these fail, and the pool makes no more connections.
Missing: calls of `Reclaim` in progress, and refreshes, when `Stop` is called (`C84_refuted`). -/
theorem C84_stopped_partial {connStr : Bytes} {size : Int} {user tls : Bytes} {w : ω} {pool : RPool ω} (h : openRoutingPool W connStr size user tls w = .ok (.ok (), pool)) (fuel : Nat)
    (before during after : List PMove) (s₀ s₁ s₂ : PSys ω) (h₀ : s₀ = (PSys.fresh pool).moves W (fuel + 1) before) (hc₀ : s₀.calls = [])
    (h₁ : s₁ = s₀.moves W (fuel + 1) ([.call .stop, .step 0, .step 0] ++ during)) (hd : ∀ r, .call r ∈ during → r ≠ .start ∧ r ≠ .refresh)
    (hs : (PReq.stop, CRes.ok none) ∈ Spec.returnedSince s₀ s₁) (hc₁ : s₁.calls = [])
    (h₂ : s₂ = s₁.moves W (fuel + 1) after) (ha : ∀ m ∈ after, Spec.noRestart m) :
    (∀ e ∈ Spec.returnedSince s₁ s₂, e.1 = .refresh ∨ ∃ err, e.2 = .err err) ∧ Spec.madeConns s₂.pool.log = Spec.madeConns s₁.pool.log := by
  have hmove : ∀ (s : PSys ω) a b, s.moves W (fuel + 1) (a ++ b) = (s.moves W (fuel + 1) a).moves W (fuel + 1) b := fun s a b => List.foldl_append ..
  have hmins : s₁.pool.minWriteIdle = 0 ∧ s₁.pool.minReadIdle = 0 := by
    rw [h₁, h₀, ← hmove]
    exact mins_zero h _ _
  have hq : s₁.pool.running = false ∧ ∀ w, s₁.pool.queueOf w = [] := by
    cases hr : s₀.pool.running with
    | true =>
      rw [hmove, stop_begun _ _ hc₀ hr] at h₁
      obtain ⟨a1, _, _, new, a3, a4⟩ := know_moves (W := W) (R := Emptied) (Q := Stopping) (fuel + 1) (fun _ => false) during
        { s₀ with pool := { s₀.pool with running := false }, calls := [(.stop, do (do drain W false (fuel + 1); drain W true (fuel + 1) : PP ω Unit); return none)] }
        ⟨rfl, fun _ h => by cases h⟩ (fun e he => ⟨fun _ => false, ⟨rfl, fun _ h => by cases h⟩, by rw [List.mem_singleton.1 he]; exact know_rest _⟩) (fun r hr => know_during _ r (hd r hr).1 (hd r hr).2)
      rw [← h₁] at a1 a3 a4
      have hnew : (PReq.stop, CRes.ok none) ∈ new := by
        unfold Spec.returnedSince at hs
        rw [a3] at hs
        simpa using hs
      obtain ⟨k, hk, hE⟩ := a4 _ hnew
      exact ⟨a1.1, fun w => hk.2 w (hE rfl rfl w)⟩
    | false =>
      obtain ⟨_, _, _, new, a3, a4⟩ := know_moves (W := W) (R := Emptied) (Q := Stopping) (fuel + 1) (fun _ => false) ([.call .stop, .step 0, .step 0] ++ during) s₀
        ⟨hr, fun _ h => by cases h⟩ (fun e he => by rw [hc₀] at he; cases he) (fun r hr => by
          rcases List.mem_append.1 hr with hr | hr
          · rw [show r = .stop by simpa using hr]
            exact know_during _ _ (by simp) (by simp)
          · exact know_during _ r (hd r hr).1 (hd r hr).2)
      rw [← h₁] at a3 a4
      have hnew : (PReq.stop, CRes.ok none) ∈ new := by
        unfold Spec.returnedSince at hs
        rw [a3] at hs
        simpa using hs
      obtain ⟨k, hk, hE⟩ := a4 _ hnew
      exact ⟨hk.1, fun w => hk.2 w (hE rfl rfl w)⟩
  obtain ⟨b1, _, _, new, b3, b4⟩ := know_moves (W := W) (R := fun r _ res => r = .refresh ∨ ∃ err, res = .err err)
    (Q := Stopped s₁.pool.maxWriteIdle s₁.pool.maxReadIdle (Spec.madeConns s₁.pool.log)) (fuel + 1) () after s₁
    ⟨hq.1, hq.2, hmins.1, hmins.2, rfl, rfl, rfl⟩ (fun e he => by rw [hc₁] at he; cases he) (fun r hr => know_after _ r fun e => ha _ hr (by rw [e]))
  rw [← h₂] at b1 b3 b4
  refine ⟨fun e he => ?_, b1.2.2.2.2.2.2⟩
  unfold Spec.returnedSince at he
  rw [b3, List.drop_left] at he
  obtain ⟨_, _, hR⟩ := b4 e he
  exact hR

end

namespace C84

/-- A healthy cluster. -/
def script : Script where
  rows _ := threeMembers

/-- Nobody uses the pool; it is stopped while somebody asks for a connection. -/
def during : List PMove := [.call (.borrow true)] ++ List.replicate 20 (.step 1) ++ List.replicate 30 (.step 0)

/-- Later a connection is requested, one is returned, and the pool is refreshed. -/
def after : List PMove := [.call (.borrow true)] ++ List.replicate 10 (.step 0) ++ [.call (.reclaim ⟨1, [49, 45, 0, 4]⟩)] ++ List.replicate 10 (.step 0) ++
  [.call .refresh] ++ List.replicate 30 (.step 0)

/-- The kinds of results. -/
def kinds (l : List (PReq × CRes PRet)) : List (PReq × Nat) := l.map fun e => (e.1, match e.2 with | .ok none => 0 | .ok (some _) => 1 | .err _ => 2 | .panic => 3 | .fuel => 4)

/-- Results of stopping, and of what comes later; the calls in progress when the pool has been stopped. -/
example : (match openRoutingPool script.world (ascii "bolt+routing://a") 3 (ascii "u:p") [] 0 with
    | .ok (.ok (), pool) =>
      some (((PSys.fresh pool).moves script.world 100 ([.call .stop, .step 0, .step 0] ++ during)).calls.length,
        kinds ((PSys.fresh pool).moves script.world 100 ([.call .stop, .step 0, .step 0] ++ during)).returned,
        kinds (Spec.returnedSince ((PSys.fresh pool).moves script.world 100 ([.call .stop, .step 0, .step 0] ++ during))
          ((PSys.fresh pool).moves script.world 100 ([.call .stop, .step 0, .step 0] ++ during ++ after))))
    | _ => none) = some (0, [(.borrow true, 1), (.stop, 0)], [(.borrow true, 2), (.reclaim ⟨1, [49, 45, 0, 4]⟩, 2), (.refresh, 0)]) := by decide +kernel

/-- A connection is being returned when the pool is stopped. -/
def racing : List PMove := [.call (.borrow false)] ++ List.replicate 10 (.step 0) ++ [.call (.reclaim ⟨2, [48, 45, 0, 6]⟩)] ++ List.replicate 2 (.step 0) ++
  [.call .stop] ++ List.replicate 30 (.step 1) ++ List.replicate 10 (.step 0)

/-- Then one is requested. -/
def again : List PMove := [.call (.borrow false)] ++ List.replicate 10 (.step 0)

/-- The call returns it. -/
def lends (script : Script) (before after : List PMove) : Bool :=
  match openRoutingPool script.world (ascii "bolt+routing://a") 2 (ascii "u:p") [] 0 with
  | .ok (.ok (), pool) =>
    let s := (PSys.fresh pool).moves script.world 100 before
    (s.calls.isEmpty && (kinds s.returned).contains (.stop, 0)) &&
      (kinds (Spec.returnedSince s ((PSys.fresh pool).moves script.world 100 (before ++ after)))).contains (.borrow false, 1)
  | _ => false

end C84

/-- **C84 refuted**: a call of `Reclaim` has seen that the pool is running; the pool is stopped; the connection is put into its queue, and lent again. -/
theorem C84_refuted : ¬ C84_statement := by
  intro hall
  have check : C84.lends C84.script C84.racing C84.again = true := by decide +kernel
  unfold C84.lends at check
  split at check
  · rename_i pool ho
    dsimp only at check
    simp only [Bool.and_eq_true, List.isEmpty_iff, List.contains_iff_mem] at check
    obtain ⟨⟨hc, hs⟩, hb⟩ := check
    have hs : (PReq.stop, CRes.ok none) ∈ ((PSys.fresh pool).moves C84.script.world 100 C84.racing).returned := by
      obtain ⟨e, he, hk⟩ := List.mem_map.1 hs
      obtain ⟨r, res⟩ := e
      simp only [Prod.mk.injEq] at hk
      obtain ⟨rfl, hk⟩ := hk
      match res, hk with
      | .ok none, _ => exact he
    have := (hall C84.script.world _ 2 _ _ 0 pool 100 C84.racing C84.again ho hs (by decide) (by unfold Spec.noRestart; decide +kernel) hc (by unfold Spec.noRestart; decide +kernel)).1
    obtain ⟨e, he, hk⟩ := List.mem_map.1 hb
    obtain ⟨r, res⟩ := e
    simp only [Prod.mk.injEq] at hk
    obtain ⟨rfl, hk⟩ := hk
    rcases this _ he with h | ⟨err, h⟩
    · cases h
    · dsimp only at h
      subst h
      cases hk
  · cases check

end Verif
