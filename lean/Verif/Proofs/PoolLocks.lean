/-
Which variables the calls on a routing pool access under which lock.
-/
import Verif.Proofs.PoolActs
import Verif.Proofs.PoolSys
namespace Verif
open PProg

/-- The lock a call holds. -/
inductive Phase where
  | free | read | write
  deriving DecidableEq

/-- Accesses allowed with the lock: anything with the write lock; with the read lock the two maps, reading other variables than the items of a queue, and these under the queue's own lock. -/
def Phase.Allows : Phase → Access → Prop
  | .free, _ => False
  | .read, a => a.var = .held ∨ a.var = .borrowed ∨ (a.write = false ∧ ∀ w, a.var ≠ .items w) ∨ (a.locked = true ∧ ∃ w, a.var = .items w)
  | .write, _ => True

section
variable {ω : Type} {W : PWorld ω}

/-- An action that leaves the lock alone. -/
def PWithin (ph : Phase) (acc : List Access) (f : RPool ω → RPool ω) : Prop := (∀ a ∈ acc, ph.Allows a) ∧ ∀ s, (f s).writer = s.writer ∧ (f s).readers = s.readers

/-- The program respects the locks; `b`: it may take the read lock. -/
def Held {α : Type} (b : Bool) : Phase → PP ω α → Prop
  | _, .done _ => True
  | ph, .act acc en f k =>
    (PWithin ph acc f ∧ ∀ s, Held b ph (k s)) ∨
    (b = true ∧ ph = .free ∧ acc = [] ∧ (∀ s, en s = true → s.writer = false) ∧ (∀ s, (f s).writer = s.writer ∧ (f s).readers = s.readers + 1) ∧ ∀ s, Held b .read (k s)) ∨
    (ph = .free ∧ acc = [] ∧ (∀ s, en s = true → s.writer = false ∧ s.readers = 0) ∧ (∀ s, (f s).writer = true ∧ (f s).readers = s.readers) ∧ ∀ s, Held b .write (k s)) ∨
    (ph = .read ∧ acc = [] ∧ (∀ s, (f s).writer = s.writer ∧ (f s).readers = s.readers - 1) ∧ ∀ s, Held b .free (k s)) ∨
    (ph = .write ∧ acc = [] ∧ (∀ s, (f s).writer = false ∧ (f s).readers = s.readers) ∧ ∀ s, Held b .free (k s))

theorem Held.bind {α β : Type} {b : Bool} {f : α → PP ω β} (hf : ∀ a ph, Held b ph (f a)) : ∀ {p : PP ω α} {ph : Phase}, Held b ph p → Held b ph (PProg.bind p f)
  | .done (.ok a), ph, _ => hf a ph
  | .done (.err _), _, _ => trivial
  | .done .panic, _, _ => trivial
  | .done .fuel, _, _ => trivial
  | .act _ _ _ _, _, h => by
    rcases h with ⟨h1, h2⟩ | ⟨h1, h2, h3, h4, h5, h6⟩ | ⟨h1, h2, h3, h4, h5⟩ | ⟨h1, h2, h3, h4⟩ | ⟨h1, h2, h3, h4⟩
    · exact .inl ⟨h1, fun s => Held.bind hf (h2 s)⟩
    · exact .inr (.inl ⟨h1, h2, h3, h4, h5, fun s => Held.bind hf (h6 s)⟩)
    · exact .inr (.inr (.inl ⟨h1, h2, h3, h4, fun s => Held.bind hf (h5 s)⟩))
    · exact .inr (.inr (.inr (.inl ⟨h1, h2, h3, fun s => Held.bind hf (h4 s)⟩)))
    · exact .inr (.inr (.inr (.inr ⟨h1, h2, h3, fun s => Held.bind hf (h4 s)⟩)))

theorem held_within {α β : Type} {b : Bool} {ph : Phase} {f : α → PP ω β} (hf : ∀ a, Held b ph (f a)) : ∀ {p : PP ω α}, Acts (PWithin ph) p → Held b ph (PProg.bind p f)
  | .done (.ok a), _ => hf a
  | .done (.err _), _ => trivial
  | .done .panic, _ => trivial
  | .done .fuel, _ => trivial
  | .act _ _ _ _, h => .inl ⟨h.1, fun s => held_within hf (h.2 s)⟩

theorem held_runlock {α : Type} {b : Bool} : ∀ {p : PP ω α}, Acts (PWithin .read) p → Held b .read (PProg.deferred runlock p)
  | .done _, _ => .inr (.inr (.inr (.inl ⟨rfl, rfl, fun _ => ⟨rfl, rfl⟩, fun _ => trivial⟩)))
  | .act _ _ _ _, h => .inl ⟨h.1, fun s => held_runlock (h.2 s)⟩

theorem held_unlock {α : Type} {b : Bool} : ∀ {p : PP ω α}, Acts (PWithin .write) p → Held b .write (PProg.deferred unlock p)
  | .done _, _ => .inr (.inr (.inr (.inr ⟨rfl, rfl, fun _ => ⟨rfl, rfl⟩, fun _ => trivial⟩)))
  | .act _ _ _ _, h => .inl ⟨h.1, fun s => held_unlock (h.2 s)⟩

theorem within_prim {α : Type} {ph : Phase} {acc : List Access} {m : RPool ω → α × RPool ω} (h : ∀ a ∈ acc, ph.Allows a) (hm : ∀ s, (m s).2.writer = s.writer ∧ (m s).2.readers = s.readers) :
    Acts (PWithin ph) (.prim acc m) := Acts.prim ⟨h, hm⟩

theorem within_dequeue {ph : Phase} (hph : ph ≠ .free) (w : Bool) : Acts (PWithin ph) (pDequeue w : PP ω (Option Wrap)) := by
  refine within_prim (fun a ha => ?_) fun s => ?_
  · cases ph with
    | free => exact absurd rfl hph
    | write => trivial
    | read =>
      simp only [List.mem_cons, List.not_mem_nil, or_false] at ha
      rcases ha with rfl | rfl
      · exact .inr (.inr (.inl ⟨rfl, by simp⟩))
      · exact .inr (.inr (.inr ⟨rfl, w, rfl⟩))
  · cases h : s.queueOf w with
    | nil => exact ⟨rfl, rfl⟩
    | cons x q => cases w <;> exact ⟨rfl, rfl⟩

theorem within_marked {ph : Phase} (hph : ph ≠ .free) (c : ConnRef) : Acts (PWithin ph) (pMarked c : PP ω Bool) := by
  refine within_prim (fun a ha => ?_) fun s => ⟨rfl, rfl⟩
  cases ph with
  | free => exact absurd rfl hph
  | write => trivial
  | read => rw [List.mem_singleton.1 ha]; exact .inr (.inr (.inl ⟨rfl, by simp⟩))

theorem within_validate (ph : Phase) (c : ConnRef) : Acts (PWithin ph) (pValidate W c) := within_prim (fun _ h => absurd h List.not_mem_nil) fun _ => ⟨rfl, rfl⟩

theorem within_close (ph : Phase) (r : Nat) : Acts (PWithin ph) (pClose W r) := within_prim (fun _ h => absurd h List.not_mem_nil) fun _ => ⟨rfl, rfl⟩

theorem within_map {α : Type} {ph : Phase} (hph : ph ≠ .free) {v : Var} {w l : Bool} {m : RPool ω → α × RPool ω} (hv : v = .held ∨ v = .borrowed)
    (hm : ∀ s, (m s).2.writer = s.writer ∧ (m s).2.readers = s.readers) : Acts (PWithin ph) (.prim [⟨v, w, l⟩] m) := by
  refine within_prim (fun a ha => ?_) hm
  rw [List.mem_singleton.1 ha]
  cases ph with
  | free => exact absurd rfl hph
  | write => trivial
  | read =>
    rcases hv with h | h
    · exact .inl h
    · exact .inr (.inl h)

theorem within_delHeld {ph : Phase} (hph : ph ≠ .free) (id : Bytes) : Acts (PWithin ph) (delHeld id : PP ω Unit) := within_map hph (.inl rfl) fun _ => ⟨rfl, rfl⟩

theorem within_remove {ph : Phase} (hph : ph ≠ .free) (x : Option Wrap) : Acts (PWithin ph) (removeConn W x) := by
  cases x with
  | none => exact Acts.done
  | some x =>
    refine Acts.bind (fun ok => ?_) (within_validate ph x.conn)
    split
    · exact within_delHeld hph _
    · refine Acts.bind (fun r => ?_) (within_close ph _)
      split
      · exact Acts.done
      · exact within_delHeld hph _

theorem within_internalBorrow {ph : Phase} (hph : ph ≠ .free) (w : Bool) : ∀ fuel, Acts (PWithin ph) (internalBorrow W w fuel)
  | 0 => Acts.done
  | fuel + 1 => by
    refine Acts.bind (fun x => ?_) (within_dequeue hph w)
    cases x with
    | none => exact Acts.done
    | some x =>
      refine Acts.bind (fun m => ?_) (within_marked hph _)
      split
      · exact Acts.bind (fun _ => within_internalBorrow hph w fuel) (within_remove hph _)
      · refine Acts.bind (fun ok => ?_) (within_validate ph _)
        split
        · exact Acts.bind (fun _ => Acts.bind (fun _ => Acts.done) (within_map hph (.inr rfl) fun _ => ⟨rfl, rfl⟩)) (within_delHeld hph _)
        · exact Acts.bind (fun _ => within_internalBorrow hph w fuel) (within_remove hph _)

/-- With the write lock, everything that leaves the lock alone is allowed. -/
theorem within_write {α : Type} {acc : List Access} {m : RPool ω → α × RPool ω} (hm : ∀ s, (m s).2.writer = s.writer ∧ (m s).2.readers = s.readers) : Acts (PWithin .write) (.prim acc m) :=
  within_prim (fun _ _ => trivial) hm

theorem within_enqueue (w : Bool) (x : Wrap) : Acts (PWithin .write) (pEnqueue w x : PP ω Unit) := within_write fun s => by cases w <;> exact ⟨rfl, rfl⟩

theorem within_new (w : Bool) (str : Bytes) : Acts (PWithin .write) (newConnection W w str) := by
  refine Acts.bind (fun r => ?_) (within_write fun s => ?_)
  · cases r with
    | error _ => exact Acts.done
    | ok x => exact Acts.bind (fun _ => Acts.done) (within_write fun _ => ⟨rfl, rfl⟩)
  · generalize W.create s.world s.next str = c
    match c with
    | (_, some _) => exact ⟨rfl, rfl⟩
    | (_, none) => exact ⟨rfl, rfl⟩

theorem within_addWrite : Acts (PWithin .write) (addWriteConn W) := by
  refine Acts.bind (fun r => ?_) (within_write fun s => ?_)
  · cases r with
    | error _ => exact Acts.done
    | ok str => exact Acts.bind (fun x => within_enqueue _ _) (within_new _ _)
  · split <;> exact ⟨rfl, rfl⟩

theorem within_addRead : Acts (PWithin .write) (addReadConn W) := by
  refine Acts.bind (fun r => ?_) (within_write fun s => ?_)
  · cases r with
    | error _ => exact Acts.done
    | ok str => exact Acts.bind (fun x => within_enqueue _ _) (within_new _ _)
  · split <;> exact ⟨rfl, rfl⟩

theorem within_refresh : Acts (PWithin .write) (refreshConnections W) := by
  refine Acts.bind (fun r => ?_) (within_write fun s => ?_)
  · cases r with
    | none => exact Acts.done
    | some r =>
      exact Acts.bind (fun _ => Acts.bind (fun _ => Acts.bind (fun _ => Acts.done) (within_close _ r)) (within_write fun _ => ⟨rfl, rfl⟩)) (within_write fun _ => ⟨rfl, rfl⟩)
  · generalize W.create s.world s.next s.leaderConnStr = c
    match c with
    | (_, some _) => exact ⟨rfl, rfl⟩
    | (_, none) => exact ⟨rfl, rfl⟩

theorem within_pruneReads : ∀ xs reads, Acts (PWithin .write) (pruneReads W xs reads)
  | [], _ => Acts.done
  | x :: xs, reads => by
    refine Acts.bind (fun m => ?_) (within_marked (by simp) _)
    split
    · exact Acts.bind (fun _ => within_pruneReads xs _) (within_close _ _)
    · exact within_pruneReads xs _

theorem within_pruneWrites : ∀ xs writes, Acts (PWithin .write) (pruneWrites W xs writes)
  | [], _ => Acts.done
  | x :: xs, writes => by
    refine Acts.bind (fun m => ?_) (within_marked (by simp) _)
    split
    · exact Acts.bind (fun _ => within_pruneWrites xs _) (within_remove (by simp) _).attempt
    · exact within_pruneWrites xs _

theorem within_setQueue (w : Bool) (q : List Wrap) : Acts (PWithin .write) (pSetQueue w q : PP ω Unit) := within_write fun s => by cases w <;> exact ⟨rfl, rfl⟩

theorem within_prune : Acts (PWithin .write) (prune W) :=
  Acts.bind (fun _ => Acts.bind (fun _ => Acts.bind (fun _ => Acts.bind (fun _ => Acts.bind (fun _ => within_setQueue _ _)
    (within_setQueue _ _)) (within_pruneWrites _ _)) (within_write fun _ => ⟨rfl, rfl⟩)) (within_pruneReads _ _)) (within_write fun _ => ⟨rfl, rfl⟩)

theorem within_whileSize (w : Bool) (n : RPool ω → Int) {step : PP ω Unit} (hs : Acts (PWithin .write) step) : ∀ fuel, Acts (PWithin .write) (whileSize w n step fuel)
  | 0 => Acts.done
  | fuel + 1 => by
    refine Acts.bind (fun go => ?_) (within_write fun _ => ⟨rfl, rfl⟩)
    split
    · exact Acts.bind (fun _ => within_whileSize w n hs fuel) hs.attempt
    · exact Acts.done

theorem within_takeOut (w : Bool) : Acts (PWithin .write) (do removeConn W (← pDequeue w) : PP ω Unit) := Acts.bind (fun _ => within_remove (by simp) _) (within_dequeue (by simp) w)

theorem within_compare (w : Bool) : Acts (PWithin .write) (pCompare w : PP ω Ordering) := within_write fun _ => ⟨rfl, rfl⟩

theorem within_balance (fuel : Nat) : Acts (PWithin .write) (balance W fuel) := by
  have third : Acts (PWithin .write) (do
      match ← pCompare false with
      | .lt => whileSize false (·.minReadIdle) (addReadConn W) fuel
      | .gt => whileSize false (·.maxReadIdle) (do removeConn W (← pDequeue false)) fuel
      | .eq => pure () : PP ω Unit) := by
    refine Acts.bind (fun o => ?_) (within_compare _)
    cases o with
    | lt => exact within_whileSize _ _ within_addRead fuel
    | gt => exact within_whileSize _ _ (within_takeOut false) fuel
    | eq => exact Acts.done
  have second : Acts (PWithin .write) (do
      match ← pCompare true with
      | .lt => whileSize true (·.minWriteIdle) (addWriteConn W) fuel
      | .gt => whileSize true (·.maxWriteIdle) (do removeConn W (← pDequeue true)) fuel
      | .eq => pure ()
      match ← pCompare false with
      | .lt => whileSize false (·.minReadIdle) (addReadConn W) fuel
      | .gt => whileSize false (·.maxReadIdle) (do removeConn W (← pDequeue false)) fuel
      | .eq => pure () : PP ω Unit) := by
    refine Acts.bind (fun o => ?_) (within_compare _)
    cases o with
    | lt => exact Acts.bind (fun _ => third) (within_whileSize _ _ within_addWrite fuel)
    | gt => exact Acts.bind (fun _ => third) (within_whileSize _ _ (within_takeOut true) fuel)
    | eq => exact third
  refine Acts.bind (fun o => ?_) (within_compare _)
  cases o with
  | lt => exact Acts.bind (fun _ => second) (within_whileSize _ _ within_addRead fuel)
  | gt => exact second
  | eq => exact second

theorem within_times {step : PP ω Unit} (hs : Acts (PWithin .write) step) : ∀ n, Acts (PWithin .write) (times n step)
  | 0 => Acts.done
  | n + 1 => Acts.bind (fun _ => within_times hs n) hs

theorem within_start : Acts (PWithin .write) (start W) := by
  refine Acts.bind (fun ok => ?_) (within_write fun _ => ⟨rfl, rfl⟩)
  split
  · exact Acts.done
  · refine Acts.bind (fun _ => Acts.bind (fun _ => Acts.bind (fun _ => within_times within_addRead _) (within_times within_addWrite _)) within_refresh) (within_write fun s => ?_)
    show (RPool.startHead s).writer = _ ∧ (RPool.startHead s).readers = _
    unfold RPool.startHead
    split <;> exact ⟨rfl, rfl⟩

/-- Such a program leaves the lock as it is. -/
theorem within_run {α : Type} {ph : Phase} : ∀ {p : PP ω α} {s : RPool ω}, Acts (PWithin ph) p → (p.run s).2.writer = s.writer ∧ (p.run s).2.readers = s.readers
  | .done _, _, _ => ⟨rfl, rfl⟩
  | .act _ en f k, s, h => by
    simp only [PProg.run]
    split
    · have h1 := h.1.2 s
      have h2 := within_run (s := f s) (h.2 s)
      exact ⟨h2.1.trans h1.1, h2.2.trans h1.2⟩
    · exact ⟨rfl, rfl⟩

theorem open_lock {connStr : Bytes} {size : Int} {user tls : Bytes} {w : ω} {r : CRes Unit} {pool : RPool ω} (h : openRoutingPool W connStr size user tls w = .ok (r, pool)) :
    pool.writer = false ∧ pool.readers = 0 := by
  unfold openRoutingPool at h
  cases hn : newRoutingPool connStr size user tls w with
  | error e => rw [hn] at h; cases h
  | ok s₀ =>
    rw [hn] at h
    simp only [Except.ok.injEq] at h
    have hw : s₀.writer = false ∧ s₀.readers = 0 := by
      unfold newRoutingPool at hn
      split at hn
      · cases hn
      · split at hn
        · cases hn
        · simp only [Except.ok.injEq] at hn
          subst hn
          exact ⟨rfl, rfl⟩
    have := within_run (s := s₀) (within_start (W := W))
    rw [h] at this
    exact ⟨this.1.trans hw.1, this.2.trans hw.2⟩

/-- The body of `Reclaim`. -/
theorem held_reclaim (c : ConnRef) : Held false .free (reclaim W c) := by
  refine .inr (.inr (.inl ⟨rfl, rfl, fun s h => ?_, fun _ => ⟨rfl, rfl⟩, fun s => held_unlock ?_⟩))
  · simp only [Bool.and_eq_true, Bool.not_eq_true', decide_eq_true_eq] at h; exact h
  · refine Acts.bind (fun ok => ?_) (within_write fun _ => ⟨rfl, rfl⟩)
    split
    · exact Acts.done
    · refine Acts.bind (fun o => ?_) (within_write fun _ => ⟨rfl, rfl⟩)
      cases o with
      | none =>
        refine Acts.bind (fun r => ?_) (within_close _ _)
        cases r <;> exact Acts.done
      | some x =>
        refine Acts.bind (fun _ => Acts.bind (fun _ => Acts.bind (fun ok => Acts.bind (fun bad => ?_) ?_) (within_validate _ _)) (within_write fun _ => ⟨rfl, rfl⟩)) (within_write fun _ => ⟨rfl, rfl⟩)
        · cases bad with
          | some _ =>
            dsimp only
            split
            · exact within_addWrite
            · exact within_addRead
          | none => exact within_enqueue _ _
        · split
          · exact Acts.done
          · exact (within_remove (by simp) _).attempt

theorem held_borrow (w : Bool) (fuel : Nat) : Held true .free (do rlock; PProg.deferred runlock (do let x ← internalBorrow W w fuel; pure x.conn) : PP ω ConnRef) := by
  refine .inr (.inl ⟨rfl, rfl, rfl, fun s h => ?_, fun _ => ⟨rfl, rfl⟩, fun s => held_runlock (Acts.bind (fun _ => Acts.done) (within_internalBorrow (by simp) w fuel))⟩)
  simpa using h

theorem held_refreshRound (fuel : Nat) : Held false .free (refreshRound W fuel) := by
  refine .inr (.inr (.inl ⟨rfl, rfl, fun s h => ?_, fun _ => ⟨rfl, rfl⟩, fun s => held_within (fun _ => held_within (fun _ => held_within (fun _ => ?_) (within_balance fuel)) within_prune) within_refresh⟩))
  · simp only [Bool.and_eq_true, Bool.not_eq_true', decide_eq_true_eq] at h; exact h
  · exact .inr (.inr (.inr (.inr ⟨rfl, rfl, fun _ => ⟨rfl, rfl⟩, fun _ => trivial⟩)))

theorem held_return {α β : Type} {b : Bool} {ph : Phase} {g : α → β} {p : PP ω α} (h : Held b ph p) : Held b ph (PProg.bind p fun a => .done (.ok (g a))) :=
  Held.bind (fun _ _ => by unfold Held; trivial) h

/-- Whether a call borrows. -/
def PReq.borrows : PReq → Bool
  | .borrow _ => true
  | _ => false

theorem held_prog (fuel : Nat) (r : PReq) (h1 : r ≠ .start) (h2 : r ≠ .stop) : Held r.borrows .free (r.prog W fuel) := by
  match r with
  | .borrow true => exact held_return (held_borrow true fuel)
  | .borrow false => exact held_return (held_borrow false fuel)
  | .reclaim c => exact held_return (held_reclaim c)
  | .refresh => exact held_return (held_refreshRound fuel)
  | .start => exact absurd rfl h1
  | .stop => exact absurd rfl h2

/-- The calls in progress respect the locks, and hold the locks the mutex says they hold. -/
structure LInv (s : PSys ω) (L : List ((PReq × PProg (RPool ω) PRet) × Phase)) : Prop where
  calls : L.map (·.1) = s.calls
  held : ∀ e ∈ L, Held e.1.1.borrows e.2 e.1.2 ∧ (e.2 = .read → e.1.1.borrows = true)
  writes : (L.map (·.2)).count .write ≤ if s.pool.writer then 1 else 0
  reads : (L.map (·.2)).count .read ≤ s.pool.readers
  alone : s.pool.writer = true → s.pool.readers = 0

theorem LInv.move (fuel : Nat) {s : PSys ω} (m : PMove) (hm : m ≠ .call .stop ∧ m ≠ .call .start) {L : List ((PReq × PProg (RPool ω) PRet) × Phase)} (h : LInv s L) : ∃ L', LInv (s.move W fuel m) L' := by
  have call : ∀ r l, m = .call r → ∃ L', LInv ({ s with calls := s.calls ++ [(r, PReq.prog W fuel r)], lent := l } : PSys ω) L' := by
    intro r l hr
    refine ⟨L ++ [((r, PReq.prog W fuel r), .free)], by simp [h.calls], fun e he => ?_, by simpa [List.count_append] using h.writes, by simpa [List.count_append] using h.reads, h.alone⟩
    rcases List.mem_append.1 he with he | he
    · exact h.held e he
    · rw [List.mem_singleton.1 he]
      exact ⟨held_prog fuel r (fun h => hm.2 (by rw [hr, h])) (fun h => hm.1 (by rw [hr, h])), by simp⟩
  match m with
  | .call (.reclaim c) =>
    simp only [PSys.move]
    split
    · exact call _ _ rfl
    · exact ⟨L, h⟩
  | .call (.borrow w) => exact call _ _ rfl
  | .call .start => exact absurd rfl hm.2
  | .call .stop => exact absurd rfl hm.1
  | .call .refresh => exact call _ _ rfl
  | .step k =>
    simp only [PSys.move]
    cases hk : s.calls[k]? with
    | none => exact ⟨L, h⟩
    | some rp =>
      obtain ⟨r, p⟩ := rp
      have hk' := hk
      rw [← h.calls, List.getElem?_map, Option.map_eq_some_iff] at hk'
      obtain ⟨⟨rp, g⟩, hkL, rfl⟩ := hk'
      obtain ⟨L₁, L₂, h1, h2, h3⟩ := split_at hkL
      obtain ⟨hheld, hread⟩ := h.held ((r, p), g) (by rw [h1]; simp)
      have hw := h.writes
      have hr := h.reads
      rw [h1] at hw hr
      simp only [List.map_append, List.map_cons, List.count_append, List.count_cons] at hw hr
      cases p with
      | done res =>
        refine ⟨L.eraseIdx k, by rw [← h.calls, eraseIdx_map'], fun e he => h.held e (List.mem_of_mem_eraseIdx he), ?_, ?_, h.alone⟩
        · rw [h2]; simp only [List.map_append, List.count_append]; split at hw <;> omega
        · rw [h2]; simp only [List.map_append, List.count_append]; split at hr <;> omega
      | act acc en f k' =>
        dsimp only
        split
        · rename_i hen
          have mk : ∀ g', Held r.borrows g' (k' s.pool) → (g' = .read → r.borrows = true) →
              ((L₁.map (·.2)).count .write + ((L₂.map (·.2)).count .write + if g' = .write then 1 else 0) ≤ if (f s.pool).writer then 1 else 0) →
              ((L₁.map (·.2)).count .read + ((L₂.map (·.2)).count .read + if g' = .read then 1 else 0) ≤ (f s.pool).readers) →
              ((f s.pool).writer = true → (f s.pool).readers = 0) → ∃ L', LInv ({ s with pool := f s.pool, calls := s.calls.set k (r, k' s.pool) } : PSys ω) L' := by
            intro g' hg1 hg2 hg3 hg4 hg5
            refine ⟨L.set k ((r, k' s.pool), g'), by rw [← h.calls, List.map_set], fun e he => ?_, ?_, ?_, hg5⟩
            · rcases List.mem_or_eq_of_mem_set he with he | rfl
              · exact h.held e he
              · exact ⟨hg1, hg2⟩
            · rw [h3]; simpa only [List.map_append, List.map_cons, List.count_append, List.count_cons, beq_iff_eq] using hg3
            · rw [h3]; simpa only [List.map_append, List.map_cons, List.count_append, List.count_cons, beq_iff_eq] using hg4
          simp only [beq_iff_eq] at hw hr
          rcases hheld with ⟨⟨h4, h5⟩, h6⟩ | ⟨h4, rfl, h6, h7, h8, h9⟩ | ⟨rfl, h5, h6, h7, h8⟩ | ⟨rfl, h5, h6, h7⟩ | ⟨rfl, h5, h6, h7⟩
          · exact mk g (h6 _) hread (by rw [(h5 _).1]; exact hw) (by rw [(h5 _).2]; exact hr) (by rw [(h5 _).1, (h5 _).2]; exact h.alone)
          · have hf := h7 _ hen
            refine mk .read (h9 _) (fun _ => h4) ?_ ?_ (by rw [(h8 _).1, hf]; simp)
            · rw [(h8 _).1, hf]; rw [hf] at hw; simpa using hw
            · rw [(h8 _).2]; simp at hr ⊢; omega
          · have hf := h6 _ hen
            rw [hf.1] at hw
            refine mk .write (h8 _) (by simp) ?_ ?_ (fun _ => by rw [(h7 _).2, hf.2])
            · rw [(h7 _).1]; simp at hw ⊢; omega
            · rw [(h7 _).2]; simpa using hr
          · have hwr : s.pool.writer = false := by
              cases hx : s.pool.writer with
              | false => rfl
              | true => have := h.alone hx; rw [this] at hr; simp at hr
            refine mk .free (h7 _) (by simp) ?_ ?_ (by rw [(h6 _).1, hwr]; simp)
            · rw [(h6 _).1]; simpa using hw
            · rw [(h6 _).2]; simp at hr ⊢; omega
          · refine mk .free (h7 _) (by simp) ?_ ?_ (by rw [(h6 _).1]; simp)
            · rw [(h6 _).1]; simp at hw ⊢; split at hw <;> omega
            · rw [(h6 _).2]; simpa using hr
        · exact ⟨L, h⟩

theorem LInv.moves (fuel : Nat) : ∀ (ms : List PMove) {s : PSys ω}, (∀ m ∈ ms, m ≠ .call .stop ∧ m ≠ .call .start) → (∃ L, LInv s L) → ∃ L, LInv (s.moves W fuel ms) L
  | [], _, _, h => h
  | m :: ms, _, hm, ⟨_, h⟩ => LInv.moves fuel ms (fun m' hm' => hm m' (List.mem_cons_of_mem _ hm')) (h.move fuel m (hm m List.mem_cons_self))

/-- Two places with the same element. -/
theorem two_count {α : Type} [BEq α] [LawfulBEq α] {x : α} : ∀ {l : List α} {i j : Nat}, i ≠ j → l[i]? = some x → l[j]? = some x → 2 ≤ l.count x
  | [], _, _, _, h, _ => by simp at h
  | y :: l, 0, 0, h, _, _ => absurd rfl h
  | y :: l, 0, j + 1, _, hi, hj => by
    simp only [List.getElem?_cons_zero, Option.some.injEq, List.getElem?_cons_succ] at hi hj
    have := List.count_pos_iff.2 (List.mem_of_getElem? hj)
    rw [hi, List.count_cons_self]
    omega
  | y :: l, i + 1, 0, _, hi, hj => by
    simp only [List.getElem?_cons_zero, Option.some.injEq, List.getElem?_cons_succ] at hi hj
    have := List.count_pos_iff.2 (List.mem_of_getElem? hi)
    rw [hj, List.count_cons_self]
    omega
  | y :: l, i + 1, j + 1, h, hi, hj => by
    simp only [List.getElem?_cons_succ] at hi hj
    have := two_count (fun he => h (by rw [he])) hi hj
    rw [List.count_cons]
    omega

end
end Verif
