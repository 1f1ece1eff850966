/-
When calls on a routing pool have to wait for each other.
-/
import Verif.Proofs.PoolLocks
namespace Verif
open PProg

section
variable {ω : Type} {W : PWorld ω} {α β : Type} {e b : Bool}

/-- The program does not wait and leaves the lock alone; unless `e` it returns no error. -/
def Quiet (e : Bool) : PP ω α → Prop
  | .done (.err _) => e = true
  | .done _ => True
  | .act _ en f k => (∀ s, en s = true ∧ (f s).writer = s.writer ∧ (f s).readers = s.readers) ∧ ∀ s, Quiet e (k s)

theorem Quiet.bind {f : α → PP ω β} (hf : ∀ a, Quiet e (f a)) : ∀ {p : PP ω α}, Quiet e p → Quiet e (PProg.bind p f)
  | .done (.ok a), _ => hf a
  | .done (.err _), h => h
  | .done .panic, _ => trivial
  | .done .fuel, _ => trivial
  | .act _ _ _ _, h => ⟨h.1, fun s => Quiet.bind hf (h.2 s)⟩

theorem Quiet.attempt : ∀ {p : PP ω Unit}, Quiet true p → Quiet e (PProg.attempt p)
  | .done (.ok _), _ => trivial
  | .done (.err _), _ => trivial
  | .done .panic, _ => trivial
  | .done .fuel, _ => trivial
  | .act _ _ _ _, h => ⟨h.1, fun s => Quiet.attempt (h.2 s)⟩

theorem Quiet.ok {a : α} : Quiet e (.done (.ok a) : PP ω α) := trivial

theorem Quiet.prim {acc : List Access} {m : RPool ω → α × RPool ω} (h : ∀ s, (m s).2.writer = s.writer ∧ (m s).2.readers = s.readers) : Quiet e (PProg.prim acc m : PP ω α) :=
  ⟨fun s => ⟨rfl, h s⟩, fun _ => trivial⟩

theorem quiet_validate (c : ConnRef) : Quiet e (pValidate W c) := Quiet.prim fun _ => ⟨rfl, rfl⟩
theorem quiet_close (r : Nat) : Quiet e (pClose W r) := Quiet.prim fun _ => ⟨rfl, rfl⟩
theorem quiet_delHeld (id : Bytes) : Quiet e (delHeld id : PP ω Unit) := Quiet.prim fun _ => ⟨rfl, rfl⟩
theorem quiet_putHeld (x : Wrap) : Quiet e (putHeld x : PP ω Unit) := Quiet.prim fun _ => ⟨rfl, rfl⟩
theorem quiet_enqueue (w : Bool) (x : Wrap) : Quiet e (pEnqueue w x : PP ω Unit) := Quiet.prim fun _ => by cases w <;> exact ⟨rfl, rfl⟩
theorem quiet_dequeue (w : Bool) : Quiet e (pDequeue w : PP ω (Option Wrap)) := Quiet.prim fun s => by
  cases h : s.queueOf w with
  | nil => exact ⟨rfl, rfl⟩
  | cons x q => cases w <;> exact ⟨rfl, rfl⟩
theorem quiet_look {acc : List Access} {m : RPool ω → α × RPool ω} (h : ∀ s, (m s).2 = s) : Quiet e (PProg.prim acc m : PP ω α) := Quiet.prim fun s => by rw [h]; exact ⟨rfl, rfl⟩
theorem quiet_setQueue (w : Bool) (q : List Wrap) : Quiet e (pSetQueue w q : PP ω Unit) := Quiet.prim fun _ => by cases w <;> exact ⟨rfl, rfl⟩

theorem quiet_remove (x : Option Wrap) : Quiet true (removeConn W x) := by
  cases x with
  | none => exact rfl
  | some x =>
    refine Quiet.bind (fun ok => ?_) (quiet_validate x.conn)
    split
    · exact quiet_delHeld _
    · refine Quiet.bind (fun r => ?_) (quiet_close _)
      split
      · exact rfl
      · exact quiet_delHeld _

theorem quiet_new (w : Bool) (str : Bytes) : Quiet true (newConnection W w str) := by
  refine Quiet.bind (fun r => ?_) (Quiet.prim fun s => ?_)
  · cases r with
    | error _ => exact rfl
    | ok x => exact Quiet.bind (fun _ => Quiet.ok) (quiet_putHeld x)
  · generalize W.create s.world s.next str = c
    match c with
    | (_, some _) => exact ⟨rfl, rfl⟩
    | (_, none) => exact ⟨rfl, rfl⟩

theorem quiet_result (r : CRes Unit) : Quiet true (.done r : PP ω Unit) := by cases r <;> trivial

theorem quiet_addWrite : Quiet true (addWriteConn W) := by
  refine Quiet.bind (fun r => ?_) (Quiet.prim fun s => ?_)
  · cases r with
    | error _ => exact quiet_result _
    | ok str => exact Quiet.bind (fun x => quiet_enqueue _ _) (quiet_new _ _)
  · split <;> exact ⟨rfl, rfl⟩

theorem quiet_addRead : Quiet true (addReadConn W) := by
  refine Quiet.bind (fun r => ?_) (Quiet.prim fun s => ?_)
  · cases r with
    | error _ => exact quiet_result _
    | ok str => exact Quiet.bind (fun x => quiet_enqueue _ _) (quiet_new _ _)
  · split <;> exact ⟨rfl, rfl⟩

theorem quiet_refresh : Quiet e (refreshConnections W) := by
  refine Quiet.bind (fun r => ?_) (Quiet.prim fun s => ?_)
  · cases r with
    | none => exact Quiet.ok
    | some r =>
      exact Quiet.bind (fun _ => Quiet.bind (fun _ => Quiet.bind (fun _ => Quiet.ok) (quiet_close r)) (Quiet.prim fun _ => ⟨rfl, rfl⟩)) (Quiet.prim fun _ => ⟨rfl, rfl⟩)
  · generalize W.create s.world s.next s.leaderConnStr = c
    match c with
    | (_, some _) => exact ⟨rfl, rfl⟩
    | (_, none) => exact ⟨rfl, rfl⟩

theorem quiet_pruneReads : ∀ xs reads, Quiet e (pruneReads W xs reads)
  | [], _ => Quiet.ok
  | x :: xs, reads => by
    refine Quiet.bind (fun m => ?_) (quiet_look fun _ => rfl)
    split
    · exact Quiet.bind (fun _ => quiet_pruneReads xs _) (quiet_close _)
    · exact quiet_pruneReads xs _

theorem quiet_pruneWrites : ∀ xs writes, Quiet e (pruneWrites W xs writes)
  | [], _ => Quiet.ok
  | x :: xs, writes => by
    refine Quiet.bind (fun m => ?_) (quiet_look fun _ => rfl)
    split
    · exact Quiet.bind (fun _ => quiet_pruneWrites xs _) (quiet_remove _).attempt
    · exact quiet_pruneWrites xs _

theorem quiet_prune : Quiet e (prune W) :=
  Quiet.bind (fun _ => Quiet.bind (fun _ => Quiet.bind (fun _ => Quiet.bind (fun _ => Quiet.bind (fun _ => quiet_setQueue _ _)
    (quiet_setQueue _ _)) (quiet_pruneWrites _ _)) (quiet_look fun _ => rfl)) (quiet_pruneReads _ _)) (quiet_look fun _ => rfl)

theorem quiet_whileSize (w : Bool) (n : RPool ω → Int) {step : PP ω Unit} (hs : Quiet true step) : ∀ fuel, Quiet e (whileSize w n step fuel)
  | 0 => trivial
  | fuel + 1 => by
    refine Quiet.bind (fun go => ?_) (quiet_look fun _ => rfl)
    split
    · exact Quiet.bind (fun _ => quiet_whileSize w n hs fuel) hs.attempt
    · exact Quiet.ok

theorem quiet_takeOut (w : Bool) : Quiet true (do removeConn W (← pDequeue w) : PP ω Unit) := Quiet.bind (fun _ => quiet_remove _) (quiet_dequeue w)

theorem quiet_compare (w : Bool) : Quiet e (pCompare w : PP ω Ordering) := quiet_look fun _ => rfl

theorem quiet_balance (fuel : Nat) : Quiet e (balance W fuel) := by
  have third : Quiet e (do
      match ← pCompare false with
      | .lt => whileSize false (·.minReadIdle) (addReadConn W) fuel
      | .gt => whileSize false (·.maxReadIdle) (do removeConn W (← pDequeue false)) fuel
      | .eq => pure () : PP ω Unit) := by
    refine Quiet.bind (fun o => ?_) (quiet_compare _)
    cases o with
    | lt => exact quiet_whileSize _ _ quiet_addRead fuel
    | gt => exact quiet_whileSize _ _ (quiet_takeOut false) fuel
    | eq => exact Quiet.ok
  have second : Quiet e (do
      match ← pCompare true with
      | .lt => whileSize true (·.minWriteIdle) (addWriteConn W) fuel
      | .gt => whileSize true (·.maxWriteIdle) (do removeConn W (← pDequeue true)) fuel
      | .eq => pure ()
      match ← pCompare false with
      | .lt => whileSize false (·.minReadIdle) (addReadConn W) fuel
      | .gt => whileSize false (·.maxReadIdle) (do removeConn W (← pDequeue false)) fuel
      | .eq => pure () : PP ω Unit) := by
    refine Quiet.bind (fun o => ?_) (quiet_compare _)
    cases o with
    | lt => exact Quiet.bind (fun _ => third) (quiet_whileSize _ _ quiet_addWrite fuel)
    | gt => exact Quiet.bind (fun _ => third) (quiet_whileSize _ _ (quiet_takeOut true) fuel)
    | eq => exact third
  refine Quiet.bind (fun o => ?_) (quiet_compare _)
  cases o with
  | lt => exact Quiet.bind (fun _ => second) (quiet_whileSize _ _ quiet_addRead fuel)
  | gt => exact second
  | eq => exact second

theorem quiet_times {step : PP ω Unit} (hs : Quiet true step) : ∀ n, Quiet true (times n step)
  | 0 => Quiet.ok
  | n + 1 => Quiet.bind (fun _ => quiet_times hs n) hs

theorem quiet_start : Quiet true (start W) := by
  refine Quiet.bind (fun ok => ?_) (quiet_look fun _ => rfl)
  split
  · exact rfl
  · refine Quiet.bind (fun _ => Quiet.bind (fun _ => Quiet.bind (fun _ => quiet_times quiet_addRead _) (quiet_times quiet_addWrite _)) quiet_refresh) (Quiet.prim fun s => ?_)
    show (RPool.startHead s).writer = _ ∧ (RPool.startHead s).readers = _
    unfold RPool.startHead
    split <;> exact ⟨rfl, rfl⟩

theorem quiet_drain (w : Bool) : ∀ fuel, Quiet true (drain W w fuel)
  | 0 => trivial
  | fuel + 1 => by
    refine Quiet.bind (fun n => ?_) (quiet_look fun _ => rfl)
    split
    · exact Quiet.ok
    · exact Quiet.bind (fun _ => Quiet.bind (fun _ => quiet_drain w fuel) (quiet_remove _)) (quiet_dequeue w)

theorem quiet_stop (fuel : Nat) : Quiet true (stop W fuel) := by
  refine Quiet.bind (fun ok => ?_) (quiet_look fun _ => rfl)
  split
  · exact Quiet.bind (fun _ => Quiet.bind (fun _ => quiet_drain true fuel) (quiet_drain false fuel)) (Quiet.prim fun _ => ⟨rfl, rfl⟩)
  · exact rfl

theorem quiet_internalBorrow (w : Bool) : ∀ fuel, Quiet true (internalBorrow W w fuel)
  | 0 => trivial
  | fuel + 1 => by
    refine Quiet.bind (fun x => ?_) (quiet_dequeue w)
    cases x with
    | none => exact rfl
    | some x =>
      refine Quiet.bind (fun m => ?_) (quiet_look fun _ => rfl)
      split
      · exact Quiet.bind (fun _ => quiet_internalBorrow w fuel) (quiet_remove _)
      · refine Quiet.bind (fun ok => ?_) (quiet_validate _)
        split
        · exact Quiet.bind (fun _ => Quiet.bind (fun _ => Quiet.ok) (Quiet.prim fun _ => ⟨rfl, rfl⟩)) (quiet_delHeld _)
        · exact Quiet.bind (fun _ => quiet_internalBorrow w fuel) (quiet_remove _)

/-- How a call of a program uses the lock: what it holds (`ph`), when it waits, and that it holds nothing at its end, unless (`b`) it ends with a
panic or because a loop went on for too long. -/
def Uses (b : Bool) : Phase → PP ω α → Prop
  | ph, .done r => ph = .free ∨ b = true ∧ ph = .write ∧ (r = .panic ∨ r = .fuel)
  | ph, .act _ en f k =>
    ((∀ s, en s = true ∧ (f s).writer = s.writer ∧ (f s).readers = s.readers) ∧ ∀ s, Uses b ph (k s)) ∨
    (ph = .free ∧ (∀ s, en s = !s.writer) ∧ (∀ s, (f s).writer = s.writer ∧ (f s).readers = s.readers + 1) ∧ ∀ s, Uses b .read (k s)) ∨
    (ph = .free ∧ (∀ s, en s = (!s.writer && s.readers = 0)) ∧ (∀ s, (f s).writer = true ∧ (f s).readers = s.readers) ∧ ∀ s, Uses b .write (k s)) ∨
    (ph = .read ∧ (∀ s, en s = true ∧ (f s).writer = s.writer ∧ (f s).readers = s.readers - 1) ∧ ∀ s, Uses b .free (k s)) ∨
    (ph = .write ∧ (∀ s, en s = true ∧ (f s).writer = false ∧ (f s).readers = s.readers) ∧ ∀ s, Uses b .free (k s))

theorem uses_free : ∀ {p : PP ω α}, Quiet true p → Uses b .free p
  | .done _, _ => .inl rfl
  | .act _ _ _ _, h => .inl ⟨h.1, fun s => uses_free (h.2 s)⟩

theorem uses_runlock : ∀ {p : PP ω α}, Quiet true p → Uses b .read (PProg.deferred runlock p)
  | .done _, _ => .inr (.inr (.inr (.inl ⟨rfl, fun _ => ⟨rfl, rfl, rfl⟩, fun _ => .inl rfl⟩)))
  | .act _ _ _ _, h => .inl ⟨h.1, fun s => uses_runlock (h.2 s)⟩

theorem uses_unlock : ∀ {p : PP ω α}, Quiet true p → Uses b .write (PProg.deferred unlock p)
  | .done _, _ => .inr (.inr (.inr (.inr ⟨rfl, fun _ => ⟨rfl, rfl, rfl⟩, fun _ => .inl rfl⟩)))
  | .act _ _ _ _, h => .inl ⟨h.1, fun s => uses_unlock (h.2 s)⟩

/-- With the write lock, a program that returns no error, and then another one. -/
theorem uses_then {f : α → PP ω β} (hf : ∀ a, Uses true .write (f a)) : ∀ {p : PP ω α}, Quiet false p → Uses true .write (PProg.bind p f)
  | .done (.ok a), _ => hf a
  | .done (.err _), h => by cases h
  | .done .panic, _ => .inr ⟨rfl, rfl, .inl rfl⟩
  | .done .fuel, _ => .inr ⟨rfl, rfl, .inr rfl⟩
  | .act _ _ _ _, h => .inl ⟨h.1, fun s => uses_then hf (h.2 s)⟩

theorem Uses.map {g : α → β} : ∀ {p : PP ω α} {ph : Phase}, Uses b ph p → Uses b ph (PProg.bind p fun a => .done (.ok (g a)))
  | .done (.ok a), ph, h => .inl (h.resolve_right fun h => by rcases h.2.2 with h | h <;> cases h)
  | .done (.err _), ph, h => .inl (h.resolve_right fun h => by rcases h.2.2 with h | h <;> cases h)
  | .done .panic, ph, h => h.imp id fun h => ⟨h.1, h.2.1, .inl rfl⟩
  | .done .fuel, ph, h => h.imp id fun h => ⟨h.1, h.2.1, .inr rfl⟩
  | .act _ _ _ _, ph, h => by
    rcases h with ⟨h1, h2⟩ | ⟨h1, h2, h3, h4⟩ | ⟨h1, h2, h3, h4⟩ | ⟨h1, h2, h3⟩ | ⟨h1, h2, h3⟩
    · exact .inl ⟨h1, fun s => (h2 s).map⟩
    · exact .inr (.inl ⟨h1, h2, h3, fun s => (h4 s).map⟩)
    · exact .inr (.inr (.inl ⟨h1, h2, h3, fun s => (h4 s).map⟩))
    · exact .inr (.inr (.inr (.inl ⟨h1, h2, fun s => (h3 s).map⟩)))
    · exact .inr (.inr (.inr (.inr ⟨h1, h2, fun s => (h3 s).map⟩)))

theorem uses_borrow (w : Bool) (fuel : Nat) : Uses b .free (do rlock; PProg.deferred runlock (do let x ← internalBorrow W w fuel; pure x.conn) : PP ω ConnRef) :=
  .inr (.inl ⟨rfl, fun _ => rfl, fun _ => ⟨rfl, rfl⟩, fun _ => uses_runlock (Quiet.bind (fun _ => Quiet.ok) (quiet_internalBorrow w fuel))⟩)

theorem uses_refreshRound (fuel : Nat) : Uses true .free (refreshRound W fuel) := by
  have h3 : Uses true .write (.prim [] fun s => ((), unlock s) : PP ω Unit) := .inr (.inr (.inr (.inr ⟨rfl, fun _ => ⟨rfl, rfl, rfl⟩, fun _ => .inl rfl⟩)))
  have h2 : Uses true .write (do balance W fuel; (.prim [] fun s => ((), unlock s) : PP ω Unit) : PP ω Unit) := uses_then (fun _ => h3) (quiet_balance fuel)
  have h1 : Uses true .write (do prune W; balance W fuel; (.prim [] fun s => ((), unlock s) : PP ω Unit) : PP ω Unit) := uses_then (fun _ => h2) quiet_prune
  have h0 : Uses true .write (do refreshConnections W; prune W; balance W fuel; (.prim [] fun s => ((), unlock s) : PP ω Unit) : PP ω Unit) := uses_then (fun _ => h1) quiet_refresh
  exact .inr (.inr (.inl ⟨rfl, fun _ => rfl, fun _ => ⟨rfl, rfl⟩, fun _ => h0⟩))

theorem uses_reclaim (c : ConnRef) : Uses b .free (reclaim W c) := by
  refine .inr (.inr (.inl ⟨rfl, fun _ => rfl, fun _ => ⟨rfl, rfl⟩, fun _ => uses_unlock ?_⟩))
  refine Quiet.bind (fun ok => ?_) (quiet_look fun _ => rfl)
  split
  · exact rfl
  · refine Quiet.bind (fun o => ?_) (quiet_look fun _ => rfl)
    cases o with
    | none =>
      refine Quiet.bind (fun r => ?_) (quiet_close _)
      cases r <;> exact rfl
    | some x =>
      refine Quiet.bind (fun _ => Quiet.bind (fun _ => Quiet.bind (fun ok => Quiet.bind (fun bad => ?_) ?_) (quiet_validate _)) (Quiet.prim fun _ => ⟨rfl, rfl⟩)) (Quiet.prim fun _ => ⟨rfl, rfl⟩)
      · cases bad with
        | some _ =>
          dsimp only
          split
          · exact quiet_addWrite
          · exact quiet_addRead
        | none => exact quiet_enqueue _ _
      · split
        · exact Quiet.ok
        · exact (quiet_remove _).attempt

theorem uses_prog (fuel : Nat) (r : PReq) : Uses (r = .refresh) .free (r.prog W fuel) := by
  match r with
  | .borrow true => exact (uses_borrow true fuel).map
  | .borrow false => exact (uses_borrow false fuel).map
  | .reclaim c => exact (uses_reclaim c).map
  | .refresh => exact (uses_refreshRound fuel).map
  | .start => exact (uses_free quiet_start).map
  | .stop => exact (uses_free (quiet_stop fuel)).map

end
end Verif
