/-
The atomic actions of which the calls on a routing pool consist.
-/
import Verif.Proofs.PoolLogic
import Verif.Model.PoolSys
namespace Verif
open PProg

section
variable {ω : Type} (W : PWorld ω)

/-- The actions: what they access, and what they do; connecting to ask for the members is among them only if `d`, starting and stopping only if `e`. -/
inductive PActD (d e : Bool) : List Access → (RPool ω → RPool ω) → Prop where
  | look {acc : List Access} (h : ∀ a ∈ acc, a.write = false) : PActD d e acc fun s => s
  | rlock : PActD d e [] fun s => { s with readers := s.readers + 1 }
  | runlock : PActD d e [] runlock
  | lock : PActD d e [] fun s => { s with writer := true }
  | unlock : PActD d e [] unlock
  | validate (r : Nat) : PActD d e [] fun s => { s with world := (W.validate s.world r).1, log := s.log ++ [.checked r (W.validate s.world r).2] }
  | close (r : Nat) : PActD d e [] fun s => { s with world := (W.close s.world r).1, log := s.log ++ [.closed r] }
  | delHeld (id : Bytes) : PActD d e [⟨.held, true, false⟩] fun s => { s with heldConns := s.heldConns.del id }
  | putHeld (id : Bytes) (x : Wrap) : PActD d e [⟨.held, true, false⟩] fun s => { s with heldConns := s.heldConns.put id x }
  | delBorrowed (id : Bytes) : PActD d e [⟨.borrowed, true, false⟩] fun s => { s with borrowedConns := s.borrowedConns.del id }
  | putBorrowed (x : Wrap) : PActD d e [⟨.borrowed, true, false⟩] fun s => { s with borrowedConns := s.borrowedConns.put x.conn.id x }
  | enqueue (w : Bool) (x : Wrap) : PActD d e [⟨.queue w, false, false⟩, ⟨.items w, true, true⟩] fun s => s.setQueue w (s.queueOf w ++ [x])
  | dequeue (w : Bool) : PActD d e [⟨.queue w, false, false⟩, ⟨.items w, true, true⟩] fun s => (match s.queueOf w with | [] => s | _ :: q => s.setQueue w q)
  | setQueue (w : Bool) (q : List Wrap) : PActD d e [⟨.queue w, true, false⟩] fun s => s.setQueue w q
  | create (w : Bool) (str : Bytes) : PActD d e [⟨.rand, true, false⟩] fun s => (match W.create s.world s.next str with
      | (v, some _) => { s with world := v, next := s.next + 1 }
      | (v, none) => { s with world := (W.random v).1, next := s.next + 1, log := s.log ++ [.created s.next ((if w then ascii "1-" else ascii "0-") ++ (W.random v).2) str w] })
  | indexW : PActD d e [⟨.strings, false, false⟩, ⟨.index, true, false⟩] fun s => if s.rwStrings = [] then s else { s with rwIndex := if s.rwIndex + 1 = s.rwStrings.length then 0 else s.rwIndex + 1 }
  | indexR : PActD d e [⟨.strings, false, false⟩, ⟨.index, true, false⟩] fun s => if s.readStrings = [] then s else { s with readIndex := if s.readIndex + 1 = s.readStrings.length then 0 else s.readIndex + 1 }
  | dial (h : d = true) : PActD d e [] fun s => (match W.create s.world s.next s.leaderConnStr with
      | (v, some _) => { s with world := v, next := s.next + 1 }
      | (v, none) => { s with world := v, next := s.next + 1, log := s.log ++ [.dialled s.next s.leaderConnStr] })
  | overview (r : Nat) : PActD d e [⟨.handler, true, false⟩] fun s => { s with
      world := (W.query s.world r clusterOverview (overviewDb (W.version s.world r))).1
      log := s.log ++ [.overview (W.version s.world r) (W.query s.world r clusterOverview (overviewDb (W.version s.world r))).2]
      handler := (s.handler.refreshClusterInfo (W.version s.world r) (W.query s.world r clusterOverview (overviewDb (W.version s.world r))).2).1 }
  | take : PActD d e [⟨.handler, false, false⟩, ⟨.strings, true, false⟩, ⟨.marks, true, false⟩] RPool.takeStrings
  | stopped (h : e = true) : PActD d e [] fun s => { s with running := false }
  | startHead (h : e = true) : PActD d e [] RPool.startHead

/-- The actions of the pool. -/
abbrev PAct : List Access → (RPool ω → RPool ω) → Prop := PActD W true true

/-- All actions of the program are among these. -/
abbrev OfActs {α : Type} (p : PP ω α) : Prop := Acts (PAct W) p

variable {W} {d e : Bool}

theorem acts_prim {α : Type} {acc : List Access} {m : RPool ω → α × RPool ω} {f : RPool ω → RPool ω} (h : PActD W d e acc f) (hf : ∀ s, (m s).2 = f s) : Acts (PActD W d e) (.prim acc m) :=
  Acts.prim (by rw [funext hf]; exact h)

theorem acts_look {α : Type} {acc : List Access} {m : RPool ω → α × RPool ω} (h : ∀ a ∈ acc, a.write = false) (hf : ∀ s, (m s).2 = s) : Acts (PActD W d e) (.prim acc m) :=
  acts_prim (.look h) hf

theorem acts_validate (c : ConnRef) : Acts (PActD W d e) (pValidate W c) := acts_prim (.validate c.ref) fun _ => rfl
theorem acts_close (r : Nat) : Acts (PActD W d e) (pClose W r) := acts_prim (.close r) fun _ => rfl
theorem acts_delHeld (id : Bytes) : Acts (PActD W d e) (delHeld id) := acts_prim (.delHeld id) fun _ => rfl
theorem acts_putHeld (x : Wrap) : Acts (PActD W d e) (putHeld x) := acts_prim (.putHeld x.conn.id x) fun _ => rfl
theorem acts_enqueue (w : Bool) (x : Wrap) : Acts (PActD W d e) (pEnqueue w x) := acts_prim (.enqueue w x) fun _ => rfl
theorem acts_dequeue (w : Bool) : Acts (PActD W d e) (pDequeue w) := acts_prim (.dequeue w) fun s => by cases h : s.queueOf w <;> rfl
theorem acts_marked (c : ConnRef) : Acts (PActD W d e) (pMarked c) := acts_look (by simp) fun _ => rfl
theorem acts_items (w : Bool) : Acts (PActD W d e) (pItems w) := acts_look (by simp) fun _ => rfl
theorem acts_size (w : Bool) : Acts (PActD W d e) (pSize w) := acts_look (by simp) fun _ => rfl
theorem acts_compare (w : Bool) : Acts (PActD W d e) (pCompare w) := acts_look (by simp) fun _ => rfl
theorem acts_setQueue (w : Bool) (q : List Wrap) : Acts (PActD W d e) (pSetQueue w q) := acts_prim (.setQueue w q) fun _ => rfl
theorem acts_rlock : Acts (PActD W d e) (rlock : PP ω Unit) := ⟨.rlock, fun _ => Acts.done⟩
theorem acts_lock : Acts (PActD W d e) (lock : PP ω Unit) := ⟨.lock, fun _ => Acts.done⟩

theorem acts_remove (x : Option Wrap) : Acts (PActD W d e) (removeConn W x) := by
  cases x with
  | none => exact Acts.done
  | some x =>
    refine Acts.bind (fun ok => ?_) (acts_validate x.conn)
    split
    · exact acts_delHeld _
    · refine Acts.bind (fun r => ?_) (acts_close _)
      split
      · exact Acts.done
      · exact acts_delHeld _

theorem acts_new (w : Bool) (str : Bytes) : Acts (PActD W d e) (newConnection W w str) := by
  refine Acts.bind (fun r => ?_) (acts_prim (.create w str) fun s => ?_)
  · cases r with
    | error _ => exact Acts.done
    | ok x => exact Acts.bind (fun _ => Acts.done) (acts_putHeld x)
  · generalize W.create s.world s.next str = c
    match c with
    | (_, some _) => rfl
    | (_, none) => rfl

theorem acts_addWrite : Acts (PActD W d e) (addWriteConn W) := by
  refine Acts.bind (fun r => ?_) (acts_prim .indexW fun s => ?_)
  · cases r with
    | error _ => exact Acts.done
    | ok str => exact Acts.bind (fun x => acts_enqueue _ _) (acts_new _ _)
  · split <;> rfl

theorem acts_addRead : Acts (PActD W d e) (addReadConn W) := by
  refine Acts.bind (fun r => ?_) (acts_prim .indexR fun s => ?_)
  · cases r with
    | error _ => exact Acts.done
    | ok str => exact Acts.bind (fun x => acts_enqueue _ _) (acts_new _ _)
  · split <;> rfl

theorem acts_refresh : Acts (PActD W true e) (refreshConnections W) := by
  refine Acts.bind (fun r => ?_) (acts_prim (.dial rfl) fun s => ?_)
  · cases r with
    | none => exact Acts.done
    | some r =>
      exact Acts.bind (fun _ => Acts.bind (fun _ => Acts.bind (fun _ => Acts.done) (acts_close r)) (acts_prim .take fun _ => rfl)) (acts_prim (.overview r) fun _ => rfl)
  · generalize W.create s.world s.next s.leaderConnStr = c
    match c with
    | (_, some _) => rfl
    | (_, none) => rfl

theorem acts_pruneReads : ∀ xs reads, Acts (PActD W d e) (pruneReads W xs reads)
  | [], _ => Acts.done
  | x :: xs, reads => by
    refine Acts.bind (fun m => ?_) (acts_marked _)
    split
    · exact Acts.bind (fun _ => acts_pruneReads xs _) (acts_close _)
    · exact acts_pruneReads xs _

theorem acts_pruneWrites : ∀ xs writes, Acts (PActD W d e) (pruneWrites W xs writes)
  | [], _ => Acts.done
  | x :: xs, writes => by
    refine Acts.bind (fun m => ?_) (acts_marked _)
    split
    · exact Acts.bind (fun _ => acts_pruneWrites xs _) (acts_remove _).attempt
    · exact acts_pruneWrites xs _

theorem acts_prune : Acts (PActD W d e) (prune W) :=
  Acts.bind (fun _ => Acts.bind (fun reads => Acts.bind (fun _ => Acts.bind (fun writes => Acts.bind (fun _ => acts_setQueue false reads)
    (acts_setQueue true writes)) (acts_pruneWrites _ _)) (acts_items _)) (acts_pruneReads _ _)) (acts_items _)

theorem acts_whileSize (w : Bool) (n : RPool ω → Int) {step : PP ω Unit} (hs : Acts (PActD W d e) step) : ∀ fuel, Acts (PActD W d e) (whileSize w n step fuel)
  | 0 => Acts.done
  | fuel + 1 => by
    refine Acts.bind (fun go => ?_) (acts_look (by simp) fun _ => rfl)
    split
    · exact Acts.bind (fun _ => acts_whileSize w n hs fuel) hs.attempt
    · exact Acts.done

theorem acts_takeOut (w : Bool) : Acts (PActD W d e) (do removeConn W (← pDequeue w) : PP ω Unit) := Acts.bind (fun _ => acts_remove _) (acts_dequeue w)

theorem acts_balance (fuel : Nat) : Acts (PActD W d e) (balance W fuel) := by
  have third : Acts (PActD W d e) (do
      match ← pCompare false with
      | .lt => whileSize false (·.minReadIdle) (addReadConn W) fuel
      | .gt => whileSize false (·.maxReadIdle) (do removeConn W (← pDequeue false)) fuel
      | .eq => pure () : PP ω Unit) := by
    refine Acts.bind (fun o => ?_) (acts_compare _)
    cases o with
    | lt => exact acts_whileSize _ _ acts_addRead fuel
    | gt => exact acts_whileSize _ _ (acts_takeOut false) fuel
    | eq => exact Acts.done
  have second : Acts (PActD W d e) (do
      match ← pCompare true with
      | .lt => whileSize true (·.minWriteIdle) (addWriteConn W) fuel
      | .gt => whileSize true (·.maxWriteIdle) (do removeConn W (← pDequeue true)) fuel
      | .eq => pure ()
      match ← pCompare false with
      | .lt => whileSize false (·.minReadIdle) (addReadConn W) fuel
      | .gt => whileSize false (·.maxReadIdle) (do removeConn W (← pDequeue false)) fuel
      | .eq => pure () : PP ω Unit) := by
    refine Acts.bind (fun o => ?_) (acts_compare _)
    cases o with
    | lt => exact Acts.bind (fun _ => third) (acts_whileSize _ _ acts_addWrite fuel)
    | gt => exact Acts.bind (fun _ => third) (acts_whileSize _ _ (acts_takeOut true) fuel)
    | eq => exact third
  refine Acts.bind (fun o => ?_) (acts_compare _)
  cases o with
  | lt => exact Acts.bind (fun _ => second) (acts_whileSize _ _ acts_addRead fuel)
  | gt => exact second
  | eq => exact second

theorem acts_refreshRound (fuel : Nat) : Acts (PActD W true e) (refreshRound W fuel) :=
  Acts.bind (fun _ => Acts.bind (fun _ => Acts.bind (fun _ => Acts.bind (fun _ => acts_prim .unlock fun _ => rfl) (acts_balance fuel)) acts_prune) acts_refresh) acts_lock

theorem acts_times {step : PP ω Unit} (hs : Acts (PActD W d e) step) : ∀ n, Acts (PActD W d e) (times n step)
  | 0 => Acts.done
  | n + 1 => Acts.bind (fun _ => acts_times hs n) hs

theorem acts_startRest (a b : Int) : Acts (PActD W true e) (startRest W a b) :=
  Acts.bind (fun _ => Acts.bind (fun _ => acts_times acts_addRead _) (acts_times acts_addWrite _)) acts_refresh

theorem acts_start : OfActs W (start W) := by
  refine Acts.bind (fun ok => ?_) (acts_look (by simp) fun _ => rfl)
  split
  · exact Acts.done
  · exact Acts.bind (fun _ => acts_startRest _ _) (acts_prim (.startHead rfl) fun _ => rfl)

theorem acts_drain (w : Bool) : ∀ fuel, Acts (PActD W d e) (drain W w fuel)
  | 0 => Acts.done
  | fuel + 1 => by
    refine Acts.bind (fun n => ?_) (acts_size w)
    split
    · exact Acts.done
    · exact Acts.bind (fun _ => Acts.bind (fun _ => acts_drain w fuel) (acts_remove _)) (acts_dequeue w)

theorem acts_stop (fuel : Nat) : Acts (PActD W d true) (stop W fuel) := by
  refine Acts.bind (fun ok => ?_) (acts_look (by simp) fun _ => rfl)
  split
  · exact Acts.bind (fun _ => Acts.bind (fun _ => acts_drain true fuel) (acts_drain false fuel)) (acts_prim (.stopped rfl) fun _ => rfl)
  · exact Acts.done

theorem acts_internalBorrow (w : Bool) : ∀ fuel, Acts (PActD W d e) (internalBorrow W w fuel)
  | 0 => Acts.done
  | fuel + 1 => by
    refine Acts.bind (fun x => ?_) (acts_dequeue w)
    cases x with
    | none => exact Acts.done
    | some x =>
      refine Acts.bind (fun m => ?_) (acts_marked _)
      split
      · exact Acts.bind (fun _ => acts_internalBorrow w fuel) (acts_remove x)
      · refine Acts.bind (fun ok => ?_) (acts_validate _)
        split
        · exact Acts.bind (fun _ => Acts.bind (fun _ => Acts.done) (acts_prim (.putBorrowed x) fun _ => rfl)) (acts_delHeld _)
        · exact Acts.bind (fun _ => acts_internalBorrow w fuel) (acts_remove x)

theorem acts_borrow (w : Bool) (fuel : Nat) :
    Acts (PActD W d e) (do rlock; PProg.deferred runlock (do let x ← internalBorrow W w fuel; pure x.conn) : PP ω ConnRef) :=
  Acts.bind (fun _ => Acts.deferred .runlock (Acts.bind (fun _ => Acts.done) (acts_internalBorrow w fuel))) acts_rlock

theorem acts_reclaim (c : ConnRef) : Acts (PActD W d e) (reclaim W c) := by
  refine Acts.bind (fun _ => Acts.deferred .unlock (Acts.bind (fun ok => ?_) (acts_look (by simp) fun _ => rfl))) acts_lock
  split
  · exact Acts.done
  · refine Acts.bind (fun o => ?_) (acts_look (by simp) fun _ => rfl)
    cases o with
    | none =>
      refine Acts.bind (fun r => ?_) (acts_close _)
      cases r <;> exact Acts.done
    | some x =>
      refine Acts.bind (fun _ => Acts.bind (fun _ => Acts.bind (fun ok => Acts.bind (fun bad => ?_) ?_) (acts_validate _)) (acts_prim (.putHeld c.id x) fun _ => rfl))
        (acts_prim (.delBorrowed c.id) fun _ => rfl)
      · cases bad with
        | some _ =>
          dsimp only
          split
          · exact acts_addWrite
          · exact acts_addRead
        | none => exact acts_enqueue _ _
      · split
        · exact Acts.done
        · exact (acts_remove _).attempt

theorem acts_prog (fuel : Nat) (r : PReq) : OfActs W (r.prog W fuel) := by
  match r with
  | .borrow true => exact Acts.bind (fun _ => Acts.done) (acts_borrow true fuel)
  | .borrow false => exact Acts.bind (fun _ => Acts.done) (acts_borrow false fuel)
  | .reclaim c => exact Acts.bind (fun _ => Acts.done) (acts_reclaim c)
  | .start => exact Acts.bind (fun _ => Acts.done) acts_start
  | .stop => exact Acts.bind (fun _ => Acts.done) (acts_stop fuel)
  | .refresh => exact Acts.bind (fun _ => Acts.done) (acts_refreshRound fuel)

/-- Calls other than Start and Stop do not start or stop the pool. -/
theorem acts_use (fuel : Nat) {r : PReq} (h : r ≠ .stop ∧ r ≠ .start) : Acts (PActD W true false) (r.prog W fuel) := by
  match r, h with
  | .borrow true, _ => exact Acts.bind (fun _ => Acts.done) (acts_borrow true fuel)
  | .borrow false, _ => exact Acts.bind (fun _ => Acts.done) (acts_borrow false fuel)
  | .reclaim c, _ => exact Acts.bind (fun _ => Acts.done) (acts_reclaim c)
  | .start, h => exact absurd rfl h.2
  | .stop, h => exact absurd rfl h.1
  | .refresh, _ => exact Acts.bind (fun _ => Acts.done) (acts_refreshRound fuel)

/-- What every action of the calls preserves holds after the history. -/
theorem moves_of_some {P : RPool ω → Prop} {A : List Access → (RPool ω → RPool ω) → Prop} (hP : ∀ acc f, A acc f → ∀ s, P s → P (f s)) (fuel : Nat) (ms : List PMove)
    (hms : ∀ r, .call r ∈ ms → Acts A (r.prog W fuel)) (s : PSys ω) (hs : P s.pool)
    (hc : ∀ e ∈ s.calls, Acts A e.2) : P (s.moves W fuel ms).pool ∧ ∀ e ∈ (s.moves W fuel ms).calls, Acts A e.2 := by
  induction ms generalizing s with
  | nil => exact ⟨hs, hc⟩
  | cons m ms ih =>
    have call : ∀ r l, Acts A (r.prog W fuel) → P s.pool ∧ ∀ e ∈ ({ s with calls := s.calls ++ [(r, PReq.prog W fuel r)], lent := l } : PSys ω).calls, Acts A e.2 := by
      intro r l hr
      refine ⟨hs, fun e he => ?_⟩
      rcases List.mem_append.1 he with he | he
      · exact hc e he
      · rw [List.mem_singleton.1 he]; exact hr
    have hm : ∀ r, m = .call r → Acts A (r.prog W fuel) := fun r h => hms r (h ▸ List.mem_cons_self)
    have step : P (s.move W fuel m).pool ∧ ∀ e ∈ (s.move W fuel m).calls, Acts A e.2 := by
      match m, hm with
      | .call (.reclaim c), hm =>
        simp only [PSys.move]
        split
        · exact call _ _ (hm _ rfl)
        · exact ⟨hs, hc⟩
      | .call (.borrow w), hm => exact call _ _ (hm _ rfl)
      | .call .start, hm => exact call _ _ (hm _ rfl)
      | .call .stop, hm => exact call _ _ (hm _ rfl)
      | .call .refresh, hm => exact call _ _ (hm _ rfl)
      | .step k, _ =>
        simp only [PSys.move]
        cases hk : s.calls[k]? with
        | none => exact ⟨hs, hc⟩
        | some rp =>
          obtain ⟨r, p⟩ := rp
          have hp := hc _ (List.mem_of_getElem? hk)
          cases p with
          | done res => exact ⟨hs, fun e he => hc e (List.mem_of_mem_eraseIdx he)⟩
          | act acc en f k' =>
            dsimp only
            split
            · refine ⟨hP acc f hp.1 s.pool hs, fun e he => ?_⟩
              rcases List.mem_or_eq_of_mem_set he with he | rfl
              · exact hc e he
              · exact hp.2 s.pool
            · exact ⟨hs, hc⟩
    exact ih (fun r hr => hms r (List.mem_cons_of_mem _ hr)) _ step.1 step.2

/-- What every action preserves holds after any history. -/
theorem moves_of_acts {P : RPool ω → Prop} (hP : ∀ acc f, PAct W acc f → ∀ s, P s → P (f s)) (fuel : Nat) (ms : List PMove) (s : PSys ω) (hs : P s.pool)
    (hc : ∀ e ∈ s.calls, OfActs W e.2) : P (s.moves W fuel ms).pool ∧ ∀ e ∈ (s.moves W fuel ms).calls, OfActs W e.2 :=
  moves_of_some hP fuel ms (fun r _ => acts_prog fuel r) s hs hc

/-- What every action preserves holds after an uninterrupted execution. -/
theorem run_of_acts {P : RPool ω → Prop} (hP : ∀ acc f, PAct W acc f → ∀ s, P s → P (f s)) {α : Type} {p : PP ω α} (hp : OfActs W p) {s : RPool ω} (hs : P s) : P (p.run s).2 := by
  induction p generalizing s with
  | done => exact hs
  | act acc en f k ih =>
    simp only [PProg.run]
    split
    · exact ih s (hp.2 s) (hP acc f hp.1 s hs)
    · exact hs

end
end Verif
