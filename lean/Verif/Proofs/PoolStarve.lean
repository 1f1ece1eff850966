/-
Connections of a kind of which none is left: no call but `Start` makes new ones.
-/
import Verif.Model.PoolSys
namespace Verif

section
variable {S α β : Type} (I : S → Prop)

/-- Every action keeps `I`, whatever other calls that keep `I` do in between, and a result has the property `A`. -/
def Under (A : α → Prop) : PProg S α → Prop
  | .done (.ok a) => A a
  | .done _ => True
  | .act _ _ f k => ∀ s, I s → I (f s) ∧ Under A (k s)

variable {I}

theorem Under.bind {A : β → Prop} {f : α → PProg S β} : ∀ {p : PProg S α}, Under I (fun a => Under I A (f a)) p → Under I A (PProg.bind p f)
  | .done (.ok _), h => h
  | .done (.err _), _ => trivial
  | .done .panic, _ => trivial
  | .done .fuel, _ => trivial
  | .act _ _ _ _, h => fun s hs => ⟨(h s hs).1, Under.bind (h s hs).2⟩

theorem Under.mono {A B : α → Prop} (hab : ∀ a, A a → B a) : ∀ {p : PProg S α}, Under I A p → Under I B p
  | .done (.ok a), h => hab a h
  | .done (.err _), _ => trivial
  | .done .panic, _ => trivial
  | .done .fuel, _ => trivial
  | .act _ _ _ _, h => fun s hs => ⟨(h s hs).1, Under.mono hab (h s hs).2⟩

theorem Under.attempt {A : Unit → Prop} : ∀ {p : PProg S Unit}, Under I A p → Under I (fun _ => True) (PProg.attempt p)
  | .done (.ok _), _ => trivial
  | .done (.err _), _ => trivial
  | .done .panic, _ => trivial
  | .done .fuel, _ => trivial
  | .act _ _ _ _, h => fun s hs => ⟨(h s hs).1, Under.attempt (h s hs).2⟩

theorem Under.deferred {A : α → Prop} {f : S → S} (hf : ∀ s, I s → I (f s)) : ∀ {p : PProg S α}, Under I A p → Under I A (PProg.deferred f p)
  | .done (.ok _), h => fun s hs => ⟨hf s hs, h⟩
  | .done (.err _), _ => fun s hs => ⟨hf s hs, trivial⟩
  | .done .panic, _ => fun s hs => ⟨hf s hs, trivial⟩
  | .done .fuel, _ => fun s hs => ⟨hf s hs, trivial⟩
  | .act _ _ _ _, h => fun s hs => ⟨(h s hs).1, Under.deferred hf (h s hs).2⟩

theorem Under.prim {A : α → Prop} {acc : List Access} {m : S → α × S} (h : ∀ s, I s → I (m s).2 ∧ A (m s).1) : Under I A (PProg.prim acc m) := h

/-- Two programs one after the other, the first of which need not be known to return anything in particular. -/
theorem Under.seq {A : β → Prop} {f : α → PProg S β} {p : PProg S α} (hf : ∀ a, Under I A (f a)) (hp : Under I (fun _ => True) p) : Under I A (PProg.bind p f) :=
  Under.bind (Under.mono (fun a _ => hf a) hp)

end

section
variable {ω : Type} (W : PWorld ω)

/-- Idle connections are in the queue of their kind, and there is no lower limit.  If `b`: no connection of the kind `w` is idle or lent. -/
structure Starved (b w : Bool) (s : RPool ω) : Prop where
  minW : s.minWriteIdle = 0
  minR : s.minReadIdle = 0
  kind : ∀ v, ∀ x ∈ s.queueOf v, x.write = v
  idle : b = true → s.queueOf w = []
  lent : b = true → ∀ e ∈ s.borrowedConns, e.2.write ≠ w

variable {W} {b w : Bool}

/-- Only the queues, the limits and the lent connections matter. -/
theorem Starved.same {s s' : RPool ω} (h : Starved b w s) (h1 : s'.minWriteIdle = s.minWriteIdle) (h2 : s'.minReadIdle = s.minReadIdle)
    (h3 : s'.writeQueue = s.writeQueue) (h4 : s'.readQueue = s.readQueue) (h5 : s'.borrowedConns = s.borrowedConns) : Starved b w s' := by
  have hq : ∀ v, s'.queueOf v = s.queueOf v := fun v => by cases v <;> simp [RPool.queueOf, h3, h4]
  exact ⟨h1.trans h.minW, h2.trans h.minR, fun v x hx => h.kind v x (hq v ▸ hx), fun hb => (hq w).trans (h.idle hb), fun hb e he => h.lent hb e (h5 ▸ he)⟩

theorem Starved.setQueue {s : RPool ω} (h : Starved b w s) {v : Bool} {q : List Wrap} (hk : ∀ x ∈ q, x.write = v) (hb : b = true → v = w → q = []) :
    Starved b w (s.setQueue v q) := by
  have hq : ∀ u, (s.setQueue v q).queueOf u = if u = v then q else s.queueOf u := by
    intro u; cases u <;> cases v <;> rfl
  refine ⟨?_, ?_, fun u x hx => ?_, fun h1 => ?_, fun h1 e he => h.lent h1 e ?_⟩
  · cases v <;> exact h.minW
  · cases v <;> exact h.minR
  · rw [hq] at hx
    split at hx
    · rename_i e; rw [e]; exact hk x hx
    · exact h.kind u x hx
  · rw [hq]
    split
    · rename_i e; exact hb h1 e.symm
    · exact h.idle h1
  · cases v <;> exact he

/-- A look at the pool. -/
theorem under_look {α : Type} {A : α → Prop} {acc : List Access} {f : RPool ω → α} (h : ∀ s, Starved b w s → A (f s)) : Under (Starved b w) A (.prim acc fun s => (f s, s) : PP ω α) :=
  fun s hs => ⟨hs, h s hs⟩

theorem under_validate (c : ConnRef) : Under (Starved b w) (fun _ => True) (pValidate W c) := fun _ hs => ⟨hs.same rfl rfl rfl rfl rfl, trivial⟩
theorem under_close (r : Nat) : Under (Starved b w) (fun _ => True) (pClose W r) := fun _ hs => ⟨hs.same rfl rfl rfl rfl rfl, trivial⟩
theorem under_delHeld (id : Bytes) : Under (Starved b w) (fun _ => True) (delHeld id : PP ω Unit) := fun _ hs => ⟨hs.same rfl rfl rfl rfl rfl, trivial⟩
theorem under_putHeld (x : Wrap) : Under (Starved b w) (fun _ => True) (putHeld x : PP ω Unit) := fun _ hs => ⟨hs.same rfl rfl rfl rfl rfl, trivial⟩
theorem under_marked (c : ConnRef) : Under (Starved b w) (fun _ => True) (pMarked c : PP ω Bool) := under_look fun _ _ => trivial

theorem under_enqueue {v : Bool} {x : Wrap} (hx : x.write = v) (hb : b = true → v ≠ w) : Under (Starved b w) (fun _ => True) (pEnqueue v x : PP ω Unit) :=
  fun s hs => ⟨hs.setQueue (fun y hy => by
    rcases List.mem_append.1 hy with hy | hy
    · exact hs.kind v y hy
    · rw [List.mem_singleton.1 hy]; exact hx) (fun h1 h2 => absurd h2 (hb h1)), trivial⟩

/-- What is taken out of a queue is of its kind, and of a kind of which something is left. -/
theorem under_dequeue (v : Bool) : Under (Starved b w) (fun r => ∀ x, r = some x → x.write = v ∧ (b = true → v ≠ w)) (pDequeue v : PP ω (Option Wrap)) := by
  refine Under.prim fun s hs => ?_
  cases hq : s.queueOf v with
  | nil => exact ⟨hs, fun x hx => by cases hx⟩
  | cons y q =>
    have hv : b = true → v ≠ w := fun h1 h2 => by rw [h2, hs.idle h1] at hq; cases hq
    refine ⟨hs.setQueue (fun x hx => hs.kind v x (by rw [hq]; exact List.mem_cons_of_mem _ hx)) (fun h1 h2 => absurd h2 (hv h1)), fun x hx => ?_⟩
    cases hx
    exact ⟨hs.kind v y (by rw [hq]; exact List.mem_cons_self), hv⟩

theorem under_remove (x : Option Wrap) : Under (Starved b w) (fun _ => True) (removeConn W x) := by
  cases x with
  | none => trivial
  | some x =>
    refine Under.seq (fun ok => ?_) (under_validate _)
    cases ok with
    | true => exact under_delHeld _
    | false =>
      refine Under.seq (fun r => ?_) (under_close _)
      cases r with
      | some e => trivial
      | none => exact under_delHeld _

theorem under_new (v : Bool) (str : Bytes) : Under (Starved b w) (fun x => x.write = v) (newConnection W v str) := by
  refine Under.bind (Under.prim fun s hs => ?_)
  dsimp only
  generalize W.create s.world s.next str = c
  match c with
  | (_, some e) => exact ⟨hs.same rfl rfl rfl rfl rfl, trivial⟩
  | (_, none) => exact ⟨hs.same rfl rfl rfl rfl rfl, Under.seq (fun _ => rfl) (under_putHeld _)⟩

theorem under_addWrite (hb : b = true → true ≠ w) : Under (Starved b w) (fun _ => True) (addWriteConn W) := by
  refine Under.seq (fun r => ?_) (Under.prim fun s hs => ⟨?_, trivial⟩)
  · cases r with
    | error r => cases r <;> trivial
    | ok str => exact Under.bind (Under.mono (fun x hx => under_enqueue hx hb) (under_new true str))
  · dsimp only
    split
    · exact hs
    · exact hs.same rfl rfl rfl rfl rfl

theorem under_addRead (hb : b = true → false ≠ w) : Under (Starved b w) (fun _ => True) (addReadConn W) := by
  refine Under.seq (fun r => ?_) (Under.prim fun s hs => ⟨?_, trivial⟩)
  · cases r with
    | error r => cases r <;> trivial
    | ok str => exact Under.bind (Under.mono (fun x hx => under_enqueue hx hb) (under_new false str))
  · dsimp only
    split
    · exact hs
    · exact hs.same rfl rfl rfl rfl rfl

theorem under_refreshConnections : Under (Starved b w) (fun _ => True) (refreshConnections W) := by
  refine Under.bind (Under.prim fun s hs => ?_)
  dsimp only
  have go : ∀ r : Option Nat, Under (Starved b w) (fun _ => True) (match r with
      | none => (pure () : PP ω Unit)
      | some r => (do
        (.prim [⟨.handler, true, false⟩] fun s =>
          let v := W.version s.world r
          let q := W.query s.world r clusterOverview (overviewDb v)
          ((), { s with world := q.1, log := s.log ++ [.overview v q.2], handler := (s.handler.refreshClusterInfo v q.2).1 }) : PP ω Unit)
        (.prim [⟨.handler, false, false⟩, ⟨.strings, true, false⟩, ⟨.marks, true, false⟩] fun s => ((), s.takeStrings) : PP ω Unit)
        let _ ← pClose W r
        pure () : PP ω Unit)) := by
    intro r
    cases r with
    | none => trivial
    | some r =>
      refine Under.seq (fun _ => Under.seq (fun _ => Under.seq (fun _ => trivial) (under_close _)) ?_) ?_
      · exact fun s hs => ⟨hs.same rfl rfl rfl rfl rfl, trivial⟩
      · exact fun s hs => ⟨hs.same rfl rfl rfl rfl rfl, trivial⟩
  generalize W.create s.world s.next s.leaderConnStr = c
  match c with
  | (_, some e) => exact ⟨hs.same rfl rfl rfl rfl rfl, go none⟩
  | (_, none) => exact ⟨hs.same rfl rfl rfl rfl rfl, go (some _)⟩

/-- A list of wrappers that may be the queue of the kind `v`. -/
def FitsQueue (b w v : Bool) (q : List Wrap) : Prop := (∀ x ∈ q, x.write = v) ∧ (b = true → v = w → q = [])

theorem under_items (v : Bool) : Under (Starved b w) (FitsQueue b w v) (pItems v : PP ω (List Wrap)) :=
  under_look fun s hs => ⟨hs.kind v, fun h1 h2 => by rw [h2]; exact hs.idle h1⟩

theorem FitsQueue.rest {v : Bool} {x : Wrap} {xs acc : List Wrap} (h : FitsQueue b w v (acc ++ x :: xs)) : FitsQueue b w v (acc ++ xs) :=
  ⟨fun y hy => h.1 y (by
    rcases List.mem_append.1 hy with hy | hy
    · exact List.mem_append_left _ hy
    · exact List.mem_append_right _ (List.mem_cons_of_mem _ hy)), fun h1 h2 => by have := h.2 h1 h2; simp at this⟩

theorem FitsQueue.shift {v : Bool} {x : Wrap} {xs acc : List Wrap} (h : FitsQueue b w v (acc ++ x :: xs)) : FitsQueue b w v ((acc ++ [x]) ++ xs) := by
  rwa [List.append_assoc, List.singleton_append]

theorem under_pruneReads : ∀ xs acc, FitsQueue b w false (acc ++ xs) → Under (Starved b w) (FitsQueue b w false) (pruneReads W xs acc)
  | [], acc, h => by rw [List.append_nil] at h; exact h
  | x :: xs, acc, h => by
    refine Under.seq (fun m => ?_) (under_marked _)
    cases m with
    | true => exact Under.seq (fun _ => under_pruneReads xs acc h.rest) (under_close _)
    | false => exact under_pruneReads xs (acc ++ [x]) h.shift

theorem under_pruneWrites : ∀ xs acc, FitsQueue b w true (acc ++ xs) → Under (Starved b w) (FitsQueue b w true) (pruneWrites W xs acc)
  | [], acc, h => by rw [List.append_nil] at h; exact h
  | x :: xs, acc, h => by
    refine Under.seq (fun m => ?_) (under_marked _)
    cases m with
    | true => exact Under.seq (fun _ => under_pruneWrites xs acc h.rest) (under_remove _).attempt
    | false => exact under_pruneWrites xs (acc ++ [x]) h.shift

theorem under_setQueue {v : Bool} {q : List Wrap} (h : FitsQueue b w v q) : Under (Starved b w) (fun _ => True) (pSetQueue v q : PP ω Unit) :=
  fun _ hs => ⟨hs.setQueue h.1 h.2, trivial⟩

theorem under_prune : Under (Starved b w) (fun _ => True) (prune W) := by
  refine Under.bind (Under.mono (fun rs hr => ?_) (under_items false))
  refine Under.bind (Under.mono (fun reads hrs => ?_) (under_pruneReads rs [] hr))
  refine Under.bind (Under.mono (fun ws hw => ?_) (under_items true))
  refine Under.bind (Under.mono (fun writes hws => ?_) (under_pruneWrites ws [] hw))
  exact Under.seq (fun _ => under_setQueue hrs) (under_setQueue hws)

theorem under_whileSize (v : Bool) (n : RPool ω → Int) {step : PP ω Unit} (hs : Under (Starved b w) (fun _ => True) step) :
    ∀ fuel, Under (Starved b w) (fun _ => True) (whileSize v n step fuel)
  | 0 => trivial
  | fuel + 1 => by
    refine Under.seq (fun go => ?_) (under_look fun _ _ => trivial)
    cases go with
    | true => exact Under.seq (fun _ => under_whileSize v n hs fuel) hs.attempt
    | false => trivial

/-- No queue is shorter than its lower limit. -/
theorem under_compare (v : Bool) : Under (Starved b w) (fun o => o ≠ .lt) (pCompare v : PP ω Ordering) := by
  refine under_look fun s hs => ?_
  have : (if v then s.minWriteIdle else s.minReadIdle) = 0 := by cases v <;> simp [hs.minW, hs.minR]
  rw [this]
  split
  · omega
  · split <;> (split <;> simp)

theorem under_takeOut (v : Bool) : Under (Starved b w) (fun _ => True) (do removeConn W (← pDequeue v) : PP ω Unit) :=
  Under.bind (Under.mono (fun _ _ => under_remove _) (under_dequeue v))

theorem under_balance (fuel : Nat) : Under (Starved b w) (fun _ => True) (balance W fuel) := by
  refine Under.bind (Under.mono (fun o h => ?_) (under_compare false))
  have rest : Under (Starved b w) (fun _ => True) (do
      match ← pCompare true with
      | .lt => whileSize true (·.minWriteIdle) (addWriteConn W) fuel
      | .gt => whileSize true (·.maxWriteIdle) (do removeConn W (← pDequeue true)) fuel
      | .eq => pure ()
      match ← pCompare false with
      | .lt => whileSize false (·.minReadIdle) (addReadConn W) fuel
      | .gt => whileSize false (·.maxReadIdle) (do removeConn W (← pDequeue false)) fuel
      | .eq => pure () : PP ω Unit) := by
    have last : Under (Starved b w) (fun _ => True) (do
        match ← pCompare false with
        | .lt => whileSize false (·.minReadIdle) (addReadConn W) fuel
        | .gt => whileSize false (·.maxReadIdle) (do removeConn W (← pDequeue false)) fuel
        | .eq => pure () : PP ω Unit) := by
      refine Under.bind (Under.mono (fun o h => ?_) (under_compare false))
      cases o with
      | lt => exact absurd rfl h
      | eq => trivial
      | gt => exact under_whileSize _ _ (under_takeOut _) _
    refine Under.bind (Under.mono (fun o h => ?_) (under_compare true))
    cases o with
    | lt => exact absurd rfl h
    | eq => exact last
    | gt => exact Under.seq (fun _ => last) (under_whileSize _ _ (under_takeOut _) _)
  cases o with
  | lt => exact absurd rfl h
  | eq => exact rest
  | gt => exact rest

theorem under_lock : Under (Starved b w) (fun _ => True) (lock : PP ω Unit) := fun _ hs => ⟨hs.same rfl rfl rfl rfl rfl, trivial⟩
theorem under_rlock : Under (Starved b w) (fun _ => True) (rlock : PP ω Unit) := fun _ hs => ⟨hs.same rfl rfl rfl rfl rfl, trivial⟩

theorem under_refreshRound (fuel : Nat) : Under (Starved b w) (fun _ => True) (refreshRound W fuel) :=
  Under.seq (fun _ => Under.seq (fun _ => Under.seq (fun _ => Under.seq (fun _ => fun _ hs => ⟨hs.same rfl rfl rfl rfl rfl, trivial⟩) (under_balance _)) under_prune)
    under_refreshConnections) under_lock

theorem under_drain (v : Bool) : ∀ fuel, Under (Starved b w) (fun _ => True) (drain W v fuel)
  | 0 => trivial
  | fuel + 1 => by
    refine Under.seq (fun n => ?_) (under_look fun _ _ => trivial)
    split
    · trivial
    · exact Under.bind (Under.mono (fun _ _ => Under.seq (fun _ => under_drain v fuel) (under_remove _)) (under_dequeue v))

theorem under_stop (fuel : Nat) : Under (Starved b w) (fun _ => True) (stop W fuel) := by
  refine Under.seq (fun ok => ?_) (under_look fun _ _ => trivial)
  cases ok with
  | false => trivial
  | true =>
    refine Under.seq (fun _ => Under.seq (fun _ => under_drain true fuel) (under_drain false fuel)) ?_
    exact fun s hs => ⟨hs.same rfl rfl rfl rfl rfl, trivial⟩

/-- Borrowing succeeds only for a kind of which something is left. -/
theorem under_internalBorrow (v : Bool) : ∀ fuel, Under (Starved b w) (fun _ => b = true → v ≠ w) (internalBorrow W v fuel)
  | 0 => trivial
  | fuel + 1 => by
    refine Under.bind (Under.mono (fun r hr => ?_) (under_dequeue v))
    cases r with
    | none => trivial
    | some x =>
      obtain ⟨hx, hv⟩ := hr x rfl
      have again : Under (Starved b w) (fun _ => b = true → v ≠ w) (do removeConn W (some x); internalBorrow W v fuel : PP ω Wrap) :=
        Under.seq (fun _ => under_internalBorrow v fuel) (under_remove _)
      refine Under.seq (fun m => ?_) (under_marked _)
      cases m with
      | true => exact again
      | false =>
        refine Under.seq (fun ok => ?_) (under_validate _)
        cases ok with
        | false => exact again
        | true =>
          refine Under.seq (fun _ => Under.seq (fun _ => hv) (Under.prim fun s hs => ⟨⟨hs.minW, hs.minR, hs.kind, hs.idle, fun h1 e he => ?_⟩, trivial⟩)) (under_delHeld _)
          rcases List.mem_cons.1 he with rfl | he
          · rw [hx]; exact hv h1
          · exact hs.lent h1 e (List.mem_filter.1 he).1

theorem under_reclaim (c : ConnRef) : Under (Starved b w) (fun _ => True) (reclaim W c) := by
  refine Under.seq (fun _ => Under.deferred (fun s hs => hs.same rfl rfl rfl rfl rfl) ?_) under_lock
  refine Under.seq (fun ok => ?_) (under_look fun _ _ => trivial)
  cases ok with
  | false => trivial
  | true =>
    refine Under.bind (Under.mono (fun found hf => ?_) (under_look (A := fun r => ∀ x, r = some x → b = true → x.write ≠ w) fun s hs x hx h1 => ?_))
    · cases found with
      | none =>
        refine Under.seq (fun r => ?_) (under_close _)
        cases r <;> trivial
      | some x =>
        have hx := hf x rfl
        refine Under.seq (fun _ => Under.seq (fun _ => Under.seq (fun ok => Under.seq (fun bad => ?_) ?_) (under_validate _)) ?_) ?_
        · cases bad with
          | none => exact under_enqueue rfl hx
          | some e =>
            cases hw : x.write with
            | true => exact under_addWrite fun h1 => hw ▸ hx h1
            | false => exact under_addRead fun h1 => hw ▸ hx h1
        · cases ok with
          | true => trivial
          | false => exact (under_remove _).attempt
        · exact fun s hs => ⟨hs.same rfl rfl rfl rfl rfl, trivial⟩
        · exact fun s hs => ⟨⟨hs.minW, hs.minR, hs.kind, hs.idle, fun h1 e he => hs.lent h1 e (List.mem_filter.1 he).1⟩, trivial⟩
    · unfold ConnMap.get? at hx
      rw [Option.map_eq_some_iff] at hx
      obtain ⟨e, he, rfl⟩ := hx
      exact hs.lent h1 e (List.mem_of_find?_eq_some he)

theorem under_times {step : PP ω Unit} (hs : Under (Starved b w) (fun _ => True) step) : ∀ n, Under (Starved b w) (fun _ => True) (times n step)
  | 0 => trivial
  | n + 1 => Under.seq (fun _ => under_times hs n) hs

theorem under_start (hb : b = false) : Under (Starved b w) (fun _ => True) (start W) := by
  refine Under.seq (fun ok => ?_) (under_look fun _ _ => trivial)
  cases ok with
  | true => trivial
  | false =>
    refine Under.seq (fun p => ?_) (Under.prim fun s hs => ⟨?_, trivial⟩)
    · obtain ⟨m, n⟩ := p
      exact Under.seq (fun _ => Under.seq (fun _ => under_times (under_addRead fun h => by rw [hb] at h; cases h) _)
        (under_times (under_addWrite fun h => by rw [hb] at h; cases h) _)) under_refreshConnections
    · unfold RPool.startHead
      split <;> exact hs.same rfl rfl rfl rfl rfl

/-- What a call returns: borrowing succeeds only for a kind of which something is left. -/
def Fed134 (b w : Bool) (r : PReq) (_ : PRet) : Prop := ∀ v, r = .borrow v → b = true → v ≠ w

theorem under_prog (fuel : Nat) (r : PReq) (hr : r = .start → b = false) : Under (Starved b w) (Fed134 b w r) (r.prog W fuel) := by
  have unl : ∀ s : RPool ω, Starved b w s → Starved b w (runlock s) := fun s hs => hs.same rfl rfl rfl rfl rfl
  have other : ∀ {r : PReq} {p : PP ω Unit}, (∀ v, r ≠ .borrow v) → Under (Starved b w) (fun _ => True) p →
      Under (Starved b w) (Fed134 b w r) (do p; return none : PP ω PRet) := fun h hp => Under.seq (fun _ => fun v hv => absurd hv (h v)) hp
  match r with
  | .borrow true =>
    refine Under.bind (Under.seq (fun _ => Under.deferred unl (Under.bind (Under.mono (fun x hx => ?_) (under_internalBorrow true fuel)))) under_rlock)
    exact fun v hv h1 => by cases hv; exact hx h1
  | .borrow false =>
    refine Under.bind (Under.seq (fun _ => Under.deferred unl (Under.bind (Under.mono (fun x hx => ?_) (under_internalBorrow false fuel)))) under_rlock)
    exact fun v hv h1 => by cases hv; exact hx h1
  | .reclaim c => exact other (fun _ h => by cases h) (under_reclaim c)
  | .start => exact other (fun _ h => by cases h) (under_start (hr rfl))
  | .stop => exact other (fun _ h => by cases h) (under_stop fuel)
  | .refresh => exact other (fun _ h => by cases h) (under_refreshRound fuel)

/-- The state of a pool, its calls in progress, and what has been returned since. -/
theorem starved_moves (fuel : Nat) (ms : List PMove) (hms : ∀ m ∈ ms, m = .call .start → b = false) : ∀ (s : PSys ω), Starved b w s.pool →
    (∀ e ∈ s.calls, Under (Starved b w) (Fed134 b w e.1) e.2) →
    Starved b w (s.moves W fuel ms).pool ∧ ∃ new, (s.moves W fuel ms).returned = s.returned ++ new ∧ ∀ r a, (r, .ok a) ∈ new → Fed134 b w r a := by
  induction ms with
  | nil => intro s hs _; exact ⟨hs, [], (List.append_nil _).symm, fun _ _ h => absurd h List.not_mem_nil⟩
  | cons m ms ih =>
    intro s hs hc
    have ih := ih fun m hm => hms m (List.mem_cons_of_mem _ hm)
    have call : ∀ r l, (r = .start → b = false) → ∀ e ∈ ({ s with calls := s.calls ++ [(r, PReq.prog W fuel r)], lent := l } : PSys ω).calls,
        Under (Starved b w) (Fed134 b w e.1) e.2 := by
      intro r l hr e he
      rcases List.mem_append.1 he with he | he
      · exact hc e he
      · rw [List.mem_singleton.1 he]; exact under_prog fuel r hr
    have hm0 := hms m List.mem_cons_self
    show Starved b w ((s.move W fuel m).moves W fuel ms).pool ∧ ∃ new, ((s.move W fuel m).moves W fuel ms).returned = s.returned ++ new ∧ _
    match m with
    | .call (.reclaim c) =>
      simp only [PSys.move]
      split
      · exact ih _ hs (call _ _ fun h => by cases h)
      · exact ih _ hs hc
    | .call (.borrow v) => exact ih _ hs (call _ _ fun h => by cases h)
    | .call .start => exact ih _ hs (call _ _ fun _ => hm0 rfl)
    | .call .stop => exact ih _ hs (call _ _ fun h => by cases h)
    | .call .refresh => exact ih _ hs (call _ _ fun h => by cases h)
    | .step k =>
      simp only [PSys.move]
      cases hk : s.calls[k]? with
      | none => exact ih _ hs hc
      | some rp =>
        obtain ⟨r, p⟩ := rp
        have hp := hc _ (List.mem_of_getElem? hk)
        cases p with
        | done res =>
          obtain ⟨h1, new, h2, h3⟩ := ih { s with calls := s.calls.eraseIdx k, lent := s.lent ++ lentBy res, returned := s.returned ++ [(r, res)] } hs
            (fun e he => hc e (List.mem_of_mem_eraseIdx he))
          refine ⟨h1, (r, res) :: new, by rw [h2]; simp, fun r' a h => ?_⟩
          rcases List.mem_cons.1 h with h | h
          · cases h; exact hp
          · exact h3 r' a h
        | act acc en f k' =>
          dsimp only
          split
          · refine ih _ (hp s.pool hs).1 fun e he => ?_
            rcases List.mem_or_eq_of_mem_set he with he | rfl
            · exact hc e he
            · exact (hp s.pool hs).2
          · exact ih _ hs hc

/-- Executed without interruption. -/
theorem Under.run {α : Type} {I : RPool ω → Prop} {A : α → Prop} : ∀ {p : PP ω α} {s : RPool ω}, Under I A p → I s → I (p.run s).2
  | .done _, _, _, hs => hs
  | .act _ en f k, s, h, hs => by
    simp only [PProg.run]
    split
    · exact Under.run (h s hs).2 (h s hs).1
    · exact hs

end
end Verif
