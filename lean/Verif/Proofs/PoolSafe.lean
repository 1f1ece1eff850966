/-
The calls of the routing pool keep the invariant at every action.
-/
import Verif.Proofs.PoolSteps
import Verif.Model.PoolSys
namespace Verif
open PProg

section
variable {ω : Type} {st : Bool} (W : PWorld ω)

/-- All actions leave what the invariant speaks about. -/
abbrev NeutralActs {α : Type} (p : PP ω α) : Prop := Acts (fun _ f => ∀ s, Neutral s (f s)) p

/-- The calls keep the invariant of the pool. -/
abbrev PSafe (st : Bool) {α : Type} (A : α → Gh → Prop) (B : Gh → Prop) (p : PP ω α) (g : Gh) : Prop := Safe Distinct (PInv st) A B p g

theorem safe_neutral {α : Type} : ∀ {p : PP ω α}, NeutralActs p → ∀ g, PSafe st (fun _ g' => g' = g) (fun g' => g' = g) p g
  | .done (.ok _), _, _ => rfl
  | .done (.err _), _, _ => rfl
  | .done .panic, _, _ => rfl
  | .done .fuel, _, _ => rfl
  | .act _ _ _ _, h, g => fun s _ _ hi _ => ⟨g, (h.1 s).inv hi, safe_neutral (h.2 s) g⟩

/-- A neutral program first. -/
theorem Safe.after {α β : Type} {A : β → Gh → Prop} {B : Gh → Prop} {p : PP ω α} {f : α → PP ω β} {g : Gh} (hp : NeutralActs p) (hB : B g)
    (hf : ∀ a, PSafe st A B (f a) g) : PSafe st A B (PProg.bind p f) g :=
  Safe.bind (A := fun _ g' => g' = g) (fun a g' h => by subst h; exact hf a) (Safe.mono (fun _ _ h => h) (fun g' h => by subst h; exact hB) (safe_neutral hp g))

/-- Growth of the log. -/
theorem neutral_log (s : RPool ω) (w : ω) (e : PEv) (h : Verif.made [e] = []) : Neutral s { s with world := w, log := s.log ++ [e] } :=
  ⟨rfl, rfl, rfl, fun _ => rfl, rfl, fun _ => rfl, fun _ => rfl, Nat.le_refl _, [e], rfl, h⟩

theorem neutral_refl (s : RPool ω) : Neutral s s := ⟨rfl, rfl, rfl, fun _ => rfl, rfl, fun _ => rfl, fun _ => rfl, Nat.le_refl _, [], by simp, rfl⟩

theorem neutral_validate (c : ConnRef) : NeutralActs (pValidate W c) := Acts.prim fun s => neutral_log s _ _ rfl

theorem neutral_close (r : Nat) : NeutralActs (pClose W r) := Acts.prim fun s => neutral_log s _ _ rfl

theorem neutral_delHeld (id : Bytes) : NeutralActs (delHeld id : PP ω Unit) :=
  Acts.prim fun _ => ⟨rfl, rfl, rfl, fun _ => rfl, rfl, fun _ => rfl, fun _ => rfl, Nat.le_refl _, [], by simp, rfl⟩

theorem neutral_putHeld (x : Wrap) : NeutralActs (putHeld x : PP ω Unit) :=
  Acts.prim fun _ => ⟨rfl, rfl, rfl, fun _ => rfl, rfl, fun _ => rfl, fun _ => rfl, Nat.le_refl _, [], by simp, rfl⟩

theorem neutral_marked (c : ConnRef) : NeutralActs (pMarked c : PP ω Bool) := Acts.prim neutral_refl

theorem neutral_remove (x : Wrap) : NeutralActs (removeConn W (some x)) := by
  refine Acts.bind (fun ok => ?_) (neutral_validate W x.conn)
  split
  · exact neutral_delHeld _
  · refine Acts.bind (fun r => ?_) (neutral_close W _)
    split
    · exact trivial
    · exact neutral_delHeld _

theorem neutral_remove' (x : Option Wrap) : NeutralActs (removeConn W x) := by
  cases x with
  | none => exact trivial
  | some x => exact neutral_remove W x

theorem neutral_refresh : NeutralActs (refreshConnections W) := by
  refine Acts.bind (fun r => ?_) (Acts.prim fun s => ?_)
  · split
    · exact trivial
    · refine Acts.bind (fun _ => ?_) (Acts.prim fun s => ?_)
      · refine Acts.bind (fun _ => ?_) (Acts.prim fun s => ?_)
        · exact Acts.bind (fun _ => Acts.done) (neutral_close W _)
        · exact ⟨rfl, rfl, rfl, fun _ => rfl, rfl, fun _ => rfl, fun _ => rfl, Nat.le_refl _, [], by simp [RPool.takeStrings], rfl⟩
      · exact ⟨rfl, rfl, rfl, fun _ => rfl, rfl, fun _ => rfl, fun _ => rfl, Nat.le_refl _, _, rfl, rfl⟩
  · dsimp only
    split
    · exact ⟨rfl, rfl, rfl, fun _ => rfl, rfl, fun _ => rfl, fun _ => rfl, Nat.le_succ _, [], by simp, rfl⟩
    · exact ⟨rfl, rfl, rfl, fun _ => rfl, rfl, fun _ => rfl, fun _ => rfl, Nat.le_succ _, _, rfl, rfl⟩

/-- What remains certain when a call fails: the mutex, and no copies that were not there. -/
abbrev Failed (g : Gh) : Gh → Prop := fun g' => g'.mode = g.mode ∧ g'.snap = g.snap

theorem safe_newConnection {g : Gh} {w : Bool} {ps : List Bool} (hp : st = true ∨ g.perms = w :: ps) (str : Bytes) :
    PSafe st (fun x g' => g' = { g with ws := x :: g.ws, perms := ps } ∧ x.write = w ∧ x.connStr = str) (Failed g) (newConnection W w str) g := by
  refine Safe.bind (A := fun r g' => match r with
    | .error _ => g' = g
    | .ok x => g' = { g with ws := x :: g.ws, perms := ps } ∧ x.write = w ∧ x.connStr = str) (fun r g' h => ?_) (Safe.prim fun s F hi hg => ?_)
  · match r with
    | .error e => subst h; exact ⟨rfl, rfl⟩
    | .ok x =>
      obtain ⟨rfl, h1, h2⟩ := h
      exact Safe.after (neutral_putHeld x) ⟨rfl, rfl⟩ fun _ => ⟨rfl, h1, h2⟩
  · generalize hc : W.create s.world s.next str = c at hg ⊢
    match c with
    | (w', some e) =>
      refine ⟨g, Neutral.inv ?_ hi, rfl⟩
      exact ⟨rfl, rfl, rfl, fun _ => rfl, rfl, fun _ => rfl, fun _ => rfl, Nat.le_succ _, [], by simp, rfl⟩
    | (w', none) => exact ⟨_, inv_create hp _ _ _ hi, rfl, rfl, rfl⟩

theorem safe_enqueue {g : Gh} {x : Wrap} {xs : List Wrap} (hx : g.ws = x :: xs) {B : Gh → Prop} :
    PSafe st (fun _ g' => g' = { g with ws := xs }) B (pEnqueue x.write x : PP ω Unit) g :=
  Safe.prim fun _ _ hi _ => ⟨_, inv_enqueue hx hi, rfl⟩

/-- Creating a connection and putting it into its queue. -/
theorem safe_addConn {g : Gh} {w : Bool} {ps : List Bool} (hp : st = true ∨ g.perms = w :: ps) (str : Bytes) :
    PSafe st (fun _ g' => g' = { g with perms := ps }) (Failed g) (do let x ← newConnection W w str; pEnqueue w x) g := by
  refine Safe.bind (fun x g' h => ?_) (safe_newConnection W hp str)
  obtain ⟨rfl, h1, _⟩ := h
  subst h1
  exact Safe.mono (fun _ g' h => by rw [h]) (fun _ h => h) (safe_enqueue (x := x) (xs := g.ws) rfl)

/-- A neutral action whose value is known to satisfy `V`. -/
theorem Safe.know {α β : Type} {A : β → Gh → Prop} {B : Gh → Prop} {acc : List Access} {m : RPool ω → α × RPool ω} {f : α → PP ω β} {g : Gh} (V : α → Prop)
    (hm : ∀ s, Neutral s (m s).2) (hv : ∀ s, V (m s).1) (hf : ∀ a, V a → PSafe st A B (f a) g) : PSafe st A B (PProg.bind (.prim acc m) f) g :=
  Safe.bind (A := fun a g' => g' = g ∧ V a) (fun a g' h => by obtain ⟨rfl, h⟩ := h; exact hf a h)
    (Safe.prim fun s _ hi _ => ⟨g, (hm s).inv hi, rfl, hv s⟩)

theorem safe_addWrite {g : Gh} {ps : List Bool} (hp : st = true ∨ g.perms = true :: ps) :
    PSafe st (fun _ g' => g' = { g with perms := ps }) (Failed g) (addWriteConn W) g := by
  refine Safe.know (fun r => r ≠ .error (.ok ())) (fun s => ?_) (fun s => ?_) fun r hr => ?_
  · dsimp only
    split
    · exact neutral_refl s
    · exact ⟨rfl, rfl, rfl, fun _ => rfl, rfl, fun _ => rfl, fun _ => rfl, Nat.le_refl _, [], by simp, rfl⟩
  · dsimp only
    split
    · simp
    · dsimp only
      split <;> simp
  · match r, hr with
    | .ok str, _ => exact safe_addConn W hp str
    | .error (.ok ()), h => exact absurd rfl h
    | .error (.err _), _ => exact ⟨rfl, rfl⟩
    | .error .panic, _ => exact ⟨rfl, rfl⟩
    | .error .fuel, _ => exact ⟨rfl, rfl⟩

theorem safe_addRead {g : Gh} {ps : List Bool} (hp : st = true ∨ g.perms = false :: ps) :
    PSafe st (fun _ g' => g' = { g with perms := ps }) (Failed g) (addReadConn W) g := by
  refine Safe.know (fun r => r ≠ .error (.ok ())) (fun s => ?_) (fun s => ?_) fun r hr => ?_
  · dsimp only
    split
    · exact neutral_refl s
    · exact ⟨rfl, rfl, rfl, fun _ => rfl, rfl, fun _ => rfl, fun _ => rfl, Nat.le_refl _, [], by simp, rfl⟩
  · dsimp only
    split
    · simp
    · dsimp only
      split <;> simp
  · match r, hr with
    | .ok str, _ => exact safe_addConn W hp str
    | .error (.ok ()), h => exact absurd rfl h
    | .error (.err _), _ => exact ⟨rfl, rfl⟩
    | .error .panic, _ => exact ⟨rfl, rfl⟩
    | .error .fuel, _ => exact ⟨rfl, rfl⟩

/-- The connection is replaced by a new one of its kind. -/
theorem safe_replace {g : Gh} {x : Wrap} {xs : List Wrap} (hx : g.ws = x :: xs) :
    PSafe st (fun _ g' => Failed g g') (Failed g) (if x.write then addWriteConn W else addReadConn W) g := by
  have h : PSafe st (fun _ g' => Failed g g') (Failed g) (if x.write then addWriteConn W else addReadConn W) { g with ws := xs, perms := x.write :: g.perms } := by
    cases hw : x.write with
    | true => exact Safe.mono (fun _ g' h => by subst h; exact ⟨rfl, rfl⟩) (fun _ h => h) (safe_addWrite W (g := { g with ws := xs, perms := true :: g.perms }) (.inr rfl))
    | false => exact Safe.mono (fun _ g' h => by subst h; exact ⟨rfl, rfl⟩) (fun _ h => h) (safe_addRead W (g := { g with ws := xs, perms := false :: g.perms }) (.inr rfl))
  cases hw : x.write with
  | true =>
    rw [hw] at h
    exact Safe.pre (fun s F hi => by have := inv_exchange hx hi; rwa [hw] at this) h
  | false =>
    rw [hw] at h
    exact Safe.pre (fun s F hi => by have := inv_exchange hx hi; rwa [hw] at this) h

theorem safe_times {w : Bool} {step : PP ω Unit}
    (hs : ∀ {g : Gh} {ps : List Bool}, st = true ∨ g.perms = w :: ps → PSafe st (fun _ g' => g' = { g with perms := ps }) (Failed g) step g) :
    ∀ (n : Nat) {g : Gh} {ps : List Bool}, g.perms = List.replicate n w ++ ps → PSafe st (fun _ g' => g' = { g with perms := ps }) (Failed g) (times n step) g
  | 0, g, ps, h => by
    show g = { g with perms := ps }
    rw [← (show g.perms = ps from h)]
  | n + 1, g, ps, h => by
    refine Safe.bind (fun _ g' hg' => ?_) (hs (ps := List.replicate n w ++ ps) (.inr h))
    subst hg'
    exact safe_times hs n (g := { g with perms := List.replicate n w ++ ps }) rfl

/-- The rest of `Start`. -/
theorem safe_startRest {g : Gh} (maxWrite maxRead : Int) (hp : g.perms = List.replicate maxWrite.toNat true ++ List.replicate maxRead.toNat false) :
    PSafe st (fun _ g' => g' = { g with perms := [] }) (Failed g) (startRest W maxWrite maxRead) g := by
  refine Safe.after (neutral_refresh W) ⟨rfl, rfl⟩ fun _ => ?_
  refine Safe.bind (fun _ g' h => ?_) (safe_times (safe_addWrite W) _ hp)
  subst h
  exact safe_times (safe_addRead W) _ (g := { g with perms := List.replicate maxRead.toNat false }) (by simp)

theorem safe_timesFree {w : Bool} {step : PP ω Unit}
    (hs : ∀ {g : Gh} {ps : List Bool}, st = true ∨ g.perms = w :: ps → PSafe st (fun _ g' => g' = { g with perms := ps }) (Failed g) step g) (hst : st = true) :
    ∀ (n : Nat) {g : Gh}, PSafe st (fun _ g' => g' = g) (Failed g) (times n step) g
  | 0, _ => rfl
  | n + 1, g => Safe.bind (fun _ g' hg' => by subst hg'; exact safe_timesFree hs hst n) (hs (ps := g.perms) (.inl hst))

/-- `Start` of a pool in use. -/
theorem safe_start {g : Gh} (hst : st = true) : PSafe st (fun _ g' => g' = g) (Failed g) (start W) g := by
  refine Safe.after (Acts.prim neutral_refl) ⟨rfl, rfl⟩ fun ok => ?_
  split
  · exact ⟨rfl, rfl⟩
  · refine Safe.bind (A := fun _ g' => g' = g) (fun wr g' h => ?_) (Safe.prim fun s F hi _ => ⟨g, ?_, rfl⟩)
    · subst h
      refine Safe.after (neutral_refresh W) ⟨rfl, rfl⟩ fun _ => ?_
      refine Safe.bind (fun _ g' h => ?_) (safe_timesFree (safe_addWrite W) hst _)
      subst h
      exact safe_timesFree (safe_addRead W) hst _
    · subst hst
      unfold RPool.startHead
      split <;> exact inv_limit hi rfl rfl (fun _ => rfl) rfl (fun _ => rfl) rfl rfl

theorem safe_pruneReads : ∀ (xs reads : List Wrap) (g : Gh),
    PSafe st (fun rs g' => g' = g ∧ rs.Sublist (reads ++ xs)) (fun g' => g' = g) (pruneReads W xs reads) g
  | [], reads, g => ⟨rfl, by simp⟩
  | x :: xs, reads, g => by
    refine Safe.after (neutral_marked _) rfl fun m => ?_
    split
    · refine Safe.after (neutral_close W _) rfl fun _ => ?_
      exact Safe.mono (fun rs g' h => ⟨h.1, h.2.trans (List.Sublist.append (List.Sublist.refl _) (List.sublist_cons_self _ _))⟩) (fun _ h => h)
        (safe_pruneReads xs reads g)
    · exact Safe.mono (fun rs g' h => ⟨h.1, by simpa using h.2⟩) (fun _ h => h) (safe_pruneReads xs (reads ++ [x]) g)

theorem safe_pruneWrites : ∀ (xs writes : List Wrap) (g : Gh),
    PSafe st (fun rs g' => g' = g ∧ rs.Sublist (writes ++ xs)) (fun g' => g' = g) (pruneWrites W xs writes) g
  | [], writes, g => ⟨rfl, by simp⟩
  | x :: xs, writes, g => by
    refine Safe.after (neutral_marked _) rfl fun m => ?_
    split
    · refine Safe.after (neutral_remove W _).attempt rfl fun _ => ?_
      exact Safe.mono (fun rs g' h => ⟨h.1, h.2.trans (List.Sublist.append (List.Sublist.refl _) (List.sublist_cons_self _ _))⟩) (fun _ h => h)
        (safe_pruneWrites xs writes g)
    · exact Safe.mono (fun rs g' h => ⟨h.1, by simpa using h.2⟩) (fun _ h => h) (safe_pruneWrites xs (writes ++ [x]) g)

theorem safe_prune {g : Gh} (hm : g.mode = some true) (hs : g.snap = fun _ => []) :
    PSafe st (fun _ g' => g' = g) (fun g' => g'.mode = some true) (prune W) g := by
  refine Safe.bind (A := fun rs g' => g' = { g with snap := upd g.snap false rs }) (fun rs g' h => ?_) (Safe.prim fun s F hi _ => ⟨_, inv_snapshot false hm hi, rfl⟩)
  subst h
  refine Safe.bind (A := fun reads g' => g' = { g with snap := upd g.snap false rs } ∧ reads.Sublist rs) (fun reads g' h => ?_)
    (Safe.mono (fun _ _ h => h) (fun _ h => by rw [h]; exact hm) (safe_pruneReads W rs [] _))
  obtain ⟨rfl, hreads⟩ := h
  refine Safe.bind (A := fun ws g' => g' = { g with snap := upd (upd g.snap false rs) true ws }) (fun ws g' h => ?_)
    (Safe.prim fun s F hi _ => ⟨_, inv_snapshot (g := { g with snap := upd g.snap false rs }) true hm hi, rfl⟩)
  subst h
  refine Safe.bind (A := fun writes g' => g' = { g with snap := upd (upd g.snap false rs) true ws } ∧ writes.Sublist ws) (fun writes g' h => ?_)
    (Safe.mono (fun _ _ h => h) (fun _ h => by rw [h]; exact hm) (safe_pruneWrites W ws [] _))
  obtain ⟨rfl, hwrites⟩ := h
  refine Safe.bind (A := fun _ g' => g' = { g with snap := upd (upd g.snap false rs) true ws }) (fun _ g' h => ?_)
    (Safe.prim fun s F hi _ => ⟨_, inv_restore (w := true) (by simpa [upd] using hwrites) hi, rfl⟩)
  subst h
  refine Safe.prim fun s F hi _ => ⟨g, ?_, rfl⟩
  have h1 := inv_nosnap (inv_restore (w := false) (r := reads) (by simpa [upd] using hreads) hi)
  rw [← hs] at h1
  exact h1

/-- Taking a wrapper out of a queue and forgetting it. -/
theorem safe_lose {g : Gh} (w : Bool) {B : Gh → Prop} : PSafe st (fun _ g' => g' = g) B (pDequeue w : PP ω (Option Wrap)) g := by
  refine Safe.prim fun s F hi _ => ?_
  cases hq : s.queueOf w with
  | nil => exact ⟨g, hi, rfl⟩
  | cons x q => exact ⟨g, inv_shrink (by rw [hq]; exact List.sublist_cons_self _ _) hi, rfl⟩

theorem safe_whileSize {g : Gh} (w : Bool) (n : RPool ω → Int) {step : PP ω Unit} (hs : PSafe st (fun _ g' => g' = g) (fun g' => g' = g) step g) :
    ∀ fuel, PSafe st (fun _ g' => g' = g) (fun g' => g' = g) (whileSize w n step fuel) g
  | 0 => rfl
  | fuel + 1 => by
    refine Safe.after (Acts.prim neutral_refl) rfl fun go => ?_
    split
    · refine Safe.bind (A := fun _ g' => g' = g) (fun _ g' h => by subst h; exact safe_whileSize w n hs fuel) ?_
      exact Safe.mono (fun _ g' h => by rcases h with h | h <;> exact h.2) (fun _ h => h) hs.attempt
    · exact rfl

theorem safe_takeOut {g : Gh} (w : Bool) : PSafe st (fun _ g' => g' = g) (fun g' => g' = g) (do removeConn W (← pDequeue w) : PP ω Unit) g :=
  Safe.bind (A := fun _ g' => g' = g) (fun _ g' h => by subst h; exact safe_neutral (neutral_remove' W _) _) (safe_lose w)

/-- The sizes of the queues are not below the limits. -/
theorem safe_compare {g : Gh} (w : Bool) {B : Gh → Prop} : PSafe st (fun o g' => g' = g ∧ o ≠ .lt) B (pCompare w : PP ω Ordering) g := by
  refine Safe.prim fun s F hi _ => ⟨g, hi, rfl, ?_⟩
  have h0 := hi.mins w
  have h1 : ¬ ((s.queueOf w).length : Int) < (if w then s.minWriteIdle else s.minReadIdle) := by
    unfold RPool.lower at h0
    rw [h0]
    omega
  dsimp only
  rw [if_neg h1]
  generalize (if w = true then s.maxWriteIdle else s.maxReadIdle) = m
  split <;> simp

theorem safe_balance {g : Gh} (fuel : Nat) : PSafe st (fun _ g' => g' = g) (fun g' => g' = g) (balance W fuel) g := by
  have third : PSafe st (fun _ g' => g' = g) (fun g' => g' = g) (do
      match ← pCompare false with
      | .lt => whileSize false (·.minReadIdle) (addReadConn W) fuel
      | .gt => whileSize false (·.maxReadIdle) (do removeConn W (← pDequeue false)) fuel
      | .eq => pure () : PP ω Unit) g := by
    refine Safe.bind (fun o g' h => ?_) (safe_compare false)
    obtain ⟨rfl, ho⟩ := h
    cases o with
    | lt => exact absurd rfl ho
    | gt => exact safe_whileSize false _ (safe_takeOut W false) fuel
    | eq => exact rfl
  refine Safe.bind (fun o g' h => ?_) (safe_compare false)
  obtain ⟨rfl, ho⟩ := h
  have second : PSafe st (fun _ g'' => g'' = g') (fun g'' => g'' = g') (do
      match ← pCompare true with
      | .lt => whileSize true (·.minWriteIdle) (addWriteConn W) fuel
      | .gt => whileSize true (·.maxWriteIdle) (do removeConn W (← pDequeue true)) fuel
      | .eq => pure ()
      match ← pCompare false with
      | .lt => whileSize false (·.minReadIdle) (addReadConn W) fuel
      | .gt => whileSize false (·.maxReadIdle) (do removeConn W (← pDequeue false)) fuel
      | .eq => pure () : PP ω Unit) g' := by
    refine Safe.bind (fun o g'' h => ?_) (safe_compare true)
    obtain ⟨rfl, ho⟩ := h
    cases o with
    | lt => exact absurd rfl ho
    | gt => exact Safe.bind (fun _ g' h => by subst h; exact third) (safe_whileSize true _ (safe_takeOut W true) fuel)
    | eq => exact third
  cases o with
  | lt => exact absurd rfl ho
  | gt => exact second
  | eq => exact second

theorem safe_lock {g : Gh} (hm : g.mode = none) {B : Gh → Prop} : PSafe st (fun _ g' => g' = { g with mode := some true }) B (lock : PP ω Unit) g :=
  fun s _ he hi _ => by
    simp only [Bool.and_eq_true, Bool.not_eq_eq_eq_not, Bool.not_true, decide_eq_true_eq] at he
    exact ⟨_, inv_lock hm he.1 he.2 hi, rfl⟩

theorem safe_rlock {g : Gh} (hm : g.mode = none) (hs : g.snap = fun _ => []) {B : Gh → Prop} :
    PSafe st (fun _ g' => g' = { g with mode := some false }) B (rlock : PP ω Unit) g :=
  fun s _ he hi _ => ⟨_, inv_rlock hm hs (by simpa using he) hi, rfl⟩

/-- A round of refreshing.  It may end without releasing the mutex (when the model runs out of steps). -/
theorem safe_refreshRound (fuel : Nat) : PSafe st (fun _ g' => g'.mode = none) (fun _ => True) (refreshRound W fuel) {} := by
  refine Safe.bind (fun _ g' h => ?_) (safe_lock rfl)
  subst h
  refine Safe.after (neutral_refresh W) trivial fun _ => ?_
  refine Safe.bind (fun _ g' h => ?_) (Safe.mono (fun _ _ h => h) (fun _ _ => trivial) (safe_prune W rfl rfl))
  subst h
  refine Safe.bind (fun _ g' h => ?_) (Safe.mono (fun _ _ h => h) (fun _ _ => trivial) (safe_balance W fuel))
  subst h
  exact Safe.prim fun s F hi _ => ⟨_, inv_unlock rfl rfl hi, rfl⟩

theorem safe_drain {g : Gh} (w : Bool) : ∀ fuel, PSafe st (fun _ g' => g' = g) (fun g' => g' = g) (drain W w fuel) g
  | 0 => rfl
  | fuel + 1 => by
    refine Safe.after (Acts.prim neutral_refl) rfl fun n => ?_
    split
    · exact rfl
    · refine Safe.bind (A := fun _ g' => g' = g) (fun _ g' h => ?_) (safe_lose w)
      subst h
      exact Safe.after (neutral_remove' W _) rfl fun _ => safe_drain w fuel

theorem safe_stop {g : Gh} (fuel : Nat) : PSafe st (fun _ g' => g' = g) (fun g' => g' = g) (stop W fuel) g := by
  refine Safe.after (Acts.prim neutral_refl) rfl fun ok => ?_
  split
  · refine Safe.after (Acts.prim fun s => ?_) rfl fun _ => ?_
    · exact ⟨rfl, rfl, rfl, fun _ => rfl, rfl, fun _ => rfl, fun _ => rfl, Nat.le_refl _, [], by simp, rfl⟩
    · refine Safe.bind (fun _ g' h => ?_) (safe_drain W false fuel)
      subst h
      exact safe_drain W true fuel
  · exact rfl

theorem safe_internalBorrow {g : Gh} (hm : g.mode = some false) (w : Bool) :
    ∀ fuel, PSafe st (fun x g' => g' = { g with toks := x :: g.toks } ∧ x.write = w) (fun g' => g'.mode = some false) (internalBorrow W w fuel) g
  | 0 => hm
  | fuel + 1 => by
    refine Safe.bind (A := fun x g' => match x with
      | none => g' = g
      | some x => g' = { g with ws := x :: g.ws } ∧ x.write = w) (fun x g' h => ?_) (Safe.prim fun s F hi _ => ?_)
    · match x with
      | none => subst h; exact hm
      | some x =>
        obtain ⟨rfl, hw⟩ := h
        have again : ∀ _ : Unit, PSafe st (fun x g' => g' = { g with toks := x :: g.toks } ∧ x.write = w) (fun g' => g'.mode = some false) (internalBorrow W w fuel)
            { g with ws := x :: g.ws } := by
          intro _
          have h := safe_internalBorrow hm w fuel
          have hless : ∀ (s : RPool ω) F, PInv st s ({ g with ws := x :: g.ws } :: F) → PInv st s (g :: F) := fun s F hi =>
            inv_less (g := { g with ws := x :: g.ws }) (g' := g) rfl (List.sublist_cons_self _ _) (List.Sublist.refl _) (List.Sublist.refl _) (fun _ => List.Sublist.refl _) hi
          cases fuel with
          | zero => exact hm
          | succ fuel => exact Safe.pre hless h
        refine Safe.after (neutral_marked _) hm fun m => ?_
        split
        · exact Safe.after (neutral_remove W x) hm again
        · refine Safe.after (neutral_validate W _) hm fun ok => ?_
          split
          · refine Safe.after (neutral_delHeld _) hm fun _ => ?_
            refine Safe.bind (A := fun _ g' => g' = { g with toks := x :: g.toks }) (fun _ g' h => ?_) (Safe.prim fun s F hi hd => ?_)
            · exact And.intro h hw
            exact ⟨_, inv_put (g := { g with ws := x :: g.ws }) rfl hd hi, rfl⟩
          · exact Safe.after (neutral_remove W x) hm again
    · cases hq : s.queueOf w with
      | nil => exact ⟨g, hi, rfl⟩
      | cons x q =>
        obtain ⟨h1, h2⟩ := inv_dequeue hm hq hi
        exact ⟨_, h1, rfl, h2⟩

theorem safe_borrow (w : Bool) (fuel : Nat) :
    PSafe st (fun c g' => g'.mode = none ∧ ∃ x, g'.toks = [x] ∧ x.conn = c ∧ x.write = w) (fun g' => g'.mode = none)
      (if w then borrowRW W fuel else borrowR W fuel) {} := by
  have h : PSafe st (fun c g' => g'.mode = none ∧ ∃ x, g'.toks = [x] ∧ x.conn = c ∧ x.write = w) (fun g' => g'.mode = none)
      (do rlock; PProg.deferred runlock (do let x ← internalBorrow W w fuel; pure x.conn) : PP ω ConnRef) {} := by
    refine Safe.bind (fun _ g' h => ?_) (safe_rlock rfl rfl)
    subst h
    refine Safe.deferred (A := fun c g' => g'.mode = some false ∧ ∃ x, g'.toks = [x] ∧ x.conn = c ∧ x.write = w) (B := fun g' => g'.mode = some false) ?_ ?_ ?_
    · rintro c g s F ⟨hm, x, hx, hc, hw⟩ hi _
      exact ⟨_, inv_runlock hm hi, rfl, x, hx, hc, hw⟩
    · intro g s F hm hi _
      exact ⟨_, inv_runlock hm hi, rfl⟩
    · refine Safe.bind (fun x g' h => ?_) (safe_internalBorrow W rfl w fuel)
      obtain ⟨rfl, hw⟩ := h
      exact ⟨rfl, x, rfl, rfl, hw⟩
  cases w with
  | true => exact h
  | false => exact h

theorem safe_reclaim (x : Wrap) : PSafe st (fun _ g' => g'.mode = none) (fun g' => g'.mode = none) (reclaim W x.conn) { toks := [x] } := by
  refine Safe.bind (fun _ g' h => ?_) (safe_lock rfl)
  subst h
  have unl : ∀ (g : Gh) (s : RPool ω) F, g.mode = some true ∧ g.snap = (fun _ => []) → PInv st s (g :: F) → ∃ g', PInv st (unlock s) (g' :: F) ∧ g'.mode = none :=
    fun g s F h hi => ⟨_, inv_unlock h.1 h.2 hi, rfl⟩
  refine Safe.deferred (A := fun _ g' => g'.mode = some true ∧ g'.snap = fun _ => []) (B := fun g' => g'.mode = some true ∧ g'.snap = fun _ => [])
    (fun _ g s F h hi _ => unl g s F h hi) (fun g s F h hi _ => unl g s F h hi) ?_
  refine Safe.after (Acts.prim neutral_refl) ⟨rfl, rfl⟩ fun ok => ?_
  split
  · exact ⟨rfl, rfl⟩
  · refine Safe.bind (A := fun o g' => g' = { mode := some true, toks := [x] } ∧ o = some x) (fun o g' h => ?_)
      (Safe.prim fun s F hi hd => ⟨_, hi, rfl, get_tok (x := x) (by simp) hd hi⟩)
    obtain ⟨rfl, rfl⟩ := h
    dsimp only
    refine Safe.bind (A := fun _ g' => g' = { mode := some true, ws := [x] }) (fun _ g' h => ?_)
      (Safe.prim fun s F hi hd => ⟨_, inv_del (x := x) rfl hd hi, rfl⟩)
    subst h
    refine Safe.after (Acts.prim fun s => ?_) ⟨rfl, rfl⟩ fun _ => ?_
    · exact ⟨rfl, rfl, rfl, fun _ => rfl, rfl, fun _ => rfl, fun _ => rfl, Nat.le_refl _, [], by simp, rfl⟩
    · refine Safe.after (neutral_validate W _) ⟨rfl, rfl⟩ fun ok => ?_
      refine Safe.after (p := if ok = true then pure none else (removeConn W (some x)).attempt) ?_ ⟨rfl, rfl⟩ fun bad => ?_
      · split
        · exact Acts.done
        · exact (neutral_remove W x).attempt
      · cases bad with
        | some _ => exact safe_replace W (g := { mode := some true, ws := [x] }) rfl
        | none => exact Safe.mono (fun _ g' h => by subst h; exact ⟨rfl, rfl⟩) (fun _ h => h) (safe_enqueue (x := x) (xs := []) rfl)

end
end Verif
