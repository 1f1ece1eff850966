/-
The invariant of a routing pool shared by goroutines.
-/
import Verif.Proofs.PoolSafe
namespace Verif
open PProg

section
variable {ω : Type} {st : Bool} (W : PWorld ω)

/-- How many of `n` connections are for writing (`true`) and for reading. -/
def shareOf (n : Int) (w : Bool) : Nat := if w then (n.toNat + 1) / 2 else n.toNat / 2

/-- The log grows; limits stay or become those of the size of the pool. -/
structure Grows (s s' : RPool ω) : Prop where
  log : ∃ evs, s'.log = s.log ++ evs
  total : s'.totalConns = s.totalConns
  limit : (∀ w, s'.limit w = s.limit w) ∨ ∀ w, s'.limit w = shareOf s'.totalConns w

/-- All actions let the log grow. -/
abbrev GrowActs {α : Type} (p : PP ω α) : Prop := Acts (fun _ f => ∀ s, Grows s (f s)) p

theorem Grows.refl (s : RPool ω) : Grows s s := ⟨⟨[], by simp⟩, rfl, .inl fun _ => rfl⟩

theorem Grows.trans {a b c : RPool ω} (h : Grows a b) (h' : Grows b c) : Grows a c := by
  obtain ⟨⟨e, he⟩, ht, hl⟩ := h
  obtain ⟨⟨e', he'⟩, ht', hl'⟩ := h'
  refine ⟨⟨e ++ e', by rw [he', he, List.append_assoc]⟩, ht'.trans ht, ?_⟩
  rcases hl' with hl' | hl'
  · rcases hl with hl | hl
    · exact .inl fun w => by rw [hl', hl]
    · exact .inr fun w => by rw [hl', hl, ht']
  · exact .inr hl'

theorem Grows.distinct {s s' : RPool ω} (h : Grows s s') (hd : Distinct s') : Distinct s := by
  obtain ⟨⟨evs, he⟩, _⟩ := h
  unfold Distinct at hd ⊢
  rw [he, made_append, List.map_append] at hd
  exact (List.nodup_append.1 hd).1

theorem Neutral.grows {s s' : RPool ω} (h : Neutral s s') : Grows s s' := let ⟨evs, he, _⟩ := h.log; ⟨⟨evs, he⟩, h.total, .inl h.limit⟩

theorem Acts.mono {S α : Type} {P Q : List Access → (S → S) → Prop} (h : ∀ acc f, P acc f → Q acc f) : ∀ {p : PProg S α}, Acts P p → Acts Q p
  | .done _, _ => trivial
  | .act _ _ _ _, hp => ⟨h _ _ hp.1, fun s => Acts.mono h (hp.2 s)⟩

theorem NeutralActs.grows {α : Type} {p : PP ω α} (h : NeutralActs p) : GrowActs p := Acts.mono (fun _ _ h s => (h s).grows) h

theorem grow_refl {α : Type} {acc : List Access} {m : RPool ω → α × RPool ω} (h : ∀ s, (m s).2 = s) : GrowActs (.prim acc m) :=
  Acts.prim fun s => by dsimp only; rw [h]; exact Grows.refl s

theorem grow_setQueue (s : RPool ω) (w : Bool) (q : List Wrap) : Grows s (s.setQueue w q) :=
  ⟨⟨[], by rw [setQueue_log]; simp⟩, setQueue_total s w q, .inl fun v => setQueue_limit s w v q⟩

theorem grow_enqueue (w : Bool) (x : Wrap) : GrowActs (pEnqueue w x : PP ω Unit) := Acts.prim fun s => grow_setQueue s w _

theorem grow_dequeue (w : Bool) : GrowActs (pDequeue w : PP ω (Option Wrap)) := Acts.prim fun s => by
  dsimp only
  cases s.queueOf w with
  | nil => exact Grows.refl s
  | cons x q => exact grow_setQueue s w q

theorem grow_newConnection (w : Bool) (str : Bytes) : GrowActs (newConnection W w str) := by
  refine Acts.bind (fun r => ?_) (Acts.prim fun s => ?_)
  · cases r with
    | error e => exact Acts.done
    | ok x => exact Acts.bind (fun _ => Acts.done) (neutral_putHeld x).grows
  · dsimp only
    generalize W.create s.world s.next str = c
    match c with
    | (w', some e) => exact ⟨⟨[], by simp⟩, rfl, .inl fun _ => rfl⟩
    | (w', none) => exact ⟨⟨_, rfl⟩, rfl, .inl fun _ => rfl⟩

theorem grow_addWrite : GrowActs (addWriteConn W) := by
  refine Acts.bind (fun r => ?_) (Acts.prim fun s => ?_)
  · cases r with
    | error e => exact Acts.done
    | ok x => exact Acts.bind (fun _ => grow_enqueue true _) (grow_newConnection W true x)
  · dsimp only
    split
    · exact Grows.refl s
    · exact ⟨⟨[], by simp⟩, rfl, .inl fun _ => rfl⟩

theorem grow_addRead : GrowActs (addReadConn W) := by
  refine Acts.bind (fun r => ?_) (Acts.prim fun s => ?_)
  · cases r with
    | error e => exact Acts.done
    | ok x => exact Acts.bind (fun _ => grow_enqueue false _) (grow_newConnection W false x)
  · dsimp only
    split
    · exact Grows.refl s
    · exact ⟨⟨[], by simp⟩, rfl, .inl fun _ => rfl⟩

theorem grow_times {step : PP ω Unit} (hs : GrowActs step) : ∀ n, GrowActs (times n step)
  | 0 => Acts.done
  | n + 1 => Acts.bind (fun _ => grow_times hs n) hs

theorem grow_startRest (a b : Int) : GrowActs (startRest W a b) :=
  Acts.bind (fun _ => Acts.bind (fun _ => grow_times (grow_addRead W) _) (grow_times (grow_addWrite W) _)) (neutral_refresh W).grows

/-- The limits of a pool of `n` connections. -/
theorem startHead_limit (s : RPool ω) (w : Bool) : s.startHead.limit w = shareOf s.totalConns w := by
  unfold RPool.startHead RPool.limit shareOf
  have h1 := Int.mul_tdiv_add_tmod s.totalConns 2
  have h2 := Int.mul_tdiv_add_tmod (s.totalConns - 1) 2
  have sign : ∀ a : Int, (0 ≤ a → 0 ≤ a.tmod 2 ∧ a.tmod 2 < 2) ∧ (a ≤ 0 → a.tmod 2 ≤ 0 ∧ -2 < a.tmod 2) := by
    intro a
    refine ⟨fun h => ⟨Int.tmod_nonneg 2 h, Int.tmod_lt_of_pos a (by decide)⟩, fun h => ?_⟩
    have h1 := Int.tmod_nonneg (a := -a) 2 (by omega)
    have h2 := Int.tmod_lt_of_pos (-a) (b := 2) (by decide)
    rw [Int.neg_tmod] at h1 h2
    omega
  have h3 := sign s.totalConns
  have h4 := sign (s.totalConns - 1)
  by_cases h : s.totalConns.tmod 2 = 0
  · rw [if_pos h]
    dsimp only
    split <;> omega
  · rw [if_neg h]
    dsimp only
    split <;> omega

theorem grow_start : GrowActs (start W) := by
  refine Acts.bind (fun ok => ?_) (grow_refl fun _ => rfl)
  split
  · exact Acts.done
  · refine Acts.bind (fun (wr : Int × Int) => grow_startRest W wr.1 wr.2) (Acts.prim fun s => ?_)
    have ht : s.startHead.totalConns = s.totalConns := by unfold RPool.startHead; split <;> rfl
    have hl : s.startHead.log = s.log := by unfold RPool.startHead; split <;> rfl
    exact ⟨⟨[], by dsimp only; rw [hl]; simp⟩, ht, .inr fun w => by dsimp only; rw [startHead_limit, ht]⟩

theorem grow_pruneReads : ∀ xs reads, GrowActs (pruneReads W xs reads)
  | [], _ => Acts.done
  | x :: xs, reads => by
    refine Acts.bind (fun m => ?_) (neutral_marked _).grows
    split
    · exact Acts.bind (fun _ => grow_pruneReads xs _) (neutral_close W _).grows
    · exact grow_pruneReads xs _

theorem grow_pruneWrites : ∀ xs writes, GrowActs (pruneWrites W xs writes)
  | [], _ => Acts.done
  | x :: xs, writes => by
    refine Acts.bind (fun m => ?_) (neutral_marked _).grows
    split
    · exact Acts.bind (fun _ => grow_pruneWrites xs _) (neutral_remove W _).grows.attempt
    · exact grow_pruneWrites xs _

theorem grow_prune : GrowActs (prune W) :=
  Acts.bind (fun _ => Acts.bind (fun reads => Acts.bind (fun _ => Acts.bind (fun writes => Acts.bind (fun _ => Acts.prim fun s => grow_setQueue s false reads)
    (Acts.prim fun s => grow_setQueue s true writes)) (grow_pruneWrites W _ _)) (grow_refl fun _ => rfl)) (grow_pruneReads W _ _)) (grow_refl fun _ => rfl)

theorem grow_whileSize (w : Bool) (n : RPool ω → Int) {step : PP ω Unit} (hs : GrowActs step) : ∀ fuel, GrowActs (whileSize w n step fuel)
  | 0 => Acts.done
  | fuel + 1 => by
    refine Acts.bind (fun go => ?_) (grow_refl fun _ => rfl)
    split
    · exact Acts.bind (fun _ => grow_whileSize w n hs fuel) hs.attempt
    · exact Acts.done

theorem grow_takeOut (w : Bool) : GrowActs (do removeConn W (← pDequeue w) : PP ω Unit) :=
  Acts.bind (fun _ => (neutral_remove' W _).grows) (grow_dequeue w)

theorem grow_balance (fuel : Nat) : GrowActs (balance W fuel) := by
  have third : GrowActs (do
      match ← pCompare false with
      | .lt => whileSize false (·.minReadIdle) (addReadConn W) fuel
      | .gt => whileSize false (·.maxReadIdle) (do removeConn W (← pDequeue false)) fuel
      | .eq => pure () : PP ω Unit) := by
    refine Acts.bind (fun o => ?_) (grow_refl fun _ => rfl)
    cases o with
    | lt => exact grow_whileSize _ _ (grow_addRead W) fuel
    | gt => exact grow_whileSize _ _ (grow_takeOut W false) fuel
    | eq => exact Acts.done
  have second : GrowActs (do
      match ← pCompare true with
      | .lt => whileSize true (·.minWriteIdle) (addWriteConn W) fuel
      | .gt => whileSize true (·.maxWriteIdle) (do removeConn W (← pDequeue true)) fuel
      | .eq => pure ()
      match ← pCompare false with
      | .lt => whileSize false (·.minReadIdle) (addReadConn W) fuel
      | .gt => whileSize false (·.maxReadIdle) (do removeConn W (← pDequeue false)) fuel
      | .eq => pure () : PP ω Unit) := by
    refine Acts.bind (fun o => ?_) (grow_refl fun _ => rfl)
    cases o with
    | lt => exact Acts.bind (fun _ => third) (grow_whileSize _ _ (grow_addWrite W) fuel)
    | gt => exact Acts.bind (fun _ => third) (grow_whileSize _ _ (grow_takeOut W true) fuel)
    | eq => exact third
  refine Acts.bind (fun o => ?_) (grow_refl fun _ => rfl)
  cases o with
  | lt => exact Acts.bind (fun _ => second) (grow_whileSize _ _ (grow_addRead W) fuel)
  | gt => exact second
  | eq => exact second

theorem grow_refreshRound (fuel : Nat) : GrowActs (refreshRound W fuel) :=
  Acts.bind (fun _ => Acts.bind (fun _ => Acts.bind (fun _ => Acts.bind (fun _ => Acts.prim fun _ => ⟨⟨[], by simp [unlock]⟩, rfl, .inl fun _ => rfl⟩)
    (grow_balance W fuel)) (grow_prune W)) (neutral_refresh W).grows) ⟨fun _ => ⟨⟨[], by simp⟩, rfl, .inl fun _ => rfl⟩, fun _ => Acts.done⟩

theorem grow_drain (w : Bool) : ∀ fuel, GrowActs (drain W w fuel)
  | 0 => Acts.done
  | fuel + 1 => by
    refine Acts.bind (fun n => ?_) (grow_refl fun _ => rfl)
    split
    · exact Acts.done
    · exact Acts.bind (fun _ => Acts.bind (fun _ => grow_drain w fuel) (neutral_remove' W _).grows) (grow_dequeue w)

theorem grow_stop (fuel : Nat) : GrowActs (stop W fuel) := by
  refine Acts.bind (fun ok => ?_) (grow_refl fun _ => rfl)
  split
  · exact Acts.bind (fun _ => Acts.bind (fun _ => grow_drain W true fuel) (grow_drain W false fuel)) (Acts.prim fun _ => ⟨⟨[], by simp⟩, rfl, .inl fun _ => rfl⟩)
  · exact Acts.done

theorem grow_internalBorrow (w : Bool) : ∀ fuel, GrowActs (internalBorrow W w fuel)
  | 0 => Acts.done
  | fuel + 1 => by
    refine Acts.bind (fun x => ?_) (grow_dequeue w)
    cases x with
    | none => exact Acts.done
    | some x =>
      refine Acts.bind (fun m => ?_) (neutral_marked _).grows
      split
      · exact Acts.bind (fun _ => grow_internalBorrow w fuel) (neutral_remove W x).grows
      · refine Acts.bind (fun ok => ?_) (neutral_validate W _).grows
        split
        · refine Acts.bind (fun _ => ?_) (neutral_delHeld _).grows
          exact Acts.bind (fun _ => Acts.done) (Acts.prim fun _ => ⟨⟨[], by simp⟩, rfl, .inl fun _ => rfl⟩)
        · exact Acts.bind (fun _ => grow_internalBorrow w fuel) (neutral_remove W x).grows

theorem grow_borrow (w : Bool) (fuel : Nat) :
    GrowActs (do rlock; PProg.deferred runlock (do let x ← internalBorrow W w fuel; pure x.conn) : PP ω ConnRef) :=
  Acts.bind (fun _ => Acts.deferred (fun _ => ⟨⟨[], by simp [runlock]⟩, rfl, .inl fun _ => rfl⟩) (Acts.bind (fun _ => Acts.done) (grow_internalBorrow W w fuel)))
    ⟨fun _ => ⟨⟨[], by simp⟩, rfl, .inl fun _ => rfl⟩, fun _ => Acts.done⟩

theorem grow_reclaim (c : ConnRef) : GrowActs (reclaim W c) := by
  refine Acts.bind (fun _ => Acts.deferred (fun _ => ⟨⟨[], by simp [unlock]⟩, rfl, .inl fun _ => rfl⟩) ?_) ⟨fun _ => ⟨⟨[], by simp⟩, rfl, .inl fun _ => rfl⟩, fun _ => Acts.done⟩
  refine Acts.bind (fun ok => ?_) (grow_refl fun _ => rfl)
  split
  · exact Acts.done
  · refine Acts.bind (fun o => ?_) (grow_refl fun _ => rfl)
    cases o with
    | none =>
      refine Acts.bind (fun r => ?_) (neutral_close W _).grows
      cases r <;> exact Acts.done
    | some x =>
      refine Acts.bind (fun _ => ?_) (Acts.prim fun _ => ⟨⟨[], by simp⟩, rfl, .inl fun _ => rfl⟩)
      refine Acts.bind (fun _ => ?_) (Acts.prim fun _ => ⟨⟨[], by simp⟩, rfl, .inl fun _ => rfl⟩)
      refine Acts.bind (fun ok => ?_) (neutral_validate W _).grows
      refine Acts.bind (p := if ok = true then pure none else (removeConn W (some x)).attempt) (fun bad => ?_) ?_
      · cases bad with
        | none => exact grow_enqueue _ _
        | some e =>
          dsimp only
          split
          · exact grow_addWrite W
          · exact grow_addRead W
      · split
        · exact Acts.done
        · exact (neutral_remove W x).grows.attempt

theorem grow_prog (fuel : Nat) (r : PReq) : GrowActs (r.prog W fuel) := by
  match r with
  | .borrow true => exact Acts.bind (fun _ => Acts.done) (grow_borrow W true fuel)
  | .borrow false => exact Acts.bind (fun _ => Acts.done) (grow_borrow W false fuel)
  | .reclaim c => exact Acts.bind (fun _ => Acts.done) (grow_reclaim W c)
  | .start => exact Acts.bind (fun _ => Acts.done) (grow_start W)
  | .stop => exact Acts.bind (fun _ => Acts.done) (grow_stop W fuel)
  | .refresh => exact Acts.bind (fun _ => Acts.done) (grow_refreshRound W fuel)

/-- All calls in progress let the log grow. -/
def CallsGrow (s : PSys ω) : Prop := ∀ c ∈ s.calls, GrowActs c.2

theorem move_grows (fuel : Nat) {s : PSys ω} (h : CallsGrow s) (m : PMove) : CallsGrow (s.move W fuel m) ∧ Grows s.pool (s.move W fuel m).pool := by
  have call : ∀ r l, CallsGrow ({ s with calls := s.calls ++ [(r, PReq.prog W fuel r)], lent := l } : PSys ω) := by
    intro r l c hc
    rcases List.mem_append.1 hc with hc | hc
    · exact h c hc
    · rw [List.mem_singleton.1 hc]; exact grow_prog W fuel r
  match m with
  | .call (.reclaim c) =>
    simp only [PSys.move]
    split
    · exact ⟨call _ _, Grows.refl _⟩
    · exact ⟨h, Grows.refl _⟩
  | .call (.borrow w) => exact ⟨call _ _, Grows.refl _⟩
  | .call .start => exact ⟨call _ _, Grows.refl _⟩
  | .call .stop => exact ⟨call _ _, Grows.refl _⟩
  | .call .refresh => exact ⟨call _ _, Grows.refl _⟩
  | .step k =>
    simp only [PSys.move]
    split
    · exact ⟨h, Grows.refl _⟩
    · exact ⟨fun c hc => h c (List.mem_of_mem_eraseIdx hc), Grows.refl _⟩
    · rename_i r acc en g p hk
      split
      · have ha := h _ (List.mem_of_getElem? hk)
        refine ⟨fun c hc => ?_, ha.1 s.pool⟩
        rcases List.mem_or_eq_of_mem_set hc with hc | rfl
        · exact h c hc
        · exact ha.2 s.pool
      · exact ⟨h, Grows.refl _⟩

theorem moves_grows (fuel : Nat) : ∀ (ms : List PMove) {s : PSys ω}, CallsGrow s → CallsGrow (s.moves W fuel ms) ∧ Grows s.pool (s.moves W fuel ms).pool
  | [], _, h => ⟨h, Grows.refl _⟩
  | m :: ms, s, h => by
    obtain ⟨h1, h2⟩ := move_grows W fuel h m
    obtain ⟨h3, h4⟩ := moves_grows fuel ms h1
    exact ⟨h3, h2.trans h4⟩

/-- What a call must own when it returns. -/
def PReq.Post : PReq → PRet → Gh → Prop
  | .borrow w, r, g => ∃ x, g.toks = [x] ∧ r = some x.conn ∧ x.write = w
  | _, r, _ => r = none

/-- The calls in progress with their ghosts. -/
abbrev Owned (ω : Type) := List ((PReq × PProg (RPool ω) PRet) × Gh)

/-- The invariant: `xs` are the lent connections, `dead` what belonged to calls that have ended. -/
structure SysInv (st : Bool) (s : PSys ω) : Prop where
  inv : ∃ (xs : List Wrap) (L : Owned ω) (dead : List Gh), xs.map (·.conn) = s.lent ∧ L.map (·.1) = s.calls ∧
    PInv st s.pool ({ toks := xs } :: (L.map (·.2) ++ dead)) ∧ ∀ e ∈ L, PSafe st e.1.1.Post (fun _ => True) e.1.2 e.2
  returned : ∀ w c, (PReq.borrow w, CRes.ok (some c)) ∈ s.returned → ∃ str, PEv.created c.ref c.id str w ∈ s.pool.log

theorem safe_prog (fuel : Nat) (r : PReq) (h : ∀ c, r ≠ .reclaim c) (hst : st = true ∨ r ≠ .start) : PSafe st r.Post (fun _ => True) (r.prog W fuel) {} := by
  have post : ∀ (w : Bool) (c : ConnRef) (g : Gh), (g.mode = none ∧ ∃ x, g.toks = [x] ∧ x.conn = c ∧ x.write = w) → PReq.Post (.borrow w) (some c) g := by
    rintro w c g ⟨_, x, h1, h2, h3⟩
    exact ⟨x, h1, by rw [h2], h3⟩
  match r with
  | .borrow true => exact Safe.bind (post true) (Safe.mono (fun _ _ h => h) (fun _ _ => trivial) (safe_borrow W true fuel))
  | .borrow false => exact Safe.bind (post false) (Safe.mono (fun _ _ h => h) (fun _ _ => trivial) (safe_borrow W false fuel))
  | .reclaim c => exact absurd rfl (h c)
  | .start =>
    refine Safe.bind (fun _ _ _ => ?_) (Safe.mono (fun _ _ h => h) (fun _ _ => trivial) (safe_start W (hst.resolve_right (by simp))))
    exact rfl
  | .stop =>
    refine Safe.bind (fun _ _ _ => ?_) (Safe.mono (fun _ _ h => h) (fun _ _ => trivial) (safe_stop W fuel))
    exact rfl
  | .refresh =>
    refine Safe.bind (fun _ _ _ => ?_) (safe_refreshRound W fuel)
    exact rfl

theorem safe_progReclaim (fuel : Nat) (x : Wrap) : PSafe st (PReq.reclaim x.conn).Post (fun _ => True) ((PReq.reclaim x.conn).prog W fuel) { toks := [x] } := by
  refine Safe.bind (fun _ _ _ => ?_) (Safe.mono (fun _ _ h => h) (fun _ _ => trivial) (safe_reclaim W x))
  exact rfl

theorem map_erase_inj {α β : Type} [DecidableEq α] [DecidableEq β] {f : α → β} {x : α} :
    ∀ {xs : List α}, (xs.map f).Nodup → x ∈ xs → (xs.map f).erase (f x) = (xs.erase x).map f
  | y :: ys, hn, hx => by
    by_cases h : y = x
    · subst h; simp
    · have hne : f y ≠ f x := fun e => h (inj_of_nodup_map hn List.mem_cons_self hx e)
      have hx' : x ∈ ys := by
        rcases List.mem_cons.1 hx with e | e
        · exact absurd e.symm h
        · exact e
      rw [List.map_cons, List.erase_cons_tail (by simpa using hne), List.erase_cons_tail (by simpa using h), List.map_cons,
        map_erase_inj (List.nodup_cons.1 hn).2 hx']

theorem split_at {α : Type} : ∀ {l : List α} {k : Nat} {a : α}, l[k]? = some a →
    ∃ l₁ l₂, l = l₁ ++ a :: l₂ ∧ l.eraseIdx k = l₁ ++ l₂ ∧ ∀ b, l.set k b = l₁ ++ b :: l₂
  | x :: l, 0, a, h => by
    simp only [List.getElem?_cons_zero, Option.some.injEq] at h
    subst h
    exact ⟨[], l, rfl, rfl, fun _ => rfl⟩
  | x :: l, k + 1, a, h => by
    obtain ⟨l₁, l₂, h1, h2, h3⟩ := split_at (l := l) (k := k) (by simpa using h)
    exact ⟨x :: l₁, l₂, by rw [h1]; rfl, by rw [List.eraseIdx_cons_succ, h2]; rfl, fun b => by rw [List.set_cons_succ, h3]; rfl⟩

theorem eraseIdx_map' {α β : Type} (f : α → β) : ∀ (l : List α) (k : Nat), (l.map f).eraseIdx k = (l.eraseIdx k).map f
  | [], _ => rfl
  | _ :: _, 0 => rfl
  | x :: l, k + 1 => by simp only [List.map_cons, List.eraseIdx_cons_succ, eraseIdx_map' f l k]

theorem move_inv (fuel : Nat) {s : PSys ω} (hg : CallsGrow s) (m : PMove) (hst : st = true ∨ m ≠ .call .start) (hd : Distinct (s.move W fuel m).pool) (h : SysInv st s) : SysInv st (s.move W fuel m) := by
  obtain ⟨⟨xs, L, dead, hx, hL, hi, hs⟩, hr⟩ := h
  have call : ∀ r, (∀ c, r ≠ .reclaim c) → (st = true ∨ r ≠ .start) → SysInv st ({ s with calls := s.calls ++ [(r, PReq.prog W fuel r)] } : PSys ω) := by
    intro r hr' hst
    refine ⟨⟨xs, L ++ [((r, PReq.prog W fuel r), ({} : Gh))], dead, hx, by simp [hL], ?_, ?_⟩, hr⟩
    · refine (inv_begin hi).perm ?_
      refine List.Perm.trans (List.Perm.swap _ _ _) (List.Perm.cons _ ?_)
      simp only [List.map_append, List.map_cons, List.map_nil, List.append_assoc, List.cons_append, List.nil_append]
      exact List.perm_middle.symm
    · intro e he
      rcases List.mem_append.1 he with he | he
      · exact hs e he
      · rw [List.mem_singleton.1 he]; exact safe_prog W fuel r hr' hst
  match m with
  | .call (.reclaim c) =>
    simp only [PSys.move]
    split
    · rename_i hc
      rw [← hx] at hc
      obtain ⟨x, hxm, rfl⟩ := List.mem_map.1 hc
      have hperm : (xs.map (·.conn)).erase x.conn = (xs.erase x).map (·.conn) := by
        obtain ⟨q, l⟩ := hi.ledger
        have hnd := l.toksNodup
        rw [List.flatMap_cons, List.map_append] at hnd
        have hnd := (List.nodup_append.1 hnd).1
        refine map_erase_inj (f := Wrap.conn) ?_ hxm
        have h2 : ((xs.map (·.conn)).map (·.ref)).Nodup := by rw [List.map_map]; exact hnd
        exact List.Pairwise.of_map (·.ref) (fun a b h e => h (by rw [e])) h2
      refine ⟨⟨xs.erase x, L ++ [((.reclaim x.conn, PReq.prog W fuel (.reclaim x.conn)), { toks := [x] })], dead, ?_, by simp [hL], ?_, ?_⟩, hr⟩
      · rw [← hx, hperm]
      · have h1 := inv_hand (ta := [x]) (tb := xs.erase x) (by simpa using (List.perm_cons_erase hxm).symm) (inv_begin hi)
        refine h1.perm ?_
        refine List.Perm.trans (List.Perm.swap _ _ _) (List.Perm.cons _ ?_)
        simp only [List.map_append, List.map_cons, List.map_nil, List.append_assoc, List.cons_append, List.nil_append]
        exact List.perm_middle.symm
      · intro e he
        rcases List.mem_append.1 he with he | he
        · exact hs e he
        · rw [List.mem_singleton.1 he]; exact safe_progReclaim W fuel x
    · exact ⟨⟨xs, L, dead, hx, hL, hi, hs⟩, hr⟩
  | .call (.borrow w) => exact call _ (by simp) (.inr (by simp))
  | .call .start => exact call _ (by simp) (hst.imp id fun h => absurd rfl h)
  | .call .stop => exact call _ (by simp) (.inr (by simp))
  | .call .refresh => exact call _ (by simp) (.inr (by simp))
  | .step k =>
    simp only [PSys.move] at hd ⊢
    cases hk : s.calls[k]? with
    | none => exact ⟨⟨xs, L, dead, hx, hL, hi, hs⟩, hr⟩
    | some rp =>
      obtain ⟨r, p⟩ := rp
      have hk' := hk
      rw [← hL, List.getElem?_map, Option.map_eq_some_iff] at hk'
      obtain ⟨⟨rp, g⟩, hkL, rfl⟩ := hk'
      obtain ⟨L₁, L₂, h1, h2, h3⟩ := split_at hkL
      have hsafe : PSafe st r.Post (fun _ => True) p g := hs ((r, p), g) (by rw [h1]; simp)
      have hfront : (({ toks := xs } : Gh) :: (L.map (·.2) ++ dead)).Perm (g :: { toks := xs } :: ((L₁ ++ L₂).map (·.2) ++ dead)) := by
        refine List.Perm.trans (List.Perm.cons _ ?_) (List.Perm.swap _ _ _)
        rw [h1]
        simp only [List.map_append, List.map_cons, List.append_assoc, List.cons_append]
        exact List.perm_middle
      have hf := hi.perm hfront
      cases p with
      | done res =>
        have hL' : (L.eraseIdx k).map (·.1) = s.calls.eraseIdx k := by rw [← hL, eraseIdx_map']
        have hs' : ∀ e ∈ L.eraseIdx k, PSafe st e.1.1.Post (fun _ => True) e.1.2 e.2 := fun e he => hs e (List.mem_of_mem_eraseIdx he)
        have hback : ∀ (a g : Gh), (g :: a :: ((L₁ ++ L₂).map (·.2) ++ dead)).Perm (a :: ((L.eraseIdx k).map (·.2) ++ (g :: dead))) := by
          intro a g
          refine List.Perm.trans (List.Perm.swap _ _ _) (List.Perm.cons _ ?_)
          rw [h2]
          exact List.perm_middle.symm
        have others : lentBy res = [] → (∀ w c, ¬ (r = .borrow w ∧ res = .ok (some c))) → SysInv st
            { s with calls := s.calls.eraseIdx k, lent := s.lent ++ lentBy res, returned := s.returned ++ [(r, res)] } := by
          intro hl hno
          refine ⟨⟨xs, L.eraseIdx k, g :: dead, by rw [hl, List.append_nil]; exact hx, hL', hf.perm (hback _ _), hs'⟩, ?_⟩
          intro w c hm
          rcases List.mem_append.1 hm with hm | hm
          · exact hr w c hm
          · obtain ⟨e1, e2⟩ := Prod.mk.inj (List.mem_singleton.1 hm)
            exact absurd ⟨e1.symm, e2.symm⟩ (hno w c)
        match res with
        | .err e => exact others rfl (by simp)
        | .panic => exact others rfl (by simp)
        | .fuel => exact others rfl (by simp)
        | .ok none => exact others rfl (by simp)
        | .ok (some c) =>
          match r with
          | .reclaim _ => exact absurd hsafe (by simp [Safe, PReq.Post])
          | .start => exact absurd hsafe (by simp [Safe, PReq.Post])
          | .stop => exact absurd hsafe (by simp [Safe, PReq.Post])
          | .refresh => exact absurd hsafe (by simp [Safe, PReq.Post])
          | .borrow w =>
            obtain ⟨x, hgx, hcx, hw⟩ := hsafe
            cases hcx
            have hh := inv_hand (ta := []) (tb := xs ++ [x]) (by rw [hgx]; simpa using List.perm_append_singleton x xs) hf
            have hcre : ∃ str, PEv.created x.conn.ref x.conn.id str w ∈ s.pool.log := by
              obtain ⟨q, l⟩ := hf.ledger
              have hm := l.toks x (by simp [hgx])
              obtain ⟨e, he, rfl⟩ := List.mem_map.1 hm
              refine ⟨e.2.connStr, hw ▸ l.made e.2 ?_⟩
              simp only [allWraps, List.mem_append, List.mem_map]
              exact .inl (.inr ⟨e, he, rfl⟩)
            refine ⟨⟨xs ++ [x], L.eraseIdx k, { g with toks := [] } :: dead, by simp [hx, lentBy], hL', hh.perm (hback _ _), hs'⟩, ?_⟩
            intro w' c hm
            rcases List.mem_append.1 hm with hm | hm
            · exact hr w' c hm
            · obtain ⟨e1, e2⟩ := Prod.mk.inj (List.mem_singleton.1 hm)
              cases e1
              cases e2
              exact hcre
      | act acc en f k' =>
        rw [hk] at hd
        dsimp only at hd ⊢
        split
        · rename_i hen
          rw [if_pos hen] at hd
          obtain ⟨g', hi', hsafe'⟩ := hsafe s.pool _ hen hf hd
          refine ⟨⟨xs, L.set k ((r, k' s.pool), g'), dead, hx, ?_, hi'.perm ?_, ?_⟩, fun w c hm => ?_⟩
          · rw [← hL, List.map_set]
          · refine List.Perm.trans (List.Perm.swap _ _ _) (List.Perm.cons _ ?_)
            rw [h3]
            simp only [List.map_append, List.map_cons, List.append_assoc, List.cons_append]
            exact List.perm_middle.symm
          · intro e he
            rcases List.mem_or_eq_of_mem_set he with he | rfl
            · exact hs e he
            · exact hsafe'
          · obtain ⟨str, h⟩ := hr w c hm
            have hgr := (hg _ (List.mem_of_getElem? hk)).1 s.pool
            obtain ⟨evs, he⟩ := hgr.log
            refine ⟨str, ?_⟩
            show _ ∈ (f s.pool).log
            rw [he]
            exact List.mem_append_left _ h
        · exact ⟨⟨xs, L, dead, hx, hL, hi, hs⟩, hr⟩

theorem moves_inv (fuel : Nat) : ∀ (ms : List PMove) {s : PSys ω}, (st = true ∨ .call .start ∉ ms) → CallsGrow s → Distinct (s.moves W fuel ms).pool → SysInv st s → SysInv st (s.moves W fuel ms)
  | [], _, _, _, _, h => h
  | m :: ms, s, hst, hg, hd, h => by
    obtain ⟨h1, h2⟩ := move_grows W fuel hg m
    have hd' : Distinct (s.move W fuel m).pool := (moves_grows W fuel ms h1).2.distinct hd
    exact moves_inv fuel ms (hst.imp id fun h hm => h (List.mem_cons_of_mem _ hm)) h1 hd
      (move_inv W fuel hg m (hst.imp id fun h e => h (by rw [e]; exact List.mem_cons_self)) hd' h)

theorem run_grows {α : Type} : ∀ {p : PP ω α} {s : RPool ω}, GrowActs p → Grows s (p.run s).2
  | .done _, s, _ => Grows.refl s
  | .act _ en f k, s, h => by
    simp only [PProg.run]
    split
    · exact (h.1 s).trans (run_grows (h.2 s))
    · exact Grows.refl s

/-- A pool without connections satisfies the invariant; somebody may create as many as it wants. -/
theorem empty_inv {s : RPool ω} (hw : s.writer = false) (hr : s.readers = 0) (hq : ∀ w, s.queueOf w = []) (hb : s.borrowedConns = []) (hlog : s.log = [])
    (hm : ∀ w, s.lower w = 0) : PInv st s [{ perms := List.replicate (s.limit true) true ++ List.replicate (s.limit false) false }, {}] where
  writers := by simp [hw]
  readers := by simp [hr]
  excl h := by rw [hw] at h; cases h
  snapMode g hg w h := by
    simp only [List.mem_cons, List.not_mem_nil, or_false] at hg
    rcases hg with rfl | rfl <;> exact absurd rfl h
  refs := by simp [hlog, made]
  fresh e he := by simp [hlog, made] at he
  mins := hm
  ledger := ⟨fun _ => [], {
    sub := fun w => by rw [hq]; exact List.Sublist.refl _
    snap := fun g hg w => by
      simp only [List.mem_cons, List.not_mem_nil, or_false] at hg
      rcases hg with rfl | rfl <;> exact List.Sublist.refl _
    kind := fun _ _ h => absurd h List.not_mem_nil
    key := fun _ h => by rw [hb] at h; exact absurd h List.not_mem_nil
    nodup := by simp [allWraps, hb]
    made := fun x hx => by simp [allWraps, hb] at hx
    toks := fun x hx => by simp at hx
    toksNodup := by simp
    cap := fun _ w => by
      cases w <;> simp [allWraps, hb, List.count_append, List.count_replicate] }⟩

/-- A pool that was opened satisfies the invariant. -/
theorem open_inv {connStr : Bytes} {size : Int} {userPart tlsPart : Bytes} {w : ω} {pool : RPool ω}
    (h : openRoutingPool W connStr size userPart tlsPart w = .ok (.ok (), pool)) (hd : Distinct pool) :
    SysInv st (PSys.fresh pool) ∧ pool.totalConns = size ∧ ∀ v, pool.limit v = shareOf size v := by
  unfold openRoutingPool at h
  cases hn : newRoutingPool connStr size userPart tlsPart w with
  | error e => rw [hn] at h; cases h
  | ok s₀ =>
    rw [hn] at h
    simp only [Except.ok.injEq] at h
    obtain ⟨hrun, hw, hr, hq, hb, hlog, hm, ht⟩ : s₀.running = false ∧ s₀.writer = false ∧ s₀.readers = 0 ∧ (∀ w, s₀.queueOf w = []) ∧ s₀.borrowedConns = [] ∧
        s₀.log = [] ∧ (∀ w, s₀.lower w = 0) ∧ s₀.totalConns = size := by
      unfold newRoutingPool at hn
      split at hn
      · cases hn
      · split at hn
        · cases hn
        · simp only [Except.ok.injEq] at hn
          subst hn
          exact ⟨rfl, rfl, rfl, fun w => by cases w <;> rfl, rfl, rfl, fun w => by cases w <;> rfl, rfl⟩
    have hstart : (start W).run s₀ = (startRest W s₀.startHead.maxWriteIdle s₀.startHead.maxReadIdle).run s₀.startHead := by
      simp only [start, Bind.bind, PProg.bind, PProg.prim, PProg.run, hrun, if_true, Bool.false_eq_true, if_false]
    rw [hstart] at h
    have hhead : s₀.startHead.writer = s₀.writer ∧ s₀.startHead.readers = s₀.readers ∧ (∀ w, s₀.startHead.queueOf w = s₀.queueOf w) ∧
        s₀.startHead.borrowedConns = s₀.borrowedConns ∧ s₀.startHead.log = s₀.log ∧ ∀ w, s₀.startHead.lower w = s₀.lower w := by
      unfold RPool.startHead
      split <;> exact ⟨rfl, rfl, fun _ => rfl, rfl, rfl, fun _ => rfl⟩
    obtain ⟨h1, h2, h3, h4, h5, h6⟩ := hhead
    have hi := empty_inv (st := st) (s := s₀.startHead) (h1.trans hw) (h2.trans hr) (fun w => (h3 w).trans (hq w)) (h4.trans hb) (h5.trans hlog) (fun w => (h6 w).trans (hm w))
    have hgrow := grow_startRest W s₀.startHead.maxWriteIdle s₀.startHead.maxReadIdle
    have hpool : ((startRest W s₀.startHead.maxWriteIdle s₀.startHead.maxReadIdle).run s₀.startHead).2 = pool := by rw [h]
    obtain ⟨g', hi', hA⟩ := Safe.run (safe_startRest W _ _ rfl) (Acts.mono (fun _ _ h s hd => (h s).distinct hd) hgrow) hi (by rw [hpool]; exact hd)
    rw [hpool] at hi'
    have hg' := hA () (by rw [h])
    constructor
    · refine ⟨⟨[], [], [g'], rfl, rfl, ?_, fun _ h => absurd h List.not_mem_nil⟩, fun _ _ h => absurd h List.not_mem_nil⟩
      exact hi'.perm (List.Perm.swap _ _ _)
    · have hg := run_grows hgrow (s := s₀.startHead)
      rw [hpool] at hg
      have ht' : pool.totalConns = size := by
        rw [hg.total, ← ht]
        unfold RPool.startHead
        split <;> rfl
      refine ⟨ht', fun v => ?_⟩
      rcases hg.limit with hl | hl
      · rw [hl, startHead_limit, ht]
      · rw [hl, ht']

end
end Verif
