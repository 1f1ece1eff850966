/-
How often the loops of the routing pool are entered.
-/
import Verif.Proofs.PoolBlock
namespace Verif
open PProg

section
variable {ω : Type} {W : PWorld ω} {α β : Type} {c : Bool}

/-- The number of idle connections. -/
def RPool.idle (s : RPool ω) : Nat := (s.queueOf true).length + (s.queueOf false).length

/-- The program does not change the number of idle connections and does not loop; unless `c` it does not panic. -/
def Idles (c : Bool) : PP ω α → Prop
  | .done .fuel => False
  | .done .panic => c = true
  | .done _ => True
  | .act _ _ f k => (∀ s, (f s).idle = s.idle) ∧ ∀ s, Idles c (k s)

theorem Idles.bind {f : α → PP ω β} (hf : ∀ a, Idles c (f a)) : ∀ {p : PP ω α}, Idles c p → Idles c (PProg.bind p f)
  | .done (.ok a), _ => hf a
  | .done (.err _), _ => trivial
  | .done .panic, h => h
  | .done .fuel, h => h.elim
  | .act _ _ _ _, h => ⟨h.1, fun s => Idles.bind hf (h.2 s)⟩

theorem Idles.attempt : ∀ {p : PP ω Unit}, Idles c p → Idles c (PProg.attempt p)
  | .done (.ok _), _ => trivial
  | .done (.err _), _ => trivial
  | .done .panic, h => h
  | .done .fuel, h => h.elim
  | .act _ _ _ _, h => ⟨h.1, fun s => Idles.attempt (h.2 s)⟩

theorem Idles.ok {a : α} : Idles c (.done (.ok a) : PP ω α) := trivial

theorem Idles.prim {acc : List Access} {m : RPool ω → α × RPool ω} (h : ∀ s, (m s).2.idle = s.idle) : Idles c (PProg.prim acc m : PP ω α) := ⟨h, fun _ => trivial⟩

theorem idles_validate (x : ConnRef) : Idles c (pValidate W x) := Idles.prim fun _ => rfl
theorem idles_close (r : Nat) : Idles c (pClose W r) := Idles.prim fun _ => rfl
theorem idles_delHeld (id : Bytes) : Idles c (delHeld id : PP ω Unit) := Idles.prim fun _ => rfl

theorem idles_remove (x : Option Wrap) : Idles c (removeConn W x) := by
  cases x with
  | none => trivial
  | some x =>
    refine Idles.bind (fun ok => ?_) (idles_validate x.conn)
    split
    · exact idles_delHeld _
    · refine Idles.bind (fun r => ?_) (idles_close _)
      split
      · trivial
      · exact idles_delHeld _

theorem idles_new (w : Bool) (str : Bytes) : Idles c (newConnection W w str) := by
  refine Idles.bind (fun r => ?_) (Idles.prim fun s => ?_)
  · cases r with
    | error _ => trivial
    | ok x => exact Idles.bind (fun _ => Idles.ok) (Idles.prim fun _ => rfl)
  · generalize W.create s.world s.next str = c
    match c with
    | (_, some _) => rfl
    | (_, none) => rfl

theorem idles_refresh : Idles c (refreshConnections W) := by
  refine Idles.bind (fun r => ?_) (Idles.prim fun s => ?_)
  · cases r with
    | none => exact Idles.ok
    | some r => exact Idles.bind (fun _ => Idles.bind (fun _ => Idles.bind (fun _ => Idles.ok) (idles_close r)) (Idles.prim fun _ => rfl)) (Idles.prim fun _ => rfl)
  · generalize W.create s.world s.next s.leaderConnStr = c
    match c with
    | (_, some _) => rfl
    | (_, none) => rfl

/-- In states with `I`, the program takes connections out of the queues and puts connections into them.  It has a claim that it does not loop before it has taken out `n` connections, and
a permission to put in `m`; what is left of them at its end satisfies `R`. -/
def Costs (I : RPool ω → Prop) (R : CRes α → Nat → Nat → Prop) : Nat → Nat → PP ω α → Prop
  | n, m, .done r => R r n m
  | n, m, .act _ _ f k => ∀ s, I s → ∃ n' m', n ≤ n' + (s.idle - (f s).idle) ∧ m' + ((f s).idle - s.idle) ≤ m ∧ Costs I R n' m' (k s)

variable {I : RPool ω → Prop} {R : CRes α → Nat → Nat → Prop} {R' : CRes β → Nat → Nat → Prop}

theorem Costs.bind {f : α → PP ω β} (hf : ∀ a n m, R (.ok a) n m → Costs I R' n m (f a)) (he : ∀ e n m, R (.err e) n m → R' (.err e) n m) (hp : ∀ n m, R .panic n m → R' .panic n m)
    (hn : ∀ n m, R .fuel n m → R' .fuel n m) : ∀ {p : PP ω α} {n m : Nat}, Costs I R n m p → Costs I R' n m (PProg.bind p f)
  | .done (.ok a), n, m, h => hf a n m h
  | .done (.err e), n, m, h => he e n m h
  | .done .panic, n, m, h => hp n m h
  | .done .fuel, n, m, h => hn n m h
  | .act _ _ _ k, _, _, h => fun s hs =>
    let ⟨n', m', h1, h2, h3⟩ := h s hs
    ⟨n', m', h1, h2, Costs.bind hf he hp hn (p := k s) h3⟩

theorem Costs.mono {R' : CRes α → Nat → Nat → Prop} (h : ∀ r n m, R r n m → R' r n m) : ∀ {p : PP ω α} {n m : Nat}, Costs I R n m p → Costs I R' n m p
  | .done r, n, m, hp => h r n m hp
  | .act _ _ _ k, _, _, hp => fun s hs =>
    let ⟨n', m', h1, h2, h3⟩ := hp s hs
    ⟨n', m', h1, h2, Costs.mono h (p := k s) h3⟩

theorem Costs.map {g : α → β} (hf : ∀ a n m, R (.ok a) n m → R' (.ok (g a)) n m) (he : ∀ e n m, R (.err e) n m → R' (.err e) n m) (hp : ∀ n m, R .panic n m → R' .panic n m)
    (hn : ∀ n m, R .fuel n m → R' .fuel n m) {p : PP ω α} {n m : Nat} (h : Costs I R n m p) : Costs I R' n m (PProg.bind p fun a => .done (.ok (g a))) :=
  Costs.bind (R' := R') (f := fun a => .done (.ok (g a))) (fun a n m h => show R' _ n m from hf a n m h) he hp hn h

theorem Costs.idles {n m : Nat} (hR : ∀ r, r ≠ .fuel → (c = false → r ≠ .panic) → R r n m) : ∀ {p : PP ω α}, Idles c p → Costs I R n m p
  | .done (.ok a), _ => hR _ (by simp) (by simp)
  | .done (.err e), _ => hR _ (by simp) (by simp)
  | .done .panic, h => hR _ (by simp) (fun h' => by cases h.symm.trans h')
  | .done .fuel, h => h.elim
  | .act _ _ _ k, h => fun s _ => ⟨n, m, by omega, by have := h.1 s; omega, Costs.idles hR (p := k s) (h.2 s)⟩

theorem Costs.deferred {f : RPool ω → RPool ω} (hf : ∀ s, (f s).idle = s.idle) : ∀ {p : PP ω α} {n m : Nat}, Costs I R n m p → Costs I R n m (PProg.deferred f p)
  | .done r, n, m, h => fun s _ => ⟨n, m, by omega, by have := hf s; omega, h⟩
  | .act _ _ _ k, _, _, h => fun s hs =>
    let ⟨n', m', h1, h2, h3⟩ := h s hs
    ⟨n', m', h1, h2, Costs.deferred hf (p := k s) h3⟩

/-- One action that changes nothing in the queues, and then the rest. -/
theorem Costs.cons {acc : List Access} {en : RPool ω → Bool} {f : RPool ω → RPool ω} {k : RPool ω → PP ω α} {n m : Nat} (hf : ∀ s, (f s).idle = s.idle) (hk : ∀ s, I s → Costs I R n m (k s)) :
    Costs I R n m (.act acc en f k) := fun s hs => ⟨n, m, by omega, by have := hf s; omega, hk s hs⟩

theorem setQueue_idle (s : RPool ω) (w : Bool) (q : List Wrap) : (s.setQueue w q).idle + (s.queueOf w).length = s.idle + q.length := by
  cases w <;> simp only [RPool.idle, RPool.setQueue, RPool.queueOf, if_true, Bool.false_eq_true, if_false] <;> omega

/-- The loop of `Borrow…`. -/
theorem costs_internalBorrow (w : Bool) : ∀ (fuel n m : Nat), n ≤ fuel → Costs I (fun r n' _ => r = .fuel → n' = 0) n m (internalBorrow W w fuel)
  | 0, n, m, h => fun _ => by omega
  | fuel + 1, n, m, h => by
    intro s hs
    dsimp only
    cases hq : s.queueOf w with
    | nil => exact ⟨n, m, by dsimp only; omega, by dsimp only; omega, fun h => by cases h⟩
    | cons x q =>
      have hi := setQueue_idle s w q
      rw [hq, List.length_cons] at hi
      dsimp only
      have again : Costs I (fun r n' _ => r = .fuel → n' = 0) (n - 1) m (do removeConn W (some x); internalBorrow W w fuel : PP ω Wrap) :=
        Costs.bind (R := fun r n' _ => n' ≤ fuel ∧ r ≠ .fuel) (fun _ n' m' h' => costs_internalBorrow w fuel n' m' h'.1) (fun _ _ _ _ h => by cases h) (fun _ _ _ h => by cases h)
          (fun _ _ h => absurd rfl h.2) (Costs.idles (c := false) (fun r hr _ => ⟨by omega, hr⟩) (idles_remove _))
      refine ⟨n - 1, m, by omega, by omega, Costs.cons (fun _ => rfl) fun s _ => ?_⟩
      dsimp only [PProg.bind]
      split
      · exact again
      · refine Costs.cons (fun _ => rfl) fun s _ => ?_
        dsimp only [PProg.bind]
        split
        · exact Costs.idles (c := false) (fun r hr _ h => absurd h hr) (Idles.bind (fun _ => Idles.bind (fun _ => Idles.ok) (Idles.prim fun _ => rfl)) (idles_delHeld _))
        · exact again

/-- The loops of `Stop`. -/
theorem costs_drain (w : Bool) (F : Nat) : ∀ (fuel n m : Nat), n ≤ fuel → n ≤ F → Costs I (fun r n' _ => n' ≤ F ∧ (r = .fuel → n' = 0)) n m (drain W w fuel)
  | 0, n, m, h, hF => ⟨hF, fun _ => by omega⟩
  | fuel + 1, n, m, h, hF => by
    refine Costs.cons (fun _ => rfl) fun s _ => ?_
    dsimp only [PProg.bind]
    split
    · exact ⟨hF, fun h => by cases h⟩
    · intro s hs
      dsimp only
      cases hq : s.queueOf w with
      | nil => exact ⟨n, m, by dsimp only; omega, by dsimp only; omega, hF, fun h => by cases h⟩
      | cons x q =>
        have hi := setQueue_idle s w q
        rw [hq, List.length_cons] at hi
        refine ⟨n - 1, m, by dsimp only; omega, by dsimp only; omega, ?_⟩
        exact Costs.bind (R := fun r n' _ => n' ≤ fuel ∧ n' ≤ F ∧ r ≠ .fuel) (fun _ n' m' h' => costs_drain w F fuel n' m' h'.1 h'.2.1) (fun _ _ _ h => ⟨h.2.1, fun h => by cases h⟩) (fun _ _ h => ⟨h.2.1, fun h => by cases h⟩)
          (fun _ _ h => absurd rfl h.2.2) (Costs.idles (c := false) (fun r hr _ => ⟨by omega, by omega, hr⟩) (idles_remove _))

theorem costs_stop (fuel m : Nat) : Costs I (fun r n' _ => r = .fuel → n' = 0) fuel m (stop W fuel) := by
  refine Costs.cons (fun _ => rfl) fun s _ => ?_
  dsimp only [PProg.bind]
  split
  · refine Costs.cons (fun _ => rfl) fun s _ => ?_
    exact Costs.bind (fun _ n m h => Costs.mono (fun _ _ _ h => h.2) (costs_drain true fuel fuel n m h.1 h.1))
      (fun _ _ _ _ h => by cases h) (fun _ _ _ h => by cases h) (fun _ _ h _ => h.2 rfl) (costs_drain false fuel fuel fuel m (Nat.le_refl _) (Nat.le_refl _))
  · exact fun h => by cases h

theorem costs_enqueue (w : Bool) (x : Wrap) (n m : Nat) : Costs I (fun r _ _ => r ≠ .fuel) n (m + 1) (pEnqueue w x : PP ω Unit) := by
  intro s _
  have hi := setQueue_idle s w (s.queueOf w ++ [x])
  rw [List.length_append, List.length_singleton] at hi
  exact ⟨n, m, by dsimp only; omega, by dsimp only; omega, fun h => by cases h⟩

theorem costs_addWrite (n m : Nat) : Costs I (fun r _ _ => r ≠ .fuel) n (m + 1) (addWriteConn W) := by
  refine Costs.cons (fun s => by dsimp only; split <;> rfl) fun s _ => ?_
  dsimp only [PProg.bind]
  have make : ∀ str, Costs I (fun r _ _ => r ≠ .fuel) n (m + 1) (do let x ← newConnection W true str; pEnqueue true x : PP ω Unit) := fun str =>
    Costs.bind (R := fun r n' m' => n' = n ∧ m' = m + 1 ∧ r ≠ .fuel) (fun x n' m' h => by rw [h.1, h.2.1]; exact costs_enqueue true x n m) (fun _ _ _ _ => by simp) (fun _ _ _ => by simp)
      (fun _ _ h => absurd rfl h.2.2) (Costs.idles (c := false) (fun r hr _ => ⟨rfl, rfl, hr⟩) (idles_new _ _))
  split
  next e h =>
    split at h
    · cases h; exact fun h => by cases h
    · dsimp only at h
      split at h
      · cases h
      · cases h; exact fun h => by cases h
  next str h => exact make str

theorem costs_addRead (n m : Nat) : Costs I (fun r _ _ => r ≠ .fuel) n (m + 1) (addReadConn W) := by
  refine Costs.cons (fun s => by dsimp only; split <;> rfl) fun s _ => ?_
  dsimp only [PProg.bind]
  have make : ∀ str, Costs I (fun r _ _ => r ≠ .fuel) n (m + 1) (do let x ← newConnection W false str; pEnqueue false x : PP ω Unit) := fun str =>
    Costs.bind (R := fun r n' m' => n' = n ∧ m' = m + 1 ∧ r ≠ .fuel) (fun x n' m' h => by rw [h.1, h.2.1]; exact costs_enqueue false x n m) (fun _ _ _ _ => by simp) (fun _ _ _ => by simp)
      (fun _ _ h => absurd rfl h.2.2) (Costs.idles (c := false) (fun r hr _ => ⟨rfl, rfl, hr⟩) (idles_new _ _))
  split
  next e h =>
    split at h
    · cases h; exact fun h => by cases h
    · dsimp only at h
      split at h
      · cases h
      · cases h; exact fun h => by cases h
  next str h => exact make str

theorem costs_reclaim (x : ConnRef) (n m : Nat) : Costs I (fun r _ _ => r ≠ .fuel) n (m + 1) (reclaim W x) := by
  refine Costs.cons (fun _ => rfl) fun s _ => ?_
  refine Costs.deferred (f := unlock) (fun _ => rfl) ?_
  refine Costs.cons (fun _ => rfl) fun s _ => ?_
  dsimp only [PProg.bind]
  split
  · exact fun h => by cases h
  · refine Costs.cons (fun _ => rfl) fun s _ => ?_
    dsimp only [PProg.bind]
    split
    · refine Costs.cons (fun _ => rfl) fun s _ => ?_
      dsimp only [PProg.bind]
      split <;> exact fun h => by cases h
    · rename_i y _
      refine Costs.cons (fun _ => rfl) fun s _ => Costs.cons (fun _ => rfl) fun s _ => Costs.cons (fun _ => rfl) fun s _ => ?_
      dsimp only [PProg.bind]
      generalize (W.validate s.world y.conn.ref).2 = ok
      have hb : Costs I (fun r n' m' => n' = n ∧ m' = m + 1 ∧ r ≠ .fuel) n (m + 1) (if ok then pure none else (removeConn W (some y)).attempt : PP ω (Option Err)) := by
        split
        · exact ⟨rfl, rfl, by simp⟩
        · exact Costs.idles (c := false) (fun r hr _ => ⟨rfl, rfl, hr⟩) (idles_remove _).attempt
      refine Costs.bind (R := fun r n' m' => n' = n ∧ m' = m + 1 ∧ r ≠ .fuel) (fun bad n' m' h => ?_) (fun _ _ _ _ => by simp) (fun _ _ _ => by simp) (fun _ _ h => absurd rfl h.2.2) hb
      rw [h.1, h.2.1]
      cases bad with
      | some _ =>
        dsimp only
        split
        · exact costs_addWrite n m
        · exact costs_addRead n m
      | none => exact costs_enqueue _ _ n m

/-- The queues are within their limits: at most `N` idle connections; the minima are 0, and of each kind there are no more than the maximum `mx`, if that is not negative. -/
structure InBounds (mx : Bool → Int) (N : Nat) (s : RPool ω) : Prop where
  minW : s.minWriteIdle = 0
  minR : s.minReadIdle = 0
  maxW : s.maxWriteIdle = mx true
  maxR : s.maxReadIdle = mx false
  upper : ∀ w, mx w < 0 ∨ ((s.queueOf w).length : Int) ≤ mx w
  total : s.idle ≤ N

variable {mx : Bool → Int} {N : Nat}

theorem inBounds_compare {s : RPool ω} (hs : InBounds mx N s) (w : Bool) :
    ((if ((s.queueOf w).length : Int) < (if w then s.minWriteIdle else s.minReadIdle) then .lt
      else if ((s.queueOf w).length : Int) > (if w then s.maxWriteIdle else s.maxReadIdle) then .gt else .eq : Ordering)) =
    if mx w < 0 then .gt else .eq := by
  have h := hs.upper w
  rw [hs.minW, hs.minR, hs.maxW, hs.maxR]
  have h1 : (if w then mx true else mx false) = mx w := by cases w <;> rfl
  rw [h1, if_neg (by simp)]
  split <;> split <;> first | rfl | omega

/-- With a negative maximum the loop is not entered. -/
theorem costs_while (w : Bool) (lim : RPool ω → Int) (hlim : ∀ s, InBounds mx N s → lim s < 0) (step : PP ω Unit) (fuel n m : Nat) :
    Costs (InBounds mx N) (fun r _ _ => ∃ u, r = .ok u) n m (whileSize w lim step (fuel + 1)) := by
  refine Costs.cons (fun _ => rfl) fun s hs => ?_
  dsimp only [PProg.bind]
  have := hlim s hs
  rw [decide_eq_false (by omega)]
  exact ⟨(), rfl⟩

theorem costs_balance (fuel n m : Nat) : Costs (InBounds mx N) (fun r _ _ => ∃ u, r = .ok u) n m (balance W (fuel + 1)) := by
  have third : ∀ n m, Costs (InBounds mx N) (fun r _ _ => ∃ u, r = .ok u) n m (do
      match ← pCompare false with
      | .lt => whileSize false (·.minReadIdle) (addReadConn W) (fuel + 1)
      | .gt => whileSize false (·.maxReadIdle) (do removeConn W (← pDequeue false)) (fuel + 1)
      | .eq => pure () : PP ω Unit) := by
    intro n m
    refine Costs.cons (fun _ => rfl) fun s hs => ?_
    dsimp only [PProg.bind]
    rw [inBounds_compare hs false]
    split
    · rename_i h; split at h <;> cases h
    · refine costs_while _ _ (fun s hs => ?_) _ fuel n m
      rename_i h; split at h
      · rw [hs.maxR]; assumption
      · cases h
    · exact ⟨(), rfl⟩
  have second : ∀ n m, Costs (InBounds mx N) (fun r _ _ => ∃ u, r = .ok u) n m (do
      match ← pCompare true with
      | .lt => whileSize true (·.minWriteIdle) (addWriteConn W) (fuel + 1)
      | .gt => whileSize true (·.maxWriteIdle) (do removeConn W (← pDequeue true)) (fuel + 1)
      | .eq => pure ()
      match ← pCompare false with
      | .lt => whileSize false (·.minReadIdle) (addReadConn W) (fuel + 1)
      | .gt => whileSize false (·.maxReadIdle) (do removeConn W (← pDequeue false)) (fuel + 1)
      | .eq => pure () : PP ω Unit) := by
    intro n m
    refine Costs.cons (fun _ => rfl) fun s hs => ?_
    dsimp only [PProg.bind]
    rw [inBounds_compare hs true]
    split
    · rename_i h; split at h <;> cases h
    · refine Costs.bind (fun _ n m _ => third n m) (fun _ _ _ h => by obtain ⟨_, h⟩ := h; cases h) (fun _ _ h => by obtain ⟨_, h⟩ := h; cases h) (fun _ _ h => by obtain ⟨_, h⟩ := h; cases h)
        (costs_while _ _ (fun s hs => ?_) _ fuel n m)
      rename_i h; split at h
      · rw [hs.maxW]; assumption
      · cases h
    · exact third n m
  refine Costs.cons (fun _ => rfl) fun s hs => ?_
  dsimp only [PProg.bind]
  rw [inBounds_compare hs false]
  split
  · rename_i h; split at h <;> cases h
  · exact second n m

theorem idles_pruneReads : ∀ xs reads, Idles c (pruneReads W xs reads)
  | [], _ => Idles.ok
  | x :: xs, reads => by
    refine Idles.bind (fun m => ?_) (Idles.prim fun _ => rfl)
    split
    · exact Idles.bind (fun _ => idles_pruneReads xs _) (idles_close _)
    · exact idles_pruneReads xs _

theorem idles_pruneWrites : ∀ xs writes, Idles c (pruneWrites W xs writes)
  | [], _ => Idles.ok
  | x :: xs, writes => by
    refine Idles.bind (fun m => ?_) (Idles.prim fun _ => rfl)
    split
    · exact Idles.bind (fun _ => idles_pruneWrites xs _) (idles_remove _).attempt
    · exact idles_pruneWrites xs _

/-- The result of a program, whatever states it finds. -/
def Yields (Q : α → Prop) : PP ω α → Prop
  | .done (.ok a) => Q a
  | .done _ => True
  | .act _ _ _ k => ∀ s, Yields Q (k s)

theorem Yields.bind {Q : β → Prop} {f : α → PP ω β} (hf : ∀ a, Yields Q (f a)) : ∀ (p : PP ω α), Yields Q (PProg.bind p f)
  | .done (.ok a) => hf a
  | .done (.err _) => trivial
  | .done .panic => trivial
  | .done .fuel => trivial
  | .act _ _ _ k => fun s => Yields.bind hf (k s)

theorem yields_pruneReads : ∀ xs reads, Yields (fun l => l.length ≤ reads.length + xs.length) (pruneReads W xs reads)
  | [], _ => Nat.le_refl _
  | x :: xs, reads => by
    refine Yields.bind (fun m => ?_) _
    have mono : ∀ {n n' : Nat} {p : PP ω (List Wrap)}, n ≤ n' → Yields (fun l => l.length ≤ n) p → Yields (fun l => l.length ≤ n') p := by
      intro n n' p hn
      induction p with
      | done r => cases r <;> first | exact fun h => Nat.le_trans h hn | exact fun _ => trivial
      | act _ _ _ k ih => exact fun h s => ih s (h s)
    split
    · exact Yields.bind (fun _ => mono (by simp only [List.length_cons]; omega) (yields_pruneReads xs reads)) _
    · exact mono (by simp only [List.length_cons, List.length_append, List.length_nil]; omega) (yields_pruneReads xs (reads ++ [x]))

theorem yields_pruneWrites : ∀ xs writes, Yields (fun l => l.length ≤ writes.length + xs.length) (pruneWrites W xs writes)
  | [], _ => Nat.le_refl _
  | x :: xs, writes => by
    refine Yields.bind (fun m => ?_) _
    have mono : ∀ {n n' : Nat} {p : PP ω (List Wrap)}, n ≤ n' → Yields (fun l => l.length ≤ n) p → Yields (fun l => l.length ≤ n') p := by
      intro n n' p hn
      induction p with
      | done r => cases r <;> first | exact fun h => Nat.le_trans h hn | exact fun _ => trivial
      | act _ _ _ k ih => exact fun h s => ih s (h s)
    split
    · exact Yields.bind (fun _ => mono (by simp only [List.length_cons]; omega) (yields_pruneWrites xs writes)) _
    · exact mono (by simp only [List.length_cons, List.length_append, List.length_nil]; omega) (yields_pruneWrites xs (writes ++ [x]))

theorem Costs.yields {Q : α → Prop} {n m : Nat} (hR : ∀ r, r ≠ .fuel → r ≠ .panic → (∀ a, r = .ok a → Q a) → R r n m) : ∀ {p : PP ω α}, Idles false p → Yields Q p → Costs I R n m p
  | .done (.ok a), _, h => hR _ (by simp) (by simp) fun _ e => by cases e; exact h
  | .done (.err e), _, _ => hR _ (by simp) (by simp) fun _ e => by cases e
  | .done .panic, h, _ => by cases h
  | .done .fuel, h, _ => h.elim
  | .act _ _ _ k, h, h' => fun s _ => ⟨n, m, by omega, by have := h.1 s; omega, Costs.yields hR (p := k s) (h.2 s) (h' s)⟩

theorem costs_setQueue (w : Bool) (q : List Wrap) (n m : Nat) (h : q.length ≤ m) : Costs I (fun r _ m' => m ≤ m' + q.length ∧ ∃ u, r = .ok u) n m (pSetQueue w q : PP ω Unit) := by
  intro s _
  have hi := setQueue_idle s w q
  exact ⟨n, m - q.length, by dsimp only; omega, by dsimp only; omega, by omega, (), rfl⟩

/-- Pruning puts back at most what it has found. -/
theorem costs_prune (n m : Nat) (hm : 2 * N ≤ m) : Costs (InBounds mx N) (fun r _ _ => r ≠ .fuel ∧ r ≠ .panic) n m (prune W) := by
  have bad : ∀ {β : Type} {r : CRes β}, (∃ u, r = .ok u) → r ≠ .fuel ∧ r ≠ .panic := by rintro β _ ⟨_, rfl⟩; exact ⟨by simp, by simp⟩
  refine Costs.cons (fun _ => rfl) fun s hs => ?_
  have h1 : (s.queueOf false).length ≤ N := by have := hs.total; unfold RPool.idle at this; omega
  refine Costs.bind (R := fun r n' m' => n' = n ∧ m' = m ∧ r ≠ .fuel ∧ r ≠ .panic ∧ ∀ l, r = .ok l → l.length ≤ N) (p := pruneReads W (s.queueOf false) []) (fun reads n' m' h => ?_) (fun _ _ _ h => ⟨by simp, by simp⟩) (fun _ _ h => absurd rfl h.2.2.2.1)
    (fun _ _ h => absurd rfl h.2.2.1) (Costs.yields (fun r hr hp ha => ⟨rfl, rfl, hr, hp, fun l e => ?_⟩) (idles_pruneReads _ _) (yields_pruneReads _ _))
  · rw [h.1, h.2.1]
    have hreads := h.2.2.2.2 _ rfl
    refine Costs.cons (fun _ => rfl) fun s hs => ?_
    have h2 : (s.queueOf true).length ≤ N := by have := hs.total; unfold RPool.idle at this; omega
    refine Costs.bind (R := fun r n' m' => n' = n ∧ m' = m ∧ r ≠ .fuel ∧ r ≠ .panic ∧ ∀ l, r = .ok l → l.length ≤ N) (p := pruneWrites W (s.queueOf true) []) (fun writes n' m' h => ?_) (fun _ _ _ h => ⟨by simp, by simp⟩) (fun _ _ h => absurd rfl h.2.2.2.1)
      (fun _ _ h => absurd rfl h.2.2.1) (Costs.yields (fun r hr hp ha => ⟨rfl, rfl, hr, hp, fun l e => ?_⟩) (idles_pruneWrites _ _) (yields_pruneWrites _ _))
    · rw [h.1, h.2.1]
      have hwrites := h.2.2.2.2 _ rfl
      exact Costs.bind (fun _ n' m' h => Costs.mono (fun _ _ _ h => bad h.2) (costs_setQueue false reads n' m' (by omega))) (fun _ _ _ h => bad h.2) (fun _ _ h => bad h.2) (fun _ _ h => bad h.2)
        (costs_setQueue true writes n m (by omega))
    · have := ha l e
      simp only [List.length_nil] at this
      omega
  · have := ha l e
    simp only [List.length_nil] at this
    omega

theorem costs_refreshRound (fuel n m : Nat) (hm : 2 * N ≤ m) : Costs (InBounds mx N) (fun r _ _ => r ≠ .fuel ∧ r ≠ .panic) n m (refreshRound W (fuel + 1)) := by
  have err : ∀ {e : Err}, (CRes.err e : CRes Unit) ≠ .fuel ∧ (CRes.err e : CRes Unit) ≠ .panic := ⟨by simp, by simp⟩
  refine Costs.cons (fun _ => rfl) fun s _ => ?_
  refine Costs.bind (R := fun r n' m' => m' = m ∧ r ≠ .fuel ∧ r ≠ .panic) (p := refreshConnections W) (fun _ n' m' h => ?_) (fun _ _ _ _ => err) (fun _ _ h => absurd rfl h.2.2) (fun _ _ h => absurd rfl h.2.1)
    (Costs.idles (c := false) (fun r hr hp => ⟨rfl, hr, hp rfl⟩) idles_refresh)
  rw [h.1]
  refine Costs.bind (R := fun r n' m' => r ≠ .fuel ∧ r ≠ .panic) (fun _ n' m' h => ?_) (fun _ _ _ _ => err) (fun _ _ h => absurd rfl h.2) (fun _ _ h => absurd rfl h.1) (costs_prune n' m hm)
  refine Costs.bind (fun _ n' m' h => ?_) (fun _ _ _ _ => err) (fun _ _ h => by obtain ⟨_, h⟩ := h; cases h) (fun _ _ h => by obtain ⟨_, h⟩ := h; cases h) (costs_balance fuel n' m')
  exact Costs.cons (fun _ => rfl) fun s _ => ⟨by simp, by simp⟩

/-- All calls but `Start`: no loop is entered more often than connections can be taken out of the queues, and the refresh does not panic. -/
theorem costs_prog (fuel : Nat) (r : PReq) (hr : r ≠ .start) :
    Costs (InBounds mx N) (fun res n _ => (res = .fuel → n = 0) ∧ (r = .refresh → res ≠ .panic)) (fuel + 1) (2 * N + 1) (r.prog W (fuel + 1)) := by
  have borrow : ∀ w, Costs (InBounds mx N) (fun res n _ => (res = .fuel → n = 0) ∧ (PReq.borrow w = .refresh → res ≠ .panic)) (fuel + 1) (2 * N + 1)
      (do return some (← (do rlock; PProg.deferred runlock (do let x ← internalBorrow W w (fuel + 1); pure x.conn) : PP ω ConnRef)) : PProg (RPool ω) PRet) := by
    intro w
    refine Costs.cons (fun _ => rfl) fun s _ => ?_
    refine Costs.map (R := fun r n _ => r = .fuel → n = 0) (p := PProg.deferred runlock (do let x ← internalBorrow W w (fuel + 1); pure x.conn)) (fun _ _ _ _ => ⟨(fun h => by cases h), fun h => by cases h⟩) (fun _ _ _ _ => ⟨(fun h => by cases h), fun h => by cases h⟩)
      (fun _ _ _ => ⟨(fun h => by cases h), fun h => by cases h⟩) (fun _ _ h => ⟨fun _ => h rfl, fun h => by cases h⟩) (Costs.deferred (f := runlock) (fun _ => rfl) ?_)
    exact Costs.map (R := fun r n _ => r = .fuel → n = 0) (fun _ _ _ _ h => by cases h) (fun _ _ _ _ h => by cases h) (fun _ _ _ h => by cases h) (fun _ _ h _ => h rfl)
      (costs_internalBorrow w (fuel + 1) (fuel + 1) _ (Nat.le_refl _))
  match r, hr with
  | .borrow true, _ => exact borrow true
  | .borrow false, _ => exact borrow false
  | .reclaim x, _ =>
    exact Costs.map (R := fun r _ _ => r ≠ .fuel) (fun _ _ _ _ => ⟨(fun h => by cases h), fun h => by cases h⟩) (fun _ _ _ _ => ⟨(fun h => by cases h), fun h => by cases h⟩)
      (fun _ _ _ => ⟨(fun h => by cases h), fun h => by cases h⟩) (fun _ _ h => absurd rfl h) (costs_reclaim x _ _)
  | .stop, _ =>
    exact Costs.map (R := fun r n _ => r = .fuel → n = 0) (fun _ _ _ _ => ⟨(fun h => by cases h), fun h => by cases h⟩) (fun _ _ _ _ => ⟨(fun h => by cases h), fun h => by cases h⟩)
      (fun _ _ _ => ⟨(fun h => by cases h), fun h => by cases h⟩) (fun _ _ h => ⟨fun _ => h rfl, fun h => by cases h⟩) (costs_stop _ _)
  | .refresh, _ =>
    exact Costs.map (R := fun r _ _ => r ≠ .fuel ∧ r ≠ .panic) (fun _ _ _ _ => ⟨(fun h => by cases h), fun _ => by simp⟩) (fun _ _ _ _ => ⟨(fun h => by cases h), fun _ => by simp⟩)
      (fun _ _ h => absurd rfl h.2) (fun _ _ h => absurd rfl h.1) (costs_refreshRound fuel _ _ (by omega))

end
end Verif
