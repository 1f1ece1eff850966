/-
C66: how the routing pool picks addresses.
-/
import Verif.Proofs.PoolIndex
import Verif.Props.C58
namespace Verif
open PProg

namespace Spec

/-- The number of connections made with a connection string, for writing or for reading. -/
def connections (log : List PEv) (w : Bool) (str : Bytes) : Nat := (log.filter fun
  | .created _ _ str' w' => str' = str ∧ w' = w
  | _ => false).length

end Spec

section
variable {ω : Type} {W : PWorld ω}

theorem connections_eq (log : List PEv) (w : Bool) (str : Bytes) : Spec.connections log w str = connsTo log w str := by
  unfold Spec.connections connsTo
  rw [List.countP_eq_length_filter]
  congr 1
  apply List.filter_congr
  intro e _
  cases e with
  | created _ _ str' w' => simp only [Bool.decide_and, Bool.beq_eq_decide_eq]
  | _ => rfl

/-- **C66**, choosing an address: as long as the index is in range, adding a connection does not panic and uses the next address of the list, beginning again at its end.
Missing: lists that have become shorter than the index (`C66_refuted`). -/
theorem C66_next_partial (W : PWorld ω) (w : Bool) (s : RPool ω) (strs : List Bytes) (i : Nat) (hstrs : strs = if w then s.rwStrings else s.readStrings)
    (hi : i = if w then s.rwIndex else s.readIndex) (h : i < strs.length) :
    ∃ r s' str, (if w then addWriteConn W else addReadConn W).run s = (r, s') ∧ r ≠ .panic ∧ strs[(i + 1) % strs.length]? = some str ∧
      (if w then s'.rwIndex else s'.readIndex) = (i + 1) % strs.length ∧
      ((r ≠ .ok () ∧ s'.log = s.log) ∨ ∃ id, r = .ok () ∧ s'.log = s.log ++ [.created s.next id str w]) := by
  have hs : s.strings w = strs := by rw [hstrs]; rfl
  have hx : s.index w = i := by rw [hi]; rfl
  have hn : s.nextIndex w = (i + 1) % strs.length := by
    unfold RPool.nextIndex
    rw [hs, hx]
    split
    · rename_i he; rw [he, Nat.mod_self]
    · rw [Nat.mod_eq_of_lt (by omega)]
  have hlt : s.nextIndex w < (s.strings w).length := by rw [hn, hs]; exact Nat.mod_lt _ (by omega)
  obtain ⟨r, s', h1, h2, h3, h4, h5⟩ := addConn_run (W := W) w s (by rw [hs]; intro he; rw [he] at h; exact absurd h (Nat.not_lt_zero _)) hlt
  refine ⟨r, s', (s.strings w)[s.nextIndex w], h1, ?_, ?_, ?_, ?_⟩
  · rcases h5 with ⟨e, he, _⟩ | ⟨_, he, _⟩ <;> rw [he] <;> simp
  · rw [← hn, ← hs, List.getElem?_eq_getElem hlt]
  · rw [← hn, ← h2]; rfl
  · rcases h5 with ⟨e, he, _, hl⟩ | ⟨_, he, id, hl⟩
    · exact .inl ⟨by rw [he]; simp, hl⟩
    · exact .inr ⟨id, he, hl⟩

/-- The list for a kind after opening, and how often its strings have been used. -/
theorem open_even {connStr : Bytes} {size : Int} {user tls : Bytes} {w : ω} {pool : RPool ω} (h : openRoutingPool W connStr size user tls w = .ok (.ok (), pool)) : ∀ v, Even v pool := by
  unfold openRoutingPool at h
  cases hn : newRoutingPool connStr size user tls w with
  | error e => rw [hn] at h; cases h
  | ok s₀ =>
    rw [hn] at h
    simp only [Except.ok.injEq] at h
    obtain ⟨hrun, hs₀, hi₀, hl₀⟩ : s₀.running = false ∧ (∀ v, s₀.strings v = []) ∧ (∀ v, s₀.index v = 0) ∧ s₀.log = [] := by
      unfold newRoutingPool at hn
      split at hn
      · cases hn
      · split at hn
        · cases hn
        · simp only [Except.ok.injEq] at hn
          subst hn
          exact ⟨rfl, fun v => by cases v <;> rfl, fun v => by cases v <;> rfl, rfl⟩
    have hstart : (start W).run s₀ = (startRest W s₀.startHead.maxWriteIdle s₀.startHead.maxReadIdle).run s₀.startHead := by
      simp only [start, Bind.bind, PProg.bind, PProg.prim, PProg.run, hrun, if_true, Bool.false_eq_true, if_false]
    rw [hstart] at h
    obtain ⟨hs₁, hi₁, hl₁⟩ : (∀ v, s₀.startHead.strings v = []) ∧ (∀ v, s₀.startHead.index v = 0) ∧ s₀.startHead.log = [] := by
      unfold RPool.startHead
      split <;> exact ⟨hs₀, hi₀, hl₀⟩
    generalize s₀.startHead = s₁ at *
    obtain ⟨_, s₂, h1, h2⟩ := run_bind_inv h
    obtain ⟨_, s₃, h3, h4⟩ := run_bind_inv h2
    have h3 : (times s₁.maxWriteIdle.toNat (addConn W true)).run s₂ = (.ok (), s₃) := h3
    have h4 : (times s₁.maxReadIdle.toNat (addConn W false)).run s₃ = (.ok (), pool) := h4
    have he : ∀ v, Even v s₂ := by
      have key : (∀ v, (s₂.strings v).Nodup) ∧ (∀ v, s₂.index v = 0) ∧ ∀ v str, connsTo s₂.log v str = 0 := by
        unfold refreshConnections at h1
        generalize hc : W.create s₁.world s₁.next s₁.leaderConnStr = c at h1
        match c with
        | (u, some e) =>
          simp only [Bind.bind, PProg.bind, PProg.prim, PProg.run, hc, if_true, Pure.pure, Prod.mk.injEq] at h1
          obtain ⟨_, rfl⟩ := h1
          exact ⟨fun v => (hs₁ v).symm ▸ (List.nodup_nil : ([] : List Bytes).Nodup), hi₁, fun v str => by simp only [hl₁]; rfl⟩
        | (u, none) =>
          simp only [Bind.bind, PProg.bind, PProg.prim, PProg.run, hc, if_true, Pure.pure, Prod.mk.injEq, pClose] at h1
          obtain ⟨_, rfl⟩ := h1
          refine ⟨fun v => ?_, hi₁, fun v str => ?_⟩
          · cases v with
            | true =>
              have : s₁.rwStrings = [] := hs₁ true
              exact nodup_addNew _ _ _ _ (by rw [this]; exact List.nodup_nil)
            | false =>
              have : s₁.readStrings = [] := hs₁ false
              exact nodup_addNew _ _ _ _ (by rw [this]; exact List.nodup_nil)
          · simp only [hl₁, RPool.takeStrings]
            rfl
      intro v
      refine ⟨key.1 v, by rw [key.2.1]; exact Nat.zero_le _, 0, fun j hj => ?_⟩
      rw [key.2.2, key.2.1, if_neg (by omega)]
    exact (even_times false _ (even_times true _ he h3).1 h4).1

/-- **C66**, opening: of two leaders (or of two other members) neither is given more than one connection more than the other. -/
theorem C66_even {connStr : Bytes} {size : Int} {user tls : Bytes} {w : ω} {pool : RPool ω} (h : openRoutingPool W connStr size user tls w = .ok (.ok (), pool))
    {ms : List (Option (Spec.Role × NodeConfig))} (hms : Spec.Members pool.log ms) {role role' : Spec.Role} {n n' : NodeConfig} (hn : some (role, n) ∈ ms) (hn' : some (role', n') ∈ ms)
    (write : Bool) (hr : write = true ↔ role = .leader) (hr' : write = true ↔ role' = .leader) {str str' : Bytes}
    (hc : Spec.Carries user tls n.boltString str) (hc' : Spec.Carries user tls n'.boltString str') :
    Spec.connections pool.log write str ≤ Spec.connections pool.log write str' + 1 := by
  have hi := open_members h
  have mem : ∀ {role n str}, some (role, n) ∈ ms → (write = true ↔ role = .leader) → Spec.Carries user tls n.boltString str → str ∈ pool.strings write := by
    intro role n str hn hr hc
    rw [carries_iff.1 hc]
    refine hi.all (fun _ h => absurd h List.not_mem_nil) write _ ?_
    rw [hi.handler, members_cluster hms]
    exact addrs_cluster_iff.2 ⟨role, n, hn, hr, rfl⟩
  obtain ⟨q, hq⟩ := (open_even h write).level
  obtain ⟨j, hj, hjs⟩ := List.getElem_of_mem (mem hn hr hc)
  obtain ⟨j', hj', hjs'⟩ := List.getElem_of_mem (mem hn' hr' hc')
  have h1 := hq j hj
  have h2 := hq j' hj'
  rw [hjs] at h1
  rw [hjs'] at h2
  rw [connections_eq, connections_eq, h1, h2]
  split <;> split <;> omega

/-- While the indices are in range, the program does not panic. -/
def Calm {α : Type} : PP ω α → Prop
  | .done r => r ≠ .panic
  | .act _ _ _ k => ∀ s, IndexOk s → Calm (k s)

theorem Calm.bind {α β : Type} {f : α → PP ω β} (hf : ∀ a, Calm (f a)) : ∀ {p : PP ω α}, Calm p → Calm (PProg.bind p f)
  | .done (.ok a), _ => hf a
  | .done (.err _), _ => by simp [PProg.bind, Calm]
  | .done .panic, h => absurd rfl h
  | .done .fuel, _ => by simp [PProg.bind, Calm]
  | .act _ _ _ _, h => fun s hs => Calm.bind hf (h s hs)

theorem Calm.attempt : ∀ {p : PP ω Unit}, Calm p → Calm (PProg.attempt p)
  | .done (.ok _), _ => by simp [PProg.attempt, Calm]
  | .done (.err _), _ => by simp [PProg.attempt, Calm]
  | .done .panic, h => absurd rfl h
  | .done .fuel, _ => by simp [PProg.attempt, Calm]
  | .act _ _ _ _, h => fun s hs => Calm.attempt (h s hs)

theorem Calm.deferred {α : Type} {f : RPool ω → RPool ω} : ∀ {p : PP ω α}, Calm p → Calm (PProg.deferred f p)
  | .done _, h => fun _ _ => h
  | .act _ _ _ _, h => fun s hs => Calm.deferred (h s hs)

theorem Calm.prim {α : Type} {acc : List Access} {m : RPool ω → α × RPool ω} : Calm (.prim acc m) := fun s _ => by simp [Calm]

theorem Calm.pure {α : Type} {a : α} : Calm (.done (.ok a) : PP ω α) := by simp [Calm]

theorem Calm.fail {α : Type} {e : Err} : Calm (.done (.err e) : PP ω α) := by simp [Calm]

theorem Calm.fuel {α : Type} : Calm (.done .fuel : PP ω α) := by simp [Calm]

theorem calm_remove (x : Option Wrap) : Calm (removeConn W x) := by
  cases x with
  | none => exact Calm.fail
  | some x =>
    refine Calm.bind (fun ok => ?_) Calm.prim
    split
    · exact Calm.prim
    · refine Calm.bind (fun r => ?_) Calm.prim
      split
      · exact Calm.fail
      · exact Calm.prim

theorem calm_new (w : Bool) (str : Bytes) : Calm (newConnection W w str) := by
  refine Calm.bind (fun r => ?_) Calm.prim
  cases r with
  | error _ => exact Calm.fail
  | ok x => exact Calm.bind (fun _ => Calm.pure) Calm.prim

theorem calm_addWrite : Calm (addWriteConn W) := by
  intro s hs
  dsimp only
  by_cases h : s.rwStrings = []
  · rw [if_pos h]; exact Calm.fail
  · rw [if_neg h]
    have hlt : (if s.rwIndex + 1 = s.rwStrings.length then 0 else s.rwIndex + 1) < s.rwStrings.length := next_lt hs (w := true) h
    simp only [List.getElem?_eq_getElem hlt]
    exact Calm.bind (fun _ => Calm.prim) (calm_new _ _)

theorem calm_addRead : Calm (addReadConn W) := by
  intro s hs
  dsimp only
  by_cases h : s.readStrings = []
  · rw [if_pos h]; exact Calm.fail
  · rw [if_neg h]
    have hlt : (if s.readIndex + 1 = s.readStrings.length then 0 else s.readIndex + 1) < s.readStrings.length := next_lt hs (w := false) h
    simp only [List.getElem?_eq_getElem hlt]
    exact Calm.bind (fun _ => Calm.prim) (calm_new _ _)

theorem calm_refresh : Calm (refreshConnections W) := by
  refine Calm.bind (fun r => ?_) Calm.prim
  cases r with
  | none => exact Calm.pure
  | some r => exact Calm.bind (fun _ => Calm.bind (fun _ => Calm.bind (fun _ => Calm.pure) Calm.prim) Calm.prim) Calm.prim

theorem calm_pruneReads : ∀ xs reads, Calm (pruneReads W xs reads)
  | [], _ => Calm.pure
  | x :: xs, reads => by
    refine Calm.bind (fun m => ?_) Calm.prim
    split
    · exact Calm.bind (fun _ => calm_pruneReads xs _) Calm.prim
    · exact calm_pruneReads xs _

theorem calm_pruneWrites : ∀ xs writes, Calm (pruneWrites W xs writes)
  | [], _ => Calm.pure
  | x :: xs, writes => by
    refine Calm.bind (fun m => ?_) Calm.prim
    split
    · exact Calm.bind (fun _ => calm_pruneWrites xs _) (calm_remove _).attempt
    · exact calm_pruneWrites xs _

theorem calm_prune : Calm (prune W) :=
  Calm.bind (fun _ => Calm.bind (fun _ => Calm.bind (fun _ => Calm.bind (fun _ => Calm.bind (fun _ => Calm.prim) Calm.prim) (calm_pruneWrites _ _)) Calm.prim) (calm_pruneReads _ _)) Calm.prim

theorem calm_whileSize (w : Bool) (n : RPool ω → Int) {step : PP ω Unit} (hs : Calm step) : ∀ fuel, Calm (whileSize w n step fuel)
  | 0 => Calm.fuel
  | fuel + 1 => by
    refine Calm.bind (fun go => ?_) Calm.prim
    split
    · exact Calm.bind (fun _ => calm_whileSize w n hs fuel) hs.attempt
    · exact Calm.pure

theorem calm_takeOut (w : Bool) : Calm (do removeConn W (← pDequeue w) : PP ω Unit) := Calm.bind (fun _ => calm_remove _) Calm.prim

theorem calm_balance (fuel : Nat) : Calm (balance W fuel) := by
  have third : Calm (do
      match ← pCompare false with
      | .lt => whileSize false (·.minReadIdle) (addReadConn W) fuel
      | .gt => whileSize false (·.maxReadIdle) (do removeConn W (← pDequeue false)) fuel
      | .eq => pure () : PP ω Unit) := by
    refine Calm.bind (fun o => ?_) Calm.prim
    cases o with
    | lt => exact calm_whileSize _ _ calm_addRead fuel
    | gt => exact calm_whileSize _ _ (calm_takeOut false) fuel
    | eq => exact Calm.pure
  have second : Calm (do
      match ← pCompare true with
      | .lt => whileSize true (·.minWriteIdle) (addWriteConn W) fuel
      | .gt => whileSize true (·.maxWriteIdle) (do removeConn W (← pDequeue true)) fuel
      | .eq => pure ()
      match ← pCompare false with
      | .lt => whileSize false (·.minReadIdle) (addReadConn W) fuel
      | .gt => whileSize false (·.maxReadIdle) (do removeConn W (← pDequeue false)) fuel
      | .eq => pure () : PP ω Unit) := by
    refine Calm.bind (fun o => ?_) Calm.prim
    cases o with
    | lt => exact Calm.bind (fun _ => third) (calm_whileSize _ _ calm_addWrite fuel)
    | gt => exact Calm.bind (fun _ => third) (calm_whileSize _ _ (calm_takeOut true) fuel)
    | eq => exact third
  refine Calm.bind (fun o => ?_) Calm.prim
  cases o with
  | lt => exact Calm.bind (fun _ => second) (calm_whileSize _ _ calm_addRead fuel)
  | gt => exact second
  | eq => exact second

theorem calm_times {step : PP ω Unit} (hs : Calm step) : ∀ n, Calm (times n step)
  | 0 => Calm.pure
  | n + 1 => Calm.bind (fun _ => calm_times hs n) hs

theorem calm_startRest (a b : Int) : Calm (startRest W a b) :=
  Calm.bind (fun _ => Calm.bind (fun _ => calm_times calm_addRead _) (calm_times calm_addWrite _)) calm_refresh

theorem calm_lock : Calm (lock : PP ω Unit) := fun _ _ => by simp [Calm]

theorem calm_rlock : Calm (rlock : PP ω Unit) := fun _ _ => by simp [Calm]

theorem calm_drain (w : Bool) : ∀ fuel, Calm (drain W w fuel)
  | 0 => Calm.fuel
  | fuel + 1 => by
    refine Calm.bind (fun n => ?_) Calm.prim
    split
    · exact Calm.pure
    · exact Calm.bind (fun _ => Calm.bind (fun _ => calm_drain w fuel) (calm_remove _)) Calm.prim

theorem calm_internalBorrow (w : Bool) : ∀ fuel, Calm (internalBorrow W w fuel)
  | 0 => Calm.fuel
  | fuel + 1 => by
    refine Calm.bind (fun x => ?_) Calm.prim
    cases x with
    | none => exact Calm.fail
    | some x =>
      refine Calm.bind (fun m => ?_) Calm.prim
      split
      · exact Calm.bind (fun _ => calm_internalBorrow w fuel) (calm_remove x)
      · refine Calm.bind (fun ok => ?_) Calm.prim
        split
        · exact Calm.bind (fun _ => Calm.bind (fun _ => Calm.pure) Calm.prim) Calm.prim
        · exact Calm.bind (fun _ => calm_internalBorrow w fuel) (calm_remove x)

theorem calm_reclaim (c : ConnRef) : Calm (reclaim W c) := by
  refine Calm.bind (fun _ => Calm.deferred (Calm.bind (fun ok => ?_) Calm.prim)) calm_lock
  split
  · exact Calm.fail
  · refine Calm.bind (fun o => ?_) Calm.prim
    cases o with
    | none =>
      refine Calm.bind (fun r => ?_) Calm.prim
      cases r <;> exact Calm.fail
    | some x =>
      refine Calm.bind (fun _ => Calm.bind (fun _ => Calm.bind (fun ok => Calm.bind (fun bad => ?_) ?_) Calm.prim) Calm.prim) Calm.prim
      · cases bad with
        | some _ =>
          dsimp only
          split
          · exact calm_addWrite
          · exact calm_addRead
        | none => exact Calm.prim
      · split
        · exact Calm.pure
        · exact (calm_remove _).attempt

theorem calm_prog (fuel : Nat) (r : PReq) : Calm (r.prog W fuel) := by
  match r with
  | .borrow true => exact Calm.bind (fun _ => Calm.pure) (Calm.bind (fun _ => Calm.deferred (Calm.bind (fun _ => Calm.pure) (calm_internalBorrow true fuel))) calm_rlock)
  | .borrow false => exact Calm.bind (fun _ => Calm.pure) (Calm.bind (fun _ => Calm.deferred (Calm.bind (fun _ => Calm.pure) (calm_internalBorrow false fuel))) calm_rlock)
  | .reclaim c => exact Calm.bind (fun _ => Calm.pure) (calm_reclaim c)
  | .start =>
    refine Calm.bind (fun _ => Calm.pure) (Calm.bind (fun ok => ?_) Calm.prim)
    split
    · exact Calm.fail
    · exact Calm.bind (fun _ => calm_startRest _ _) Calm.prim
  | .stop =>
    refine Calm.bind (fun _ => Calm.pure) (Calm.bind (fun ok => ?_) Calm.prim)
    split
    · exact Calm.bind (fun _ => Calm.bind (fun _ => calm_drain true fuel) (calm_drain false fuel)) Calm.prim
    · exact Calm.fail
  | .refresh =>
    exact Calm.bind (fun _ => Calm.pure) (Calm.bind (fun _ => Calm.bind (fun _ => Calm.bind (fun _ => Calm.bind (fun _ => Calm.prim) (calm_balance fuel)) calm_prune) calm_refresh) calm_lock)

/-- The indices stay in range, unless a list becomes shorter. -/
theorem index_act {acc : List Access} {f : RPool ω → RPool ω} (h : PAct W acc f) {s : RPool ω} (hs : IndexOk s) (hg : ∀ w, (s.strings w).length ≤ ((f s).strings w).length) : IndexOk (f s) := by
  cases h with
  | enqueue w x => cases w <;> exact hs
  | dequeue w =>
    dsimp only
    split
    · exact hs
    · cases w <;> exact hs
  | setQueue w q => cases w <;> exact hs
  | create w str => dsimp only; split <;> exact hs
  | dial => dsimp only; split <;> exact hs
  | indexW =>
    dsimp only
    split
    · exact hs
    · rename_i hne
      have hlt := next_lt hs (w := true) hne
      intro w
      cases w with
      | true =>
        show s.nextIndex true ≤ (s.strings true).length - 1
        omega
      | false => exact hs false
  | indexR =>
    dsimp only
    split
    · exact hs
    · rename_i hne
      have hlt := next_lt hs (w := false) hne
      intro w
      cases w with
      | true => exact hs true
      | false =>
        show s.nextIndex false ≤ (s.strings false).length - 1
        omega
  | take =>
    intro w
    have h1 := hs w
    have h2 := hg w
    show s.index w ≤ _
    omega
  | startHead => unfold RPool.startHead; split <;> exact hs
  | _ => exact hs

theorem no_panic (fuel : Nat) : ∀ (ms : List PMove) (s : PSys ω), IndexOk s.pool → (∀ e ∈ s.calls, OfActs W e.2 ∧ Calm e.2) → (∀ e ∈ s.returned, e.2 ≠ .panic) →
    (∀ pre m post, ms = pre ++ m :: post → ∀ w, (RPool.strings (s.moves W fuel pre).pool w).length ≤ (RPool.strings (s.moves W fuel (pre ++ [m])).pool w).length) →
    ∀ e ∈ (s.moves W fuel ms).returned, e.2 ≠ .panic
  | [], _, _, _, hr, _ => hr
  | m :: ms, s, hs, hc, hr, hg => by
    have hg₁ : ∀ w, (s.pool.strings w).length ≤ ((s.move W fuel m).pool.strings w).length := hg [] m ms rfl
    have call : ∀ r l, IndexOk s.pool ∧ (∀ e ∈ ({ s with calls := s.calls ++ [(r, PReq.prog W fuel r)], lent := l } : PSys ω).calls, OfActs W e.2 ∧ Calm e.2) ∧ ∀ e ∈ s.returned, e.2 ≠ .panic := by
      intro r l
      refine ⟨hs, fun e he => ?_, hr⟩
      rcases List.mem_append.1 he with he | he
      · exact hc e he
      · rw [List.mem_singleton.1 he]; exact ⟨acts_prog fuel r, calm_prog fuel r⟩
    have step : IndexOk (s.move W fuel m).pool ∧ (∀ e ∈ (s.move W fuel m).calls, OfActs W e.2 ∧ Calm e.2) ∧ ∀ e ∈ (s.move W fuel m).returned, e.2 ≠ .panic := by
      match m, hg₁ with
      | .call (.reclaim c), _ =>
        simp only [PSys.move]
        split
        · exact call _ _
        · exact ⟨hs, hc, hr⟩
      | .call (.borrow w), _ => exact call _ _
      | .call .start, _ => exact call _ _
      | .call .stop, _ => exact call _ _
      | .call .refresh, _ => exact call _ _
      | .step k, hg₁ =>
        simp only [PSys.move] at hg₁ ⊢
        cases hk : s.calls[k]? with
        | none => exact ⟨hs, hc, hr⟩
        | some rp =>
          obtain ⟨r, p⟩ := rp
          have hp := hc _ (List.mem_of_getElem? hk)
          cases p with
          | done res =>
            refine ⟨hs, fun e he => hc e (List.mem_of_mem_eraseIdx he), fun e he => ?_⟩
            rcases List.mem_append.1 he with he | he
            · exact hr e he
            · rw [List.mem_singleton.1 he]; exact hp.2
          | act acc en f k' =>
            rw [hk] at hg₁
            dsimp only at hg₁ ⊢
            split
            · rename_i hen
              rw [if_pos hen] at hg₁
              refine ⟨index_act hp.1.1 hs hg₁, fun e he => ?_, hr⟩
              rcases List.mem_or_eq_of_mem_set he with he | rfl
              · exact hc e he
              · exact ⟨hp.1.2 s.pool, hp.2 s.pool hs⟩
            · exact ⟨hs, hc, hr⟩
    exact no_panic fuel ms _ step.1 step.2.1 step.2.2 fun pre m' post h => hg (m :: pre) m' post (by rw [h]; rfl)

/-- **C66**, panics: in a history in which no refresh makes an address list shorter no call panics.  (`rwStrings`, `readStrings`: by C58 the addresses of the current members.)
Missing: histories in which a list becomes shorter (`C66_refuted`). -/
theorem C66_no_panic_partial {connStr : Bytes} {size : Int} {user tls : Bytes} {w : ω} {pool : RPool ω} (h : openRoutingPool W connStr size user tls w = .ok (.ok (), pool))
    (fuel : Nat) (moves : List PMove)
    (hg : ∀ pre m post, moves = pre ++ m :: post →
      ((PSys.fresh pool).moves W fuel pre).pool.rwStrings.length ≤ ((PSys.fresh pool).moves W fuel (pre ++ [m])).pool.rwStrings.length ∧
      ((PSys.fresh pool).moves W fuel pre).pool.readStrings.length ≤ ((PSys.fresh pool).moves W fuel (pre ++ [m])).pool.readStrings.length)
    (r : PReq) : (r, .panic) ∉ ((PSys.fresh pool).moves W fuel moves).returned := fun hm =>
  no_panic fuel moves (PSys.fresh pool) (fun v => (open_even h v).index) (fun _ h => absurd h List.not_mem_nil) (fun _ h => absurd h List.not_mem_nil)
    (fun pre m post hp v => by cases v with | true => exact (hg pre m post hp).1 | false => exact (hg pre m post hp).2) _ hm rfl

end

namespace C66

/-- At first there are a leader, two followers and a read replica; then the followers leave. -/
def script : Script where
  rows w := if w < 22 then threeMembers ++ [memberRow "4" "bolt://d" "FOLLOWER"] else threeMembers.take 1 ++ threeMembers.drop 2
  alive w _ := w < 22
  closing _ := some (.plain "broken")

/-- The state after opening a pool, and some moves. -/
def state (script : Script) (size : Int) (ms : List PMove) : Option (RPool Nat × PSys Nat) :=
  match openRoutingPool script.world (ascii "bolt+routing://a") size (ascii "u:p") [] 0 with
  | .ok (.ok (), pool) => some (pool, (PSys.fresh pool).moves script.world 100 ms)
  | _ => none

theorem state_open {script : Script} {size : Int} {ms : List PMove} {pool : RPool Nat} {s : PSys Nat} (h : state script size ms = some (pool, s)) :
    openRoutingPool script.world (ascii "bolt+routing://a") size (ascii "u:p") [] 0 = .ok (.ok (), pool) ∧ s = (PSys.fresh pool).moves script.world 100 ms := by
  unfold state at h
  generalize openRoutingPool script.world (ascii "bolt+routing://a") size (ascii "u:p") [] 0 = o at h ⊢
  match o, h with
  | .ok (.ok (), pool'), h =>
    simp only [Option.some.injEq, Prod.mk.injEq] at h
    obtain ⟨rfl, hs⟩ := h
    exact ⟨rfl, hs.symm⟩

/-- The connections of a pool of 9: five for writing, and four for reading from three servers. -/
example : (state script 9 []).map (fun (pool, _) => [("a", true), ("b", false), ("c", false), ("d", false)].map fun (x, w) =>
    Spec.connections pool.log w (ascii "bolt://u:p@" ++ ascii x)) = some [5, 1, 1, 2] := by decide +kernel

/-- `C66_next_partial` can be applied to this pool: the index is 1, and the list has three strings. -/
example : (state script 9 []).map (fun (pool, _) => (pool.readIndex, pool.readStrings.length)) = some (1, 3) := by decide +kernel

/-- A second script, in which the members stay the same. -/
def steady : Script where
  rows _ := threeMembers

/-- A history of it. -/
def steadyHistory : List PMove := [.call (.borrow false)] ++ List.replicate 10 (.step 0) ++ [.call .refresh] ++ List.replicate 40 (.step 0)

/-- `C66_no_panic_partial` can be applied to it: the address lists have one and two elements all the time. -/
example : ∃ pool, openRoutingPool steady.world (ascii "bolt+routing://a") 3 (ascii "u:p") [] 0 = .ok (.ok (), pool) ∧
    (((PSys.fresh pool).moves steady.world 100 steadyHistory).returned.length = 2) ∧
    ∀ pre m post, steadyHistory = pre ++ m :: post →
      ((PSys.fresh pool).moves steady.world 100 pre).pool.rwStrings.length ≤ ((PSys.fresh pool).moves steady.world 100 (pre ++ [m])).pool.rwStrings.length ∧
      ((PSys.fresh pool).moves steady.world 100 pre).pool.readStrings.length ≤ ((PSys.fresh pool).moves steady.world 100 (pre ++ [m])).pool.readStrings.length := by
  have check : ∀ k, k ≤ 52 → (state steady 3 (steadyHistory.take k)).map (fun (_, s) => (s.pool.rwStrings.length, s.pool.readStrings.length)) = some (1, 2) := by decide +kernel
  have last : (state steady 3 steadyHistory).map (fun (_, s) => s.returned.length) = some 2 := by decide +kernel
  cases h : state steady 3 steadyHistory with
  | none => rw [h] at last; cases last
  | some x =>
    obtain ⟨pool, s⟩ := x
    obtain ⟨ho, hs⟩ := state_open h
    have at_ : ∀ k, k ≤ 52 → ((PSys.fresh pool).moves steady.world 100 (steadyHistory.take k)).pool.rwStrings.length = 1 ∧
        ((PSys.fresh pool).moves steady.world 100 (steadyHistory.take k)).pool.readStrings.length = 2 := by
      intro k hk
      have := check k hk
      unfold state at this
      rw [ho] at this
      simpa using this
    refine ⟨pool, ho, ?_, fun pre m post hp => ?_⟩
    · rw [h, hs] at last
      simpa using last
    · have hlen : pre.length + 1 ≤ 52 := by
        have : steadyHistory.length = 52 := rfl
        rw [hp] at this
        simp only [List.length_append, List.length_cons] at this
        omega
      have h1 := at_ pre.length (by omega)
      have h2 := at_ (pre.length + 1) hlen
      rw [show steadyHistory.take pre.length = pre from by rw [hp]; simp] at h1
      rw [show steadyHistory.take (pre.length + 1) = pre ++ [m] from by rw [hp]; simp [List.take_append, List.take_of_length_le]] at h2
      exact ⟨by rw [h1.1, h2.1]; exact Nat.le_refl _, by rw [h1.2, h2.2]; exact Nat.le_refl _⟩

/-- A connection is borrowed and returned in the meantime. -/
def history : List PMove := [.call (.borrow false)] ++ List.replicate 10 (.step 0) ++ [.call .refresh] ++ List.replicate 60 (.step 0) ++
  [.call (.reclaim ⟨6, [48, 45, 0, 14]⟩)] ++ List.replicate 20 (.step 0)

/-- Whether a call has panicked. -/
def panics : List (PReq × CRes PRet) → Bool
  | [] => false
  | (_, .panic) :: _ => true
  | _ :: rs => panics rs

theorem panics_iff : ∀ {rs : List (PReq × CRes PRet)}, panics rs = true → ∃ r, (r, .panic) ∈ rs
  | (r, .panic) :: _, _ => ⟨r, List.mem_cons_self⟩
  | (_, .ok _) :: rs, h => by obtain ⟨r, hr⟩ := panics_iff (rs := rs) h; exact ⟨r, List.mem_cons_of_mem _ hr⟩
  | (_, .err _) :: rs, h => by obtain ⟨r, hr⟩ := panics_iff (rs := rs) h; exact ⟨r, List.mem_cons_of_mem _ hr⟩
  | (_, .fuel) :: rs, h => by obtain ⟨r, hr⟩ := panics_iff (rs := rs) h; exact ⟨r, List.mem_cons_of_mem _ hr⟩

end C66

/-- **C66 refuted**: two of three servers for reading leave the cluster; the next connection that has to be replaced makes `Reclaim` panic. -/
theorem C66_refuted : ¬ ∀ {ω : Type} {W : PWorld ω} {connStr : Bytes} {size : Int} {user tls : Bytes} {w : ω} {pool : RPool ω},
    openRoutingPool W connStr size user tls w = .ok (.ok (), pool) → ∀ (fuel : Nat) (moves : List PMove) (r : PReq), (r, .panic) ∉ ((PSys.fresh pool).moves W fuel moves).returned := by
  intro hall
  have check : (match C66.state C66.script 9 C66.history with
    | some (_, s) => C66.panics s.returned
    | none => false) = true := by decide +kernel
  cases h : C66.state C66.script 9 C66.history with
  | none => rw [h] at check; cases check
  | some x =>
    obtain ⟨pool, s⟩ := x
    rw [h] at check
    obtain ⟨ho, hs⟩ := C66.state_open h
    obtain ⟨r, hr⟩ := C66.panics_iff check
    rw [hs] at hr
    exact hall ho 100 _ r hr

end Verif
