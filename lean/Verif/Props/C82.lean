/-
C82: a routing pool that has been opened is complete.
-/
import Verif.Props.C66
namespace Verif
open PProg

/-- **C82**, full statement: a pool opens only with an address and a size of at least two; it then holds all its connections, the share for writing and the share for reading, and knows
a member for either. -/
def C82_statement : Prop := ∀ {ω : Type} (W : PWorld ω) (connStr : Bytes) (size : Int) (user tls : Bytes) (w : ω) (pool : RPool ω),
  openRoutingPool W connStr size user tls w = .ok (.ok (), pool) →
    connStr ≠ [] ∧ 2 ≤ size ∧ ∀ v, (pool.queueOf v).length = Spec.share size.toNat v ∧ (∀ x ∈ pool.queueOf v, Spec.madeFor pool.log v x.conn.ref = true) ∧
      ∃ before ms role n, before <+: pool.log ∧ Spec.Members before ms ∧ some (role, n) ∈ ms ∧ (v = true ↔ role = .leader)

section
variable {ω : Type} {W : PWorld ω}

/-- Creating a connection puts it at the end of its queue. -/
theorem new_queue (w : Bool) (str : Bytes) {s s' : RPool ω} (h : (do let x ← newConnection W w str; pEnqueue w x : PP ω Unit).run s = (.ok (), s')) :
    ∃ x : Wrap, s'.queueOf w = s.queueOf w ++ [x] ∧ s'.queueOf (!w) = s.queueOf (!w) ∧ s'.log = s.log ++ [.created x.conn.ref x.conn.id str w] := by
  generalize hc : W.create s.world s.next str = c
  match c with
  | (v, some e) =>
    have : (do let x ← newConnection W w str; pEnqueue w x : PP ω Unit).run s = (.err e, { s with world := v, next := s.next + 1 }) := by
      refine run_bind_err ?_
      unfold newConnection
      exact (run_bind_ok (a := .error e) (s' := { s with world := v, next := s.next + 1 }) (by simp only [run_prim, hc])).trans rfl
    rw [this] at h
    cases h
  | (v, none) =>
    obtain ⟨x, s₁, h1, h2⟩ := run_bind_inv h
    unfold newConnection at h1
    obtain ⟨r, s₂, h3, h4⟩ := run_bind_inv h1
    simp only [run_prim, hc, Prod.mk.injEq, CRes.ok.injEq] at h3
    obtain ⟨rfl, rfl⟩ := h3
    obtain ⟨_, s₃, h5, h6⟩ := run_bind_inv h4
    simp only [putHeld, run_prim, Prod.mk.injEq] at h5
    obtain ⟨_, rfl⟩ := h5
    simp only [Pure.pure, PProg.run, Prod.mk.injEq, CRes.ok.injEq] at h6
    obtain ⟨rfl, rfl⟩ := h6
    simp only [pEnqueue, run_prim, Prod.mk.injEq] at h2
    obtain ⟨_, rfl⟩ := h2
    exact ⟨⟨⟨s.next, (if w then ascii "1-" else ascii "0-") ++ (W.random v).2⟩, str, w⟩, by cases w <;> rfl, by cases w <;> rfl, by cases w <;> rfl⟩

/-- The queues hold connections that were made for them since the log was `pre`. -/
def Fits (pre : List PEv) (s : RPool ω) : Prop := ∃ post, s.log = pre ++ post ∧ ∀ v, ∀ x ∈ s.queueOf v, ∃ id str, PEv.created x.conn.ref id str v ∈ post

/-- Adding a connection that succeeds puts a new one at the end of its queue. -/
theorem addConn_new (w : Bool) {s s' : RPool ω} (h : (addConn W w).run s = (.ok (), s')) :
    ∃ (x : Wrap) (str : Bytes), s'.queueOf w = s.queueOf w ++ [x] ∧ s'.queueOf (!w) = s.queueOf (!w) ∧ s'.log = s.log ++ [.created x.conn.ref x.conn.id str w] := by
  have main : ∀ {str s₁}, (∀ v, s₁.queueOf v = s.queueOf v) → s₁.log = s.log → (do let x ← newConnection W w str; pEnqueue w x : PP ω Unit).run s₁ = (.ok (), s') →
      ∃ (x : Wrap) (str : Bytes), s'.queueOf w = s.queueOf w ++ [x] ∧ s'.queueOf (!w) = s.queueOf (!w) ∧ s'.log = s.log ++ [.created x.conn.ref x.conn.id str w] := by
    intro str s₁ hq hl h
    obtain ⟨x, h1, h2, h3⟩ := new_queue w str h
    exact ⟨x, str, by rw [h1, hq], by rw [h2, hq], by rw [h3, hl]⟩
  cases w with
  | true =>
    obtain ⟨r, s₁, h1, h2⟩ := run_bind_inv h
    simp only [run_prim, Prod.mk.injEq, CRes.ok.injEq] at h1
    obtain ⟨hr, hs⟩ := h1
    match r, hr, h2 with
    | .ok str, hr, h2 =>
      refine main (fun v => ?_) ?_ h2
      · rw [← hs]; split <;> cases v <;> rfl
      · rw [← hs]; split <;> rfl
    | .error (.ok ()), hr, h2 =>
      split at hr
      · cases hr
      · dsimp only at hr
        split at hr <;> cases hr
  | false =>
    obtain ⟨r, s₁, h1, h2⟩ := run_bind_inv h
    simp only [run_prim, Prod.mk.injEq, CRes.ok.injEq] at h1
    obtain ⟨hr, hs⟩ := h1
    match r, hr, h2 with
    | .ok str, hr, h2 =>
      refine main (fun v => ?_) ?_ h2
      · rw [← hs]; split <;> cases v <;> rfl
      · rw [← hs]; split <;> rfl
    | .error (.ok ()), hr, h2 =>
      split at hr
      · cases hr
      · dsimp only at hr
        split at hr <;> cases hr

theorem addConn_queue (w : Bool) {s s' : RPool ω} {pre : List PEv} (hf : Fits pre s) (h : (addConn W w).run s = (.ok (), s')) :
    (s'.queueOf w).length = (s.queueOf w).length + 1 ∧ (s'.queueOf (!w)).length = (s.queueOf (!w)).length ∧ Fits pre s' := by
  obtain ⟨x, str, h1, h2, h3⟩ := addConn_new w h
  obtain ⟨post, hp, hf⟩ := hf
  refine ⟨by rw [h1]; simp, by rw [h2], post ++ [.created x.conn.ref x.conn.id str w], by rw [h3, hp, List.append_assoc], fun v y hy => ?_⟩
  by_cases hv : v = w
  · subst hv
    rw [h1] at hy
    rcases List.mem_append.1 hy with hy | hy
    · obtain ⟨id, str, hm⟩ := hf v y hy
      exact ⟨id, str, List.mem_append_left _ hm⟩
    · rw [List.mem_singleton.1 hy]
      exact ⟨_, _, List.mem_append_right _ List.mem_cons_self⟩
  · have hv : v = !w := by cases v <;> cases w <;> simp_all
    subst hv
    rw [h2] at hy
    obtain ⟨id, str, hm⟩ := hf _ y hy
    exact ⟨id, str, List.mem_append_left _ hm⟩

theorem times_queue (w : Bool) {pre : List PEv} : ∀ (n : Nat) {s s' : RPool ω}, Fits pre s → (times n (addConn W w)).run s = (.ok (), s') →
    (s'.queueOf w).length = (s.queueOf w).length + n ∧ (s'.queueOf (!w)).length = (s.queueOf (!w)).length ∧ Fits pre s'
  | 0, s, s', hf, h => by
    simp only [times, Pure.pure, PProg.run, Prod.mk.injEq] at h
    obtain ⟨_, rfl⟩ := h
    exact ⟨rfl, rfl, hf⟩
  | n + 1, s, s', hf, h => by
    obtain ⟨_, s₁, h1, h2⟩ := run_bind_inv h
    obtain ⟨a1, a2, a3⟩ := addConn_queue w hf h1
    obtain ⟨b1, b2, b3⟩ := times_queue w n a3 h2
    exact ⟨by omega, by omega, b3⟩

/-- Fetching the members does not fail, and leaves the queues alone. -/
theorem refresh_queue (s : RPool ω) : ∃ s', (refreshConnections W).run s = (.ok (), s') ∧ ∀ v, s'.queueOf v = s.queueOf v := by
  unfold refreshConnections
  generalize hc : W.create s.world s.next s.leaderConnStr = c
  match c with
  | (u, some e) =>
    simp only [Bind.bind, PProg.bind, PProg.prim, PProg.run, hc, if_true, Pure.pure]
    exact ⟨_, rfl, fun v => rfl⟩
  | (u, none) =>
    simp only [Bind.bind, PProg.bind, PProg.prim, PProg.run, hc, if_true, Pure.pure, pClose]
    exact ⟨_, rfl, fun v => rfl⟩

/-- Opening a pool, step by step. -/
theorem open_parts {connStr : Bytes} {size : Int} {user tls : Bytes} {w : ω} {pool : RPool ω} (h : openRoutingPool W connStr size user tls w = .ok (.ok (), pool)) :
    connStr ≠ [] ∧ size ≠ 0 ∧ size ≠ 1 ∧ ∃ s : RPool ω, s.totalConns = size ∧ (∀ v, s.queueOf v = []) ∧
      (startRest W s.startHead.maxWriteIdle s.startHead.maxReadIdle).run s.startHead = (.ok (), pool) := by
  unfold openRoutingPool at h
  cases hn : newRoutingPool connStr size user tls w with
  | error e => rw [hn] at h; cases h
  | ok s =>
    rw [hn] at h
    simp only [Except.ok.injEq] at h
    unfold newRoutingPool at hn
    split at hn
    · cases hn
    · rename_i h1
      split at hn
      · cases hn
      · rename_i h2
        simp only [Except.ok.injEq] at hn
        refine ⟨h1, fun h => h2 (.inl h), fun h => h2 (.inr h), s, by rw [← hn], fun v => by rw [← hn]; cases v <;> rfl, ?_⟩
        have hrun : s.running = false := by rw [← hn]
        rw [← h]
        simp only [start, Bind.bind, PProg.bind, PProg.prim, PProg.run, hrun, if_true, Bool.false_eq_true, if_false]

theorem startHead_shares (s : RPool ω) (h : 0 ≤ s.totalConns) : s.startHead.maxWriteIdle.toNat = Spec.share s.totalConns.toNat true ∧
    s.startHead.maxReadIdle.toNat = Spec.share s.totalConns.toNat false := by
  obtain ⟨n, hn⟩ := Int.eq_ofNat_of_zero_le h
  unfold RPool.startHead Spec.share
  rw [hn]
  rw [show ((n : Int).tmod 2) = ((n % 2 : Nat) : Int) from (Int.ofNat_tmod n 2).symm]
  split
  · rename_i he
    rw [show ((n : Int).tdiv 2) = ((n / 2 : Nat) : Int) from (Int.ofNat_tdiv n 2).symm]
    simp only [if_true, Bool.false_eq_true, if_false]
    omega
  · rename_i he
    have hpos : 1 ≤ n := by omega
    rw [show (n : Int) - 1 = ((n - 1 : Nat) : Int) by omega, show (((n - 1 : Nat) : Int).tdiv 2) = (((n - 1) / 2 : Nat) : Int) from (Int.ofNat_tdiv (n - 1) 2).symm]
    simp only [if_true, Bool.false_eq_true, if_false]
    omega

/-- **C82**, for sizes that are not negative.  Missing: negative sizes, which are accepted (`C82_negative`). -/
theorem C82_complete_partial {connStr : Bytes} {size : Int} {user tls : Bytes} {w : ω} {pool : RPool ω} (h : openRoutingPool W connStr size user tls w = .ok (.ok (), pool)) (hn : 0 ≤ size) :
    connStr ≠ [] ∧ 2 ≤ size ∧ ∀ v, (pool.queueOf v).length = Spec.share size.toNat v ∧ (∀ x ∈ pool.queueOf v, Spec.madeFor pool.log v x.conn.ref = true) ∧
      ∃ before ms role n, before <+: pool.log ∧ Spec.Members before ms ∧ some (role, n) ∈ ms ∧ (v = true ↔ role = .leader) := by
  obtain ⟨h1, h2, h3, s, hs, hq, hr⟩ := open_parts h
  refine ⟨h1, by omega, ?_⟩
  obtain ⟨e1, e2⟩ := startHead_shares s (by omega)
  have hq₁ : ∀ v, s.startHead.queueOf v = [] := fun v => by
    rw [← hq v]
    unfold RPool.startHead
    split <;> cases v <;> rfl
  obtain ⟨s₂, g1, g2⟩ := refresh_queue (W := W) s.startHead
  obtain ⟨_, s₂', k1, k2⟩ := run_bind_inv hr
  rw [g1] at k1
  cases k1
  obtain ⟨_, s₃, k3, k4⟩ := run_bind_inv k2
  have k3 : (times s.startHead.maxWriteIdle.toNat (addConn W true)).run s₂ = (.ok (), s₃) := k3
  have k4 : (times s.startHead.maxReadIdle.toNat (addConn W false)).run s₃ = (.ok (), pool) := k4
  have hf : Fits [] s₂ := ⟨_, rfl, fun v x hx => by rw [g2, hq₁] at hx; cases hx⟩
  obtain ⟨a1, a2, a3⟩ := times_queue true _ hf k3
  obtain ⟨b1, b2, post, hpost, b3⟩ := times_queue false _ a3 k4
  rw [List.nil_append] at hpost
  rw [← hpost] at b3
  have hempty : ∀ v, (s₂.queueOf v).length = 0 := fun v => by rw [g2, hq₁]; rfl
  have hlen : ∀ v, (pool.queueOf v).length = Spec.share size.toNat v := by
    intro v
    rw [hs] at e1 e2
    have := hempty true
    have := hempty false
    simp only [Bool.not_true, Bool.not_false] at a2 b2
    cases v <;> omega
  intro v
  refine ⟨hlen v, fun x hx => madeFor_iff.2 (b3 v x hx), ?_⟩
  have hpos : 0 < (pool.queueOf v).length := by
    rw [hlen]
    unfold Spec.share
    split <;> omega
  obtain ⟨x, hx⟩ := List.exists_mem_of_length_pos hpos
  obtain ⟨id, str, hm⟩ := b3 v x hx
  obtain ⟨a, b, hab⟩ := List.append_of_mem hm
  obtain ⟨ms, role, n, m1, m2, m3, _⟩ := C57 h 0 [] (fun _ h => absurd h List.not_mem_nil) (a := a) (b := b) hab
  exact ⟨a, ms, role, n, ⟨_, hab.symm⟩, m1, m2, m3⟩

/-- **C82**, negative sizes: every one of them is accepted, whatever the cluster answers, even if no server can be reached; the pool has no connections. -/
theorem C82_negative (W : PWorld ω) (connStr : Bytes) (hc : connStr ≠ []) (size : Int) (hn : size < 0) (user tls : Bytes) (w : ω) :
    ∃ pool, openRoutingPool W connStr size user tls w = .ok (.ok (), pool) ∧ ∀ v, pool.queueOf v = [] := by
  have hmax : ∀ s : RPool ω, s.totalConns = size → s.startHead.maxWriteIdle.toNat = 0 ∧ s.startHead.maxReadIdle.toNat = 0 := by
    intro s hs
    unfold RPool.startHead
    rw [hs]
    split
    · obtain ⟨k, hk⟩ : ∃ k : Nat, size = -(k : Int) := ⟨size.natAbs, by omega⟩
      dsimp only
      rw [hk, Int.neg_tdiv, show ((k : Int).tdiv 2) = ((k / 2 : Nat) : Int) from (Int.ofNat_tdiv k 2).symm]
      omega
    · rename_i hodd
      obtain ⟨k, hk⟩ : ∃ k : Nat, size - 1 = -(k : Int) := ⟨(size - 1).natAbs, by omega⟩
      dsimp only
      rw [hk, Int.neg_tdiv, show ((k : Int).tdiv 2) = ((k / 2 : Nat) : Int) from (Int.ofNat_tdiv k 2).symm]
      omega
  obtain ⟨s, hnew, htot, hrun, hq⟩ : ∃ s : RPool ω, newRoutingPool connStr size user tls w = .ok s ∧ s.totalConns = size ∧ s.running = false ∧ ∀ v, s.queueOf v = [] := by
    unfold newRoutingPool
    rw [if_neg hc, if_neg (by omega)]
    exact ⟨_, rfl, rfl, rfl, fun v => by cases v <;> rfl⟩
  unfold openRoutingPool
  rw [hnew]
  obtain ⟨m1, m2⟩ := hmax s htot
  obtain ⟨s₂, g1, g2⟩ := refresh_queue (W := W) s.startHead
  refine ⟨s₂, ?_, fun v => ?_⟩
  · have : (start W).run s = (startRest W s.startHead.maxWriteIdle s.startHead.maxReadIdle).run s.startHead := by
      simp only [start, Bind.bind, PProg.bind, PProg.prim, PProg.run, hrun, if_true, Bool.false_eq_true, if_false]
    dsimp only
    rw [this]
    unfold startRest
    rw [m1, m2]
    exact congrArg Except.ok ((run_bind_ok g1).trans rfl)
  · rw [g2, ← hq v]
    unfold RPool.startHead
    split <;> cases v <;> rfl

end

namespace C82

/-- The cluster cannot be reached. -/
def unreachable : Script where
  rows _ := []
  refuse _ _ := true

/-- A pool of five opens and has three connections for writing and two for reading. -/
example : (match openRoutingPool (Script.world { rows := fun _ => threeMembers }) (ascii "bolt+routing://a") 5 (ascii "u:p") [] 0 with
    | .ok (.ok (), pool) => some (pool.writeQueue.length, pool.readQueue.length)
    | _ => none) = some (3, 2) := by decide +kernel

/-- With size 1, or without an address, it does not open. -/
example : (match openRoutingPool (Script.world { rows := fun _ => threeMembers }) (ascii "bolt+routing://a") 1 [] [] 0,
      openRoutingPool (Script.world { rows := fun _ => threeMembers }) [] 5 [] [] 0 with
    | .error _, .error _ => true
    | _, _ => false) = true := by decide +kernel

end C82

/-- **C82 refuted**: a pool of size -1 for a cluster that cannot be reached. -/
theorem C82_refuted : ¬ C82_statement := by
  intro hall
  obtain ⟨pool, h, _⟩ := C82_negative C82.unreachable.world (ascii "bolt+routing://a") (by decide) (-1) (by decide) [] [] 0
  have := (hall _ _ _ _ _ _ pool h).2.1
  omega

end Verif
