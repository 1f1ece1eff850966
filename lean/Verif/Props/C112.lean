/-
C112  A failure is recovered from, or the session is given up.
-/
import Verif.Props.C102
import Verif.Spec.Recover
namespace Verif
open Spec Spec.Recover C102

namespace Spec.Recover

theorem Follows.append {p : Proto} {tx : Bool} {s s' s'' : Stage} {a b : List Ev} (h : Follows p tx s a s') (h' : Follows p tx s' b s'') :
    Follows p tx s (a ++ b) s'' := by
  induction h with
  | nil => exact h'
  | cons h _ ih => exact .cons h (ih h')

theorem Follows.one {p : Proto} {tx : Bool} {s s' : Stage} {e : Ev} (h : Moves p tx s e s') : Follows p tx s [e] s' := .cons h .nil

end Spec.Recover

namespace C112
section
variable {σ : Type} (env : Env) (W : World σ) (p : Proto) (lo : Nat) (tx : Bool)

/-- A connection in use, with a transaction or without. -/
structure Ready (c : Conn σ) : Prop where
  good : Good p lo c
  inv : c.core.Inv
  tx : c.cur.isSome = tx

/-- The stages in which a call may end. -/
def Ends (ok : Bool) (s : Stage) (c : Conn σ) : Prop :=
  s = .normal ∨ (s = .over ∧ c.closed = true) ∨ (ok = false ∧ (s = .resetting ∨ (s = .leaving ∧ ¬ ∀ w ws, (W.onSend w ws).ok = true)))

/-- How a call may end. -/
abbrev Fin {α : Type} (r : CRes α) (s : Stage) (c : Conn σ) : Prop := match r with
  | .ok _ => Ends W true s c
  | .fuel => True
  | _ => Ends W false s c

/-- Part of a call, started in stage `s`: if it succeeds everything is in order. -/
def Body {α : Type} (s : Stage) (m : CM σ α) : Prop := ∀ c, Ready p lo tx c → (s ≠ .normal → c.sock = true) →
  ∃ evs s', (m c).2.trace = c.trace ++ evs ∧ Follows p tx s evs s' ∧
    match (m c).1 with
    | .ok _ => s' = .normal ∧ Ready p lo tx (m c).2
    | .fuel => True
    | _ => Ends W false s' (m c).2

/-- The last part of a call. -/
def Last {α : Type} (s : Stage) (m : CM σ α) : Prop := ∀ c, Ready p lo tx c → (s ≠ .normal → c.sock = true) →
  ∃ evs s', (m c).2.trace = c.trace ++ evs ∧ Follows p tx s evs s' ∧
    Fin W (m c).1 s' (m c).2

variable {p lo tx}
variable {α β : Type}

theorem Ends.weaken {b : Bool} {s : Stage} {c : Conn σ} (h : Ends W b s c) : Ends W false s c := by
  rcases h with h | h | ⟨h, h'⟩
  · exact .inl h
  · exact .inr (.inl h)
  · exact .inr (.inr ⟨rfl, h'⟩)

theorem Ready.of_core {c c' : Conn σ} (h : Ready p lo tx c) (hk : c'.core = c.core) (hm : c'.mode = c.mode) : Ready p lo tx c' := by
  refine ⟨⟨?_, hm.trans h.good.mode, ?_, ?_⟩, by rw [hk]; exact h.inv, ?_⟩
  · exact (congrArg Core.proto hk).trans h.good.proto
  · rw [show c'.chunkSize = c.chunkSize from congrArg Core.chunkSize hk]; exact h.good.low
  · rw [show c'.chunkSize = c.chunkSize from congrArg Core.chunkSize hk]; exact h.good.high
  · rw [show c'.cur = c.cur from congrArg Core.cur hk]; exact h.tx

theorem Body.last {s : Stage} {m : CM σ α} (h : Body W p lo tx s m) : Last W p lo tx s m := by
  intro c hc hs
  obtain ⟨evs, s', h1, h2, h3⟩ := h c hc hs
  refine ⟨evs, s', h1, h2, ?_⟩
  match hr : (m c).1 with
  | .ok a => rw [hr] at h3; exact .inl h3.1
  | .err e => rw [hr] at h3; exact h3
  | .panic => rw [hr] at h3; exact h3
  | .fuel => trivial

theorem Body.pure (a : α) : Body W p lo tx .normal (Pure.pure a : CM σ α) := fun c hc _ => ⟨[], .normal, by simp [CM.pure_apply], .nil, rfl, hc⟩

theorem Body.fail (e : Err) : Body W p lo tx .normal (CM.fail e : CM σ α) := fun c _ _ => ⟨[], .normal, by simp [CM.fail_apply], .nil, .inl rfl⟩

/-- What follows a part. -/
theorem Body.bindWith {s : Stage} {m : CM σ α} {f : α → CM σ β} (hm : Body W p lo tx s m) {P : CRes β → Stage → Conn σ → Prop}
    (he : ∀ e s c, Ends W false s c → P (.err e) s c) (hp : ∀ s c, Ends W false s c → P .panic s c) (hf : ∀ s c, P .fuel s c)
    {c : Conn σ} (hc : Ready p lo tx c) (hs : s ≠ .normal → c.sock = true)
    (hk : ∀ a c', m c = (.ok a, c') → Ready p lo tx c' → ∃ evs s', (f a c').2.trace = c'.trace ++ evs ∧ Follows p tx .normal evs s' ∧ P (f a c').1 s' (f a c').2) :
    ∃ evs s', ((m >>= f) c).2.trace = c.trace ++ evs ∧ Follows p tx s evs s' ∧ P ((m >>= f) c).1 s' ((m >>= f) c).2 := by
  obtain ⟨evs, s', h1, h2, h3⟩ := hm c hc hs
  match hr : m c with
  | (.ok a, c') =>
    rw [hr] at h1 h3
    obtain ⟨h3, h4⟩ := h3
    subst h3
    obtain ⟨evs', s'', g1, g2, g3⟩ := hk a c' hr h4
    rw [CM.bind_ok hr]
    exact ⟨evs ++ evs', s'', by rw [g1, h1, List.append_assoc], h2.append g2, g3⟩
  | (.err e, c') => rw [hr] at h1 h3; rw [CM.bind_err hr]; exact ⟨evs, s', h1, h2, he _ _ _ h3⟩
  | (.panic, c') => rw [hr] at h1 h3; rw [CM.bind_panic hr]; exact ⟨evs, s', h1, h2, hp _ _ h3⟩
  | (.fuel, c') => rw [hr] at h1; rw [CM.bind_fuel hr]; exact ⟨evs, s', h1, h2, hf _ _⟩

theorem Body.bind {s : Stage} {m : CM σ α} {f : α → CM σ β} (hm : Body W p lo tx s m) (hf : ∀ a, Body W p lo tx .normal (f a)) : Body W p lo tx s (m >>= f) := by
  intro c hc hs
  exact Body.bindWith W (P := fun (r : CRes β) (s' : Stage) (c' : Conn σ) => match r with
    | .ok _ => s' = .normal ∧ Ready p lo tx c'
    | .fuel => True
    | _ => Ends W false s' c') hm (fun _ _ _ h => h) (fun _ _ h => h) (fun _ _ => trivial) hc hs
    fun a c' _ hc' => hf a c' hc' (fun h => absurd rfl h)

theorem Body.bindLast {s : Stage} {m : CM σ α} {f : α → CM σ β} (hm : Body W p lo tx s m) (hf : ∀ a, Last W p lo tx .normal (f a)) : Last W p lo tx s (m >>= f) := by
  intro c hc hs
  exact Body.bindWith W (P := fun (r : CRes β) (s' : Stage) (c' : Conn σ) => match r with
    | .ok _ => Ends W true s' c'
    | .fuel => True
    | _ => Ends W false s' c') hm (fun _ _ _ h => h) (fun _ _ h => h) (fun _ _ => trivial) hc hs
    fun a c' _ hc' => hf a c' hc' (fun h => absurd rfl h)

theorem Body.mapErr {s : Stage} {m : CM σ α} (hm : Body W p lo tx s m) (f : Err → Err) : Body W p lo tx s (CM.mapErr f m) := by
  intro c hc hs
  obtain ⟨evs, s', h1, h2, h3⟩ := hm c hc hs
  refine ⟨evs, s', by rw [CM.mapErr_snd]; exact h1, h2, ?_⟩
  rw [CM.mapErr_snd]
  unfold CM.mapErr
  match hr : m c with
  | (.ok a, c') => rw [hr] at h3; exact h3
  | (.err e, c') => rw [hr] at h3; exact h3
  | (.panic, c') => rw [hr] at h3; exact h3
  | (.fuel, c') => trivial

/-- Reading the connection. -/
theorem Body.onGet {s : Stage} {f : Conn σ → CM σ α} (h : ∀ c, c.proto = p → c.mode = readMode → Body W p lo tx s (f c)) : Body W p lo tx s (CM.get >>= f) := by
  intro c hc hs
  rw [CM.get_bind]
  exact h c hc.good.proto hc.good.mode c hc hs

/-- Sending a message that is not RESET. -/
theorem sends {v : Val} {t : PS} (hv : Codes env p lo v t) (ht : t ≠ resetTree) : Body W p lo tx .normal (sendMessage env W v) := by
  intro c hc _
  have hcar : Carries t (encodeMsg env c.proto.codec c.chunkSize v).1 := by rw [hc.good.proto]; exact hv _ hc.good.low hc.good.high
  have hmv : Moves p tx .normal (.sent (encodeMsg env c.proto.codec c.chunkSize v).1) .normal := .send fun h => ht (carries_unique hcar h)
  have hR : Ready p lo tx (sendMessage env W v c).2 := hc.of_core (sendMessage_core env W v c) (by
    unfold sendMessage writeAll
    dsimp only
    repeat' split
    all_goals rfl)
  unfold sendMessage writeAll at hR ⊢
  dsimp only at hR ⊢
  split
  · rename_i h
    rw [if_pos h] at hR
    split
    · exact ⟨[], .normal, by simp, .nil, rfl, hc⟩
    · exact ⟨[], .normal, by simp, .nil, .inl rfl⟩
  · rename_i h
    rw [if_neg h] at hR
    split
    · exact ⟨[], .normal, by simp, .nil, .inl rfl⟩
    · rename_i h'
      rw [if_neg h'] at hR
      split
      · rename_i h''
        rw [if_pos h''] at hR
        split
        · rename_i h3
          rw [h3] at hR
          exact ⟨_, .normal, rfl, .one hmv, rfl, hR⟩
        · exact ⟨_, .normal, rfl, .one hmv, .inl rfl⟩
      · exact ⟨_, .normal, rfl, .one hmv, .inl rfl⟩

/-- Sending a message through an open socket. -/
theorem send_open {c : Conn σ} (hs : c.sock = true) {v : Val} {t : PS} (hcar : Carries t (encodeMsg env c.proto.codec c.chunkSize v).1) :
    (sendMessage env W v c).2 = c.sent env W v ∧
      ((sendMessage env W v c).1 = .ok () ∨ ∃ e, (sendMessage env W v c).1 = .err e) ∧
      ((encodeMsg env c.proto.codec c.chunkSize v).2 = none → (∀ w ws, (W.onSend w ws).ok = true) → (sendMessage env W v c).1 = .ok ()) := by
  have hne : (encodeMsg env c.proto.codec c.chunkSize v).1 ≠ [] := by
    intro h
    rw [h] at hcar
    obtain ⟨q, h1, _⟩ := hcar
    have := framed_length h1
    simp at this
  unfold sendMessage writeAll
  dsimp only
  rw [if_neg hne, if_neg (by rw [hs]; simp)]
  split
  · split
    · exact ⟨rfl, .inl rfl, fun _ _ => rfl⟩
    · rename_i h
      exact ⟨rfl, .inr ⟨_, rfl⟩, fun h' => by rw [h] at h'; cases h'⟩
  · rename_i h
    exact ⟨rfl, .inr ⟨_, rfl⟩, fun _ h' => absurd (h' _ _) h⟩

theorem receive_trace (c : Conn σ) : (∃ v, (receive env c).1 = .ok v) ∨ (receive env c).2.trace = c.trace := by
  unfold receive
  split
  · exact .inr rfl
  · split
    · exact .inr rfl
    · split
      · exact .inl ⟨_, rfl⟩
      · exact .inr rfl
      · exact .inr rfl
      · exact .inr rfl

/-- What `receive` does. -/
theorem receive_cases {c : Conn σ} (hc : Ready p lo tx c) :
    (∃ v c', receive env c = (.ok v, c') ∧ c'.trace = c.trace ++ [.recv v] ∧ c'.sock = true ∧ Ready p lo tx c') ∨
      ((receive env c).2.trace = c.trace ∧ ∀ v, (receive env c).1 ≠ .ok v) := by
  match hr : receive env c with
  | (.ok v, c') =>
    obtain ⟨h1, _, h3⟩ := receive_ok env hr
    refine .inl ⟨v, c', rfl, by rw [h3], by rw [h3]; exact h1, hc.of_core ?_ (by rw [h3])⟩
    have := receive_core env c
    rw [hr] at this
    exact this
  | (.err e, c') =>
    have := receive_trace env c
    rw [hr] at this
    exact .inr ⟨this.resolve_left (by simp), by simp⟩
  | (.panic, c') =>
    have := receive_trace env c
    rw [hr] at this
    exact .inr ⟨this.resolve_left (by simp), by simp⟩
  | (.fuel, c') =>
    have := receive_trace env c
    rw [hr] at this
    exact .inr ⟨this.resolve_left (by simp), by simp⟩

theorem asFailure_iff (v : Val) : (∃ md, asFailure v = some md) ↔ IsFailure v := by
  constructor
  · rintro ⟨md, h⟩
    unfold asFailure at h
    split at h
    · exact ⟨_, rfl⟩
    · cases h
  · rintro ⟨md, rfl⟩
    exact ⟨md, rfl⟩

theorem asSuccess_iff (v : Val) : (∃ md, asSuccess v = some md) ↔ IsSuccess v := by
  constructor
  · rintro ⟨md, h⟩
    unfold asSuccess at h
    split at h
    · exact ⟨_, rfl⟩
    · cases h
  · rintro ⟨md, rfl⟩
    exact ⟨md, rfl⟩

theorem isIgnored_iff (v : Val) : isIgnored v = true ↔ IsIgnored v := by
  constructor
  · intro h
    unfold isIgnored at h
    split at h
    · exact ⟨_, rfl⟩
    · cases h
  · rintro ⟨fs, rfl⟩
    rfl

/-- A part that begins by reading a message. -/
theorem Body.receives {s : Stage} {f : Val → CM σ α} (hend : Ends W false s = fun _ => True)
    (hf : ∀ v, ∃ s', Moves p tx s (.recv v) s' ∧ Body W p lo tx s' (f v)) (g : Err → Err) : Body W p lo tx s (CM.mapErr g (receive env) >>= f) := by
  intro c hc _
  rcases receive_cases env hc with ⟨v, c', h1, h2, h3, h4⟩ | ⟨h1, h2⟩
  · obtain ⟨s', m1, m2⟩ := hf v
    obtain ⟨evs, s'', g1, g2, g3⟩ := m2 c' h4 (fun _ => h3)
    rw [CM.bind_ok (CM.mapErr_eq_ok.mpr h1)]
    exact ⟨.recv v :: evs, s'', by rw [g1, h2]; simp, .cons m1 g2, g3⟩
  · have e : ((CM.mapErr g (receive env) >>= f) c).2 = (receive env c).2 ∧ ∀ a, ((CM.mapErr g (receive env) >>= f) c).1 ≠ .ok a := by
      rw [CM.bind_apply]
      unfold CM.mapErr
      match hr : receive env c with
      | (.ok v, c') => exact absurd (by rw [hr]) (h2 v)
      | (.err e, c') => exact ⟨rfl, fun a h => by cases h⟩
      | (.panic, c') => exact ⟨rfl, fun a h => by cases h⟩
      | (.fuel, c') => exact ⟨rfl, fun a h => by cases h⟩
    refine ⟨[], s, by rw [e.1, h1]; simp, .nil, ?_⟩
    match hr : ((CM.mapErr g (receive env) >>= f) c).1 with
    | .ok a => exact absurd hr (e.2 a)
    | .err e => rw [hend]; trivial
    | .panic => rw [hend]; trivial
    | .fuel => trivial

theorem ends_normal : Ends W false .normal = fun _ => True := by
  funext c; simp [Ends]

theorem ends_resetting : Ends W false .resetting = fun _ => True := by
  funext c; simp [Ends]

theorem mapErr_id (m : CM σ α) : CM.mapErr id m = m := by
  funext c
  unfold CM.mapErr
  match m c with
  | (.ok _, _) => rfl
  | (.err _, _) => rfl
  | (.panic, _) => rfl
  | (.fuel, _) => rfl

theorem Body.failAny {s : Stage} {m : CM σ α} (hm : Body W p lo tx s m) (e : Err) : Body W p lo tx s (m >>= fun _ => (CM.fail e : CM σ β)) :=
  Body.bind W hm fun _ => Body.fail W e

theorem consumes {reset : CM σ Unit} (hr : Body W p lo tx .failed reset) : Body W p lo tx .normal (consumeWith env reset) := by
  unfold consumeWith
  rw [← mapErr_id (receive env)]
  refine Body.receives env W (ends_normal W) (fun v => ?_) id
  cases hv : asFailure v with
  | none =>
    have : ¬ IsFailure v := by rw [← asFailure_iff, hv]; simp
    exact ⟨.normal, .recv this, Body.pure W _⟩
  | some md => exact ⟨.failed, .failure ((asFailure_iff v).mp ⟨md, hv⟩), Body.failAny W (Body.mapErr W hr _) _⟩

theorem Last.thenFail {s : Stage} {m : CM σ α} (hm : Last W p lo tx s m) (e : Err) : Body W p lo tx s (CM.thenFail m e : CM σ β) := by
  intro c hc hs
  obtain ⟨evs, s', h1, h2, h3⟩ := hm c hc hs
  unfold CM.thenFail
  match hr : m c with
  | (.ok a, c') => rw [hr] at h1 h3; exact ⟨evs, s', h1, h2, h3.weaken⟩
  | (.err e, c') => rw [hr] at h1 h3; exact ⟨evs, s', h1, h2, h3⟩
  | (.panic, c') => rw [hr] at h1 h3; exact ⟨evs, s', h1, h2, h3⟩
  | (.fuel, c') => rw [hr] at h1; exact ⟨evs, s', h1, h2, trivial⟩

theorem loops {close : CM σ Unit} (hcl : Last W p lo tx .refused close) : (n : Nat) → Body W p lo tx .resetting (resetLoop env close n)
  | 0 => fun c _ _ => ⟨[], .resetting, by simp [resetLoop], .nil, trivial⟩
  | n + 1 => by
    unfold resetLoop
    refine Body.receives env W (ends_resetting W) (fun v => ?_) _
    cases hi : isIgnored v with
    | true => exact ⟨.resetting, .ignored ((isIgnored_iff v).mp hi), loops hcl n⟩
    | false =>
      have hi : ¬ IsIgnored v := by rw [← isIgnored_iff, hi]; simp
      cases hv : asSuccess v with
      | some md => exact ⟨.normal, .success ((asSuccess_iff v).mp ⟨md, hv⟩), Body.pure W _⟩
      | none =>
        have hs : ¬ IsSuccess v := by rw [← asSuccess_iff, hv]; simp
        refine ⟨.refused, .refused hi hs, ?_⟩
        cases asFailure v with
        | some md => exact Last.thenFail W hcl _
        | none => exact Last.thenFail W hcl _

theorem sends_reset (hlo : 8 ≤ lo) {c : Conn σ} (hc : Ready p lo tx c) : Carries resetTree (encodeMsg env c.proto.codec c.chunkSize newResetMessage).1 := by
  rw [hc.good.proto]; exact reset_codes env hlo _ hc.good.low hc.good.high

theorem resetsWith (hlo : 8 ≤ lo) {close : CM σ Unit} (hcl : Last W p lo tx .refused close) : Body W p lo tx .failed (resetWith env W close) := by
  intro c hc hs
  have hs := hs (by simp)
  obtain ⟨h1, h2, _⟩ := send_open env W hs (sends_reset env hlo hc)
  have hR : Ready p lo tx (c.sent env W newResetMessage) := hc.of_core rfl rfl
  have hm : Moves p tx .failed (.sent (encodeMsg env c.proto.codec c.chunkSize newResetMessage).1) .resetting := .reset (sends_reset env hlo hc)
  match hr : sendMessage env W newResetMessage c with
  | (.ok (), c') =>
    rw [hr] at h1
    subst h1
    have e : resetWith env W close c = resetLoop env close (streamLen (c.sent env W newResetMessage).segs + 1) (c.sent env W newResetMessage) :=
      CM.bind_ok (CM.mapErr_eq_ok.mpr hr)
    rw [e]
    obtain ⟨evs, s', g1, g2, g3⟩ := loops env W hcl (streamLen (c.sent env W newResetMessage).segs + 1) _ hR (fun _ => hs)
    exact ⟨_ :: evs, s', by rw [g1]; simp [Conn.sent], .cons hm g2, g3⟩
  | (.err e, c') =>
    rw [hr] at h1
    subst h1
    have e : resetWith env W close c = (.err (e.wrap "An error occurred encoding reset message"), c.sent env W newResetMessage) :=
      CM.bind_err (by unfold CM.mapErr; rw [hr])
    rw [e]
    exact ⟨_, .resetting, rfl, .one hm, by rw [ends_resetting]; trivial⟩
  | (.panic, c') => rw [hr] at h2; rcases h2 with h2 | ⟨_, h2⟩ <;> cases h2
  | (.fuel, c') => rw [hr] at h2; rcases h2 with h2 | ⟨_, h2⟩ <;> cases h2

/-- Sending the request that rolls back the transaction when the session is given up. -/
theorem sends_refused {v : Val} {t : PS} {ts : List PS} (hv : Codes env p lo v t) (ht : rollbackTrees p = t :: ts) (htx : tx = true) :
    Body W p lo tx .refused (sendMessage env W v) := by
  intro c hc hs
  have hs := hs (by simp)
  have hcar : Carries t (encodeMsg env c.proto.codec c.chunkSize v).1 := by rw [hc.good.proto]; exact hv _ hc.good.low hc.good.high
  obtain ⟨h1, h2, _⟩ := send_open env W hs hcar
  refine ⟨_, .normal, by rw [h1]; rfl, .one (.rollback htx ht hcar), ?_⟩
  rcases h2 with h2 | ⟨e, h2⟩
  · rw [h2, h1]; exact ⟨rfl, hc.of_core rfl rfl⟩
  · rw [h2]; exact .inl rfl

theorem pull_not_reset (p : Proto) : pullTree p ≠ resetTree := by cases p <;> simp [pullTree, pullAllTree, resetTree]

theorem exchange (hlo : 8 ≤ lo) {s : Stage} {consume : CM σ Val} (hc : Body W p lo tx .normal consume) {v : Val} (hv : Body W p lo tx s (sendMessage env W v))
    (what : String) : Body W p lo tx s (txExchange env W consume v what) := by
  unfold txExchange
  refine Body.bind W hv fun _ => ?_
  split
  · refine Body.bind W hc fun v => ?_
    split
    · exact Body.fail W _
    · exact Body.pure W _
  · refine Body.onGet W fun c h1 _ => ?_
    rw [h1]
    refine Body.bind W (sends env W (pull_codes env hlo) (pull_not_reset p)) fun _ => ?_
    refine Body.bind W hc fun v => ?_
    refine Body.bind W hc fun v' => ?_
    split
    · exact Body.fail W _
    · split
      · exact Body.fail W _
      · exact Body.pure W _

/-- The end of `Close`. -/
theorem leaves (hlo : 8 ≤ lo) {s : Stage} {c : Conn σ} (hg : Good p lo c) (hs : s = .normal ∨ (s = .refused ∧ tx = false ∧ c.sock = true)) :
    ∃ evs s', (goodbye env W c).2.trace = c.trace ++ evs ∧ Follows p tx s evs s' ∧
      Fin W (goodbye env W c).1 s' (goodbye env W c).2 := by
  have hsock : ∀ c : Conn σ, (closeSock W c).2.trace = c.trace ++ [.closed] ∧ (closeSock W c).2.closed = true := by
    intro c
    unfold closeSock
    dsimp only
    split <;> exact ⟨rfl, rfl⟩
  have hend : ∀ (c c' : Conn σ) (evs : List Ev) (s s' : Stage), c'.trace = c.trace ++ evs → Follows p tx s evs s' → Moves p tx s' .closed .over →
      ∃ evs s', (closeSock W c').2.trace = c.trace ++ evs ∧ Follows p tx s evs s' ∧
        Fin W (closeSock W c').1 s' (closeSock W c').2 := by
    intro c c' evs s s' h1 h2 h3
    refine ⟨evs ++ [.closed], .over, by rw [(hsock c').1, h1, List.append_assoc], h2.append (.one h3), ?_⟩
    have hcl := (hsock c').2
    match (closeSock W c').1 with
    | .ok _ => exact .inr (.inl ⟨rfl, hcl⟩)
    | .err _ => exact .inr (.inl ⟨rfl, hcl⟩)
    | .panic => exact .inr (.inl ⟨rfl, hcl⟩)
    | .fuel => trivial
  rw [goodbye_apply, hg.proto]
  cases hm : p.closeMessage with
  | none =>
    have hp : p = .v1 ∨ p = .v2 := by cases p <;> simp [Proto.closeMessage] at hm <;> simp
    refine hend c c [] s s (by simp) .nil ?_
    rcases hs with rfl | ⟨rfl, ht, _⟩
    · exact .close
    · exact .giveUp ht hp
  | some m =>
    have hp : (p = .v3 ∨ p = .v4) ∧ m = newGoodbyeMessage := by
      cases p <;> cases hm
      · exact ⟨.inl rfl, rfl⟩
      · exact ⟨.inr rfl, rfl⟩
    obtain ⟨hp, rfl⟩ := hp
    have hcar : Carries (.struct 0x02 []) (encodeMsg env c.proto.codec c.chunkSize newGoodbyeMessage).1 := by
      have := hg.low
      exact carries_goodbye env _ (by omega) hg.high
    dsimp only
    by_cases hso : c.sock = true
    · obtain ⟨h1, h2, h3⟩ := send_open env W hso hcar
      obtain ⟨s1, m1, m2, m3⟩ : ∃ s1, Moves p tx s (.sent (encodeMsg env c.proto.codec c.chunkSize newGoodbyeMessage).1) s1 ∧ Moves p tx s1 .closed .over ∧
          (s1 = .normal ∨ s1 = .leaving) := by
        rcases hs with rfl | ⟨rfl, ht, _⟩
        · exact ⟨.normal, .send fun h => by have := carries_unique hcar h; simp [resetTree] at this, .close, .inl rfl⟩
        · exact ⟨.leaving, .goodbye ht hp hcar, .leave, .inr rfl⟩
      match hr : sendMessage env W newGoodbyeMessage c with
      | (.ok (), c') =>
        rw [hr] at h1
        subst h1
        rw [CM.bind_ok hr]
        exact hend c (c.sent env W newGoodbyeMessage) [_] s s1 rfl (.one m1) m2
      | (.err e, c') =>
        rw [hr] at h1 h3
        subst h1
        rw [CM.bind_err hr]
        refine ⟨[_], s1, rfl, .one m1, ?_⟩
        rcases m3 with rfl | rfl
        · exact .inl rfl
        · exact .inr (.inr ⟨rfl, .inr ⟨rfl, fun hw => by have := h3 rfl hw; cases this⟩⟩)
      | (.panic, c') => rw [hr] at h2; rcases h2 with h2 | ⟨_, h2⟩ <;> cases h2
      | (.fuel, c') => rw [hr] at h2; rcases h2 with h2 | ⟨_, h2⟩ <;> cases h2
    · obtain rfl : s = .normal := by
        rcases hs with h | ⟨_, _, h⟩
        · exact h
        · exact absurd h hso
      have hr : ∃ e, sendMessage env W newGoodbyeMessage c = (.err e, c) := by
        refine ⟨GoErr.badConn.wrap "An error occured writing a chunk", ?_⟩
        unfold sendMessage writeAll
        dsimp only
        rw [if_neg, if_pos (by simpa using hso)]
        intro h
        rw [h] at hcar
        obtain ⟨q, h1, _⟩ := hcar
        have := framed_length h1
        simp at this
      obtain ⟨e, hr⟩ := hr
      rw [CM.bind_err hr]
      exact ⟨[], .normal, by simp, .nil, .inl rfl⟩

theorem not_reset {p : Proto} {t : PS} {ts : List PS} (h : rollbackTrees p = t :: ts ∨ commitTrees p = t :: ts) : t ≠ resetTree := by
  rintro rfl
  cases p <;> simp [rollbackTrees, commitTrees, endTxTrees, resetTree] at h

theorem txMsg_first {v : Val} {ts : List PS} (h : TxMsg env p lo v ts) : ∃ t ts', ts = t :: ts' ∧ Codes env p lo v t := by
  rcases h with ⟨t, rfl, _, h⟩ | ⟨t, rfl, h⟩ <;> exact ⟨t, _, rfl, h⟩

/-- Rolling back the open transaction, at any stage where this may happen, and then `f`. -/
theorem closes (hlo : 8 ≤ lo) {s : Stage} (hs : s = .normal ∨ s = .refused) {reset : CM σ Unit} (hr : Body W p lo tx .failed reset) :
    Last W p lo tx s (closeWith env W (rollbackWith env W (consumeWith env reset))) := by
  intro c hc hsock
  have htr : ∀ s, c.trace = c.trace ++ [] ∧ Follows p tx s [] s := fun s => ⟨by simp, .nil⟩
  rw [closeWith_apply]
  cases hcl : c.closed with
  | true =>
    have hn : s = .normal := by
      rcases hs with h | h
      · exact h
      · have := hsock (by rw [h]; simp)
        have hi := hc.inv.sock
        rw [show c.core.closed = true from hcl, show c.core.sock = true from this] at hi
        cases hi
    subst hn
    exact ⟨[], .normal, (htr .normal).1, .nil, .inl rfl⟩
  | false =>
    rw [if_neg (by simp)]
    cases hcur : c.cur with
    | none =>
      have ht : tx = false := by rw [← hc.tx, hcur]; rfl
      rw [CM.bind_ok (show endCur _ c = (.ok (), c) by rw [endCur_apply, hcur])]
      refine leaves env W hlo hc.good ?_
      rcases hs with h | h
      · exact .inl h
      · exact .inr ⟨h, ht, hsock (by rw [h]; simp)⟩
    | some n =>
      have ht : tx = true := by rw [← hc.tx, hcur]; rfl
      have hopen : c.txClosed n = false := txClosed_false.mpr ((hc.inv.open_iff n).mpr hcur)
      have hx : endCur (rollbackWith env W (consumeWith env reset)) c =
          (txExchange env W (consumeWith env reset) p.txRollbackMessage "Unrecognized response type rolling back transaction" >>= fun _ => CM.modify (·.endTx n)) c := by
        rw [endCur_apply, hcur]
        show rollbackWith env W (consumeWith env reset) n c = _
        rw [rollbackWith_eq, endWith_apply, hopen, if_neg (by simp), hc.good.proto]
      obtain ⟨t, ts', e1, e2⟩ := txMsg_first env (rollback_msg env hlo (p := p))
      have hb : Body W p lo tx s (txExchange env W (consumeWith env reset) p.txRollbackMessage "Unrecognized response type rolling back transaction") := by
        refine exchange env W hlo (consumes env W hr) ?_ _
        rcases hs with rfl | rfl
        · exact sends env W e2 (not_reset (.inl e1))
        · exact sends_refused env W e2 e1 ht
      obtain ⟨evs, s', h1, h2, h3⟩ := hb c hc hsock
      match hq : txExchange env W (consumeWith env reset) p.txRollbackMessage "Unrecognized response type rolling back transaction" c with
      | (.ok (), c1) =>
        rw [hq] at h1 h3
        obtain ⟨rfl, h4⟩ := h3
        rw [CM.bind_ok (by rw [hx, CM.bind_ok hq, CM.modify_apply])]
        have hg : Good p lo (c1.endTx n) := ⟨h4.good.proto, h4.good.mode, h4.good.low, h4.good.high⟩
        obtain ⟨evs', s'', g1, g2, g3⟩ := leaves env W (tx := tx) (s := .normal) hlo hg (.inl rfl)
        refine ⟨evs ++ evs', s'', ?_, h2.append g2, g3⟩
        rw [g1, show (c1.endTx n).trace = c1.trace from rfl, h1, List.append_assoc]
      | (.err e, c1) => rw [hq] at h1 h3; rw [CM.bind_err (by rw [hx, CM.bind_err hq])]; exact ⟨evs, s', h1, h2, h3⟩
      | (.panic, c1) => rw [hq] at h1 h3; rw [CM.bind_panic (by rw [hx, CM.bind_panic hq])]; exact ⟨evs, s', h1, h2, h3⟩
      | (.fuel, c1) => rw [hq] at h1; rw [CM.bind_fuel (by rw [hx, CM.bind_fuel hq])]; exact ⟨evs, s', h1, h2, trivial⟩

theorem resets (hlo : 8 ≤ lo) : (fuel : Nat) → Body W p lo tx .failed (reset env W fuel)
  | 0 => fun c _ _ => ⟨[], .failed, by simp [reset], .nil, trivial⟩
  | fuel + 1 => resetsWith env W hlo (closes env W hlo (.inr rfl) (resets hlo fuel))

theorem consume_body (hlo : 8 ≤ lo) (fuel : Nat) : Body W p lo tx .normal (consume env W fuel) := consumes env W (resets env W hlo fuel)

/-- A part followed by something that does nothing on the network. -/
theorem Body.quiet {m : CM σ α} {f : α → CM σ β} (hm : Body W p lo tx .normal m) (hf : ∀ a c, (∃ b, (f a c).1 = .ok b) ∧ (f a c).2.trace = c.trace) :
    Last W p lo tx .normal (m >>= f) :=
  Body.bindLast W hm fun a c _ _ => by
    obtain ⟨⟨b, h1⟩, h2⟩ := hf a c
    exact ⟨[], .normal, by rw [h2]; simp, .nil, by rw [h1]; exact .inl rfl⟩

theorem Last.quiet {m : CM σ α} (h : ∀ c, (m c).2.trace = c.trace ∧ (m c).1 ≠ .fuel) : Last W p lo tx .normal m := by
  intro c _ _
  refine ⟨[], .normal, by rw [(h c).1]; simp, .nil, ?_⟩
  match (m c).1 with
  | .ok _ => exact .inl rfl
  | .err _ => exact .inl rfl
  | .panic => exact .inl rfl
  | .fuel => trivial

theorem ends_last (hlo : 8 ≤ lo) (fuel : Nat) {m : Proto → Val} {t : PS} {ts : List PS} (hv : Codes env p lo (m p) t) (ht : t ≠ resetTree) (what : String) (h : Nat) :
    Last W p lo tx .normal (endWith env W (consume env W fuel) m what h) := by
  intro c hc hs
  rw [endWith_apply]
  split
  · exact ⟨[], .normal, by simp, .nil, .inl rfl⟩
  · rw [hc.good.proto]
    exact Body.quiet W (exchange env W hlo (consume_body env W hlo fuel) (sends env W hv ht) what) (fun _ c => ⟨⟨(), rfl⟩, rfl⟩) c hc hs

theorem rollback_last (hlo : 8 ≤ lo) (fuel h : Nat) : Last W p lo tx .normal (rollback env W fuel h) := by
  obtain ⟨t, ts', e1, e2⟩ := txMsg_first env (rollback_msg env hlo (p := p))
  exact ends_last env W (ts := ts') hlo fuel (m := Proto.txRollbackMessage) e2 (not_reset (.inl e1)) _ h

theorem commit_last (hlo : 8 ≤ lo) (fuel h : Nat) : Last W p lo tx .normal (commit env W fuel h) := by
  obtain ⟨t, ts', e1, e2⟩ := txMsg_first env (commit_msg env hlo (p := p))
  exact ends_last env W (ts := ts') hlo fuel (m := Proto.txCommitMessage) e2 (not_reset (.inr e1)) _ h

theorem begin_not_reset {p : Proto} {db : Bytes} {t : PS} {ts : List PS} (h : beginTrees p db readMode = t :: ts) : t ≠ resetTree := by
  rintro rfl
  cases p <;> simp [beginTrees, resetTree] at h

theorem begin_last (hlo : 8 ≤ lo) (fuel : Nat) {db : Bytes} (hdb : db.length ≤ lo) : Last W p lo tx .normal (beginWithDatabase env W fuel db) := by
  intro c hc hs
  rw [begin_apply]
  split
  · exact ⟨[], .normal, by simp, .nil, .inl rfl⟩
  · split
    · exact ⟨[], .normal, by simp, .nil, .inl rfl⟩
    · rw [hc.good.proto, hc.good.mode]
      obtain ⟨t, ts', e1, e2⟩ := txMsg_first env (begin_msg env hlo hdb (p := p))
      exact Body.quiet W (exchange env W hlo (consume_body env W hlo fuel) (sends env W e2 (begin_not_reset e1)) _) (fun _ c => ⟨⟨_, rfl⟩, rfl⟩) c hc hs

theorem rows_body {consume : CM σ Val} (hc : Body W p lo tx .normal consume) : (n : Nat) → (out : List (List Val)) → Body W p lo tx .normal (rowsLoop consume n out)
  | 0, _ => fun c _ _ => ⟨[], .normal, by simp [rowsLoop], .nil, trivial⟩
  | n + 1, out => by
    unfold rowsLoop
    refine Body.bind W hc fun v => ?_
    split
    · exact Body.pure W _
    · split
      · exact rows_body hc n _
      · exact Body.fail W _

theorem run_not_reset (p : Proto) (q : Bytes) (pt : PS) (db : Bytes) (mode : AccessMode) (inTx : Bool) : runTree p q pt db mode inTx ≠ resetTree := by
  cases p <;> cases inTx <;> simp [runTree, resetTree]

theorem query_body (hlo : 8 ≤ lo) (fuel : Nat) {q : Bytes} {ps : Entries} {db : Bytes} {pt : PS} {inTx : Bool} (hq : Sendable env p.codec lo q ps db pt) :
    Body W p lo tx .normal (runQuery env W fuel q ps db inTx) := by
  unfold runQuery
  refine Body.onGet W fun c _ _ => ?_
  split
  · exact Body.fail W _
  · refine Body.onGet W fun c h1 h2 => ?_
    rw [h1, h2]
    refine Body.bind W (sends env W (fun cs l1 l2 => ((hq.mono l1 l2).carries readMode inTx).2) (run_not_reset p q pt db readMode inTx)) fun _ => ?_
    refine Body.bind W (sends env W (pull_codes env hlo) (pull_not_reset p)) fun _ => ?_
    refine Body.bind W (consume_body env W hlo fuel) fun v => ?_
    split
    · exact Body.fail W _
    · intro c hc hs
      exact rows_body W (consume_body env W hlo fuel) _ _ c hc hs

theorem check_body (db : Bytes) : Body W p lo tx .normal (checkDb (σ := σ) db) := by
  unfold checkDb
  refine Body.onGet W fun c _ _ => ?_
  split
  · exact Body.fail W _
  · exact Body.pure W _

theorem void_last {m : CM σ α} (h : Last W p lo tx .normal m) : Last W p lo tx .normal m.void := by
  intro c hc hs
  obtain ⟨evs, s', h1, h2, h3⟩ := h c hc hs
  unfold CM.void
  match hr : m c with
  | (.ok a, c') => rw [hr] at h1 h3; rw [CM.bind_ok hr]; exact ⟨evs, s', h1, h2, h3⟩
  | (.err e, c') => rw [hr] at h1 h3; rw [CM.bind_err hr]; exact ⟨evs, s', h1, h2, h3⟩
  | (.panic, c') => rw [hr] at h1 h3; rw [CM.bind_panic hr]; exact ⟨evs, s', h1, h2, h3⟩
  | (.fuel, c') => rw [hr] at h1; rw [CM.bind_fuel hr]; exact ⟨evs, s', h1, h2, trivial⟩

theorem step_last (hlo : 8 ≤ lo) (fuel : Nat) {op : Op} (hop : op.Fine env p.codec lo) : Last W p lo tx .normal (step env W fuel op) := by
  cases op with
  | query q ps db =>
    obtain ⟨pt, hq⟩ := hop
    exact void_last W (Body.last W (Body.bind W (check_body W db) fun _ => query_body env W hlo fuel hq))
  | exec q ps db =>
    obtain ⟨pt, hq⟩ := hop
    exact void_last W (Body.last W (Body.bind W (check_body W db) fun _ => Body.bind W (query_body env W hlo fuel hq) fun _ => Body.pure W _))
  | txQuery h q ps db =>
    obtain ⟨pt, hq⟩ := hop
    exact void_last W (Body.last W (Body.bind W (check_body W db) fun _ => query_body env W hlo fuel hq))
  | txExec h q ps =>
    obtain ⟨pt, hq⟩ := hop
    exact void_last W (Body.last W (Body.bind W (check_body W _) fun _ => Body.bind W (query_body env W hlo fuel hq) fun _ => Body.pure W _))
  | txExecDb h q ps db =>
    obtain ⟨pt, hq⟩ := hop
    exact void_last W (Body.last W (Body.bind W (check_body W db) fun _ => Body.bind W (query_body env W hlo fuel hq) fun _ => Body.pure W _))
  | begin_ db => exact void_last W (begin_last env W hlo fuel hop)
  | commit h => exact commit_last env W hlo fuel h
  | rollback h => exact rollback_last env W hlo fuel h
  | close => exact closes env W hlo (.inl rfl) (resets env W hlo fuel)
  | makeIdle =>
    intro c hc hs
    show ∃ evs s', (makeIdle env W fuel c).2.trace = c.trace ++ evs ∧ _ ∧ _
    rw [show step env W fuel Op.makeIdle c = endCur (rollback env W fuel) c from rfl, show makeIdle env W fuel c = endCur (rollback env W fuel) c from rfl, endCur_apply]
    cases c.cur with
    | none => exact ⟨[], .normal, by simp, .nil, .inl rfl⟩
    | some n => exact rollback_last env W hlo fuel n c hc hs
  | validateOpen =>
    refine void_last W (Last.quiet W fun c => ?_)
    unfold validateOpen
    split
    · exact ⟨rfl, by simp⟩
    · split
      · exact ⟨rfl, by simp⟩
      · exact ⟨rfl, by simp⟩
      · split <;> exact ⟨rfl, by simp⟩
  | setChunkSize n => exact Last.quiet W fun c => ⟨rfl, by simp [step, setChunkSize, CM.modify]⟩

theorem init_last (hlo : 8 ≤ lo) (fuel : Nat) {m : Val} {t : PS} (hm : Codes env p lo m t) (ht : t ≠ resetTree) : Last W p lo tx .normal (sendInit env W fuel m) := by
  unfold sendInit
  refine Body.bindLast W (sends env W hm ht) fun _ => Body.bindLast W (consume_body env W hlo fuel) fun v => ?_
  split
  · exact Body.last W (Body.pure W _)
  · exact closes env W hlo (.inl rfl) (resets env W hlo fuel)

end
end C112

section
variable {σ : Type} (env : Env) (W : World σ)

theorem C112.fin_ends {r : CRes Unit × Conn σ} {s : Stage} (h3 : C112.Fin W r.1 s r.2) :
    r.1 ≠ .fuel → s = .normal ∨ (s = .over ∧ r.2.closed = true) ∨
      (r.1 ≠ .ok () ∧ (s = .resetting ∨ (s = .leaving ∧ ¬ ∀ w ws, (W.onSend w ws).ok = true))) := by
  intro hf
  match hr : r.1 with
  | .ok () =>
    rw [hr] at h3
    rcases h3 with h3 | h3 | ⟨h3, _⟩
    · exact .inl h3
    · exact .inr (.inl h3)
    · cases h3
  | .err e =>
    rw [hr] at h3
    rcases h3 with h3 | h3 | ⟨_, h3⟩
    · exact .inl h3
    · exact .inr (.inl h3)
    · exact .inr (.inr ⟨(by simp), h3⟩)
  | .panic =>
    rw [hr] at h3
    rcases h3 with h3 | h3 | ⟨_, h3⟩
    · exact .inl h3
    · exact .inr (.inl h3)
    · exact .inr (.inr ⟨(by simp), h3⟩)
  | .fuel => exact absurd hr hf

/-- What each call does about a FAILURE, for every network and server. -/
theorem C112_partial {fuel : Nat} {user password : Bytes} (hu : user.length ≤ 65535) (hpw : password.length ≤ 65535) {w : σ} {c : Conn σ}
    (h : createBoltConn env W fuel user password w = (.ok (), c)) {lo : Nat} (hlo : 8 ≤ lo) (hlo' : lo ≤ 65535) {before : List Op} {op : Op} {fuel' : Nat}
    (hops : ∀ o ∈ before ++ [op], o.Fine env c.proto.codec lo) :
    let c1 := run env W fuel' before c
    let r := step env W fuel' op c1
    ∃ evs s, r.2.trace = c1.trace ++ evs ∧ Follows c.proto c1.cur.isSome .normal evs s ∧
      (r.1 ≠ .fuel → s = .normal ∨ (s = .over ∧ r.2.closed = true) ∨
        (r.1 ≠ .ok () ∧ (s = .resetting ∨ (s = .leaving ∧ ¬ ∀ w ws, (W.onSend w ws).ok = true)))) := by
  intro c1 r
  have g1 : Good c.proto lo c1 := run_good env W hlo fuel' before (fun o ho => hops o (by simp [ho])) c (create_good env W hu hpw h hlo')
  have g2 : c1.core.Inv := run_inv env W fuel' before c (create_inv env W h)
  obtain ⟨evs, s, h1, h2, h3⟩ := C112.step_last env W (tx := c1.cur.isSome) hlo fuel' (hops op (by simp)) c1 ⟨g1, g2, rfl⟩ (fun h => absurd rfl h)
  exact ⟨evs, s, h1, h2, C112.fin_ends W h3⟩

/-- The same while a connection is created, after the handshake. -/
theorem C112_open {fuel : Nat} {user password : Bytes} (hu : user.length ≤ 65535) (hpw : password.length ≤ 65535) (w : σ) :
    let r := createBoltConn env W fuel user password w
    r.2.trace = [] ∨ ∃ evs s, r.2.trace = .sent [preamble] :: evs ∧ Follows r.2.proto false .normal evs s ∧
      (r.1 ≠ .fuel → s = .normal ∨ (s = .over ∧ r.2.closed = true) ∨
        (r.1 ≠ .ok () ∧ (s = .resetting ∨ (s = .leaving ∧ ¬ ∀ w ws, (W.onSend w ws).ok = true)))) := by
  intro r
  cases hd : (W.dial w).2 with
  | false => exact .inl (C28_dial_fails env W fuel user password w hd).2
  | true =>
    rcases handshake_cases env W fuel user password w hd with ⟨n, p, segs', h1, h2, h3, h4⟩ | ⟨_, _, ht⟩
    · obtain ⟨t, o1, o2⟩ := init_codes env p hu hpw
      have hg : Good p 65535 (afterHandshake W w segs' p) := ⟨rfl, rfl, Nat.le_refl _, Nat.le_refl _⟩
      have hi : (afterHandshake W w segs' p).core.Inv := ⟨fun h => by simp [Conn.core, afterHandshake, Conn.fresh], fun h => rfl, rfl⟩
      have ht : t ≠ resetTree := by
        rintro rfl
        cases p <;> obtain ⟨es, _, h⟩ := o1 <;> cases h
      obtain ⟨g, _⟩ := init_says env W (S := fun t => Opening p user password t ∨ Recovery p t) (fun t h => .inr h) (.inl o1) o2 fuel _ hg
      obtain ⟨evs, s, e1, e2, e3⟩ := C112.init_last env W (tx := false) (by decide) fuel o2 ht _ ⟨hg, hi, rfl⟩ (fun h => absurd rfl h)
      rw [← h4] at e1 e3 g
      exact .inr ⟨evs, s, e1, by rw [show r.2.proto = p from g.proto]; exact e2, C112.fin_ends W e3⟩
    · exact .inr ⟨[], .normal, ht, .nil, fun _ => .inl rfl⟩

theorem C112.follows_split {p : Proto} {tx : Bool} {s s' : Stage} {evs evs' : List Ev} (h : Follows p tx s (evs ++ evs') s') :
    ∃ s1, Follows p tx s evs s1 ∧ Follows p tx s1 evs' s' := by
  induction evs generalizing s with
  | nil => exact ⟨s, .nil, h⟩
  | cons e evs ih =>
    cases h with
    | cons h1 h2 =>
      obtain ⟨s1, g1, g2⟩ := ih h2
      exact ⟨s1, .cons h1 g1, g2⟩

/-- RESET takes the session to the stage `resetting`, and there only. -/
theorem C112.moves_reset {p : Proto} {tx : Bool} {s s' : Stage} {ws : List Bytes} (h : Moves p tx s (.sent ws) s') (hw : Carries resetTree ws) : s' = .resetting := by
  cases h with
  | send h => exact absurd hw h
  | reset h => rfl
  | rollback ht h hc => exact absurd (carries_unique hc hw) (C112.not_reset (.inl h))
  | goodbye ht hp h => exact absurd (carries_unique h hw) (by simp [resetTree])

theorem C112.follows_ignored {p : Proto} {tx : Bool} {s' : Stage} {evs : List Ev} (hi : ∀ ev ∈ evs, ∃ v, ev = .recv v ∧ IsIgnored v) (h : Follows p tx .resetting evs s') :
    s' = .resetting := by
  induction evs with
  | nil => cases h; rfl
  | cons e evs ih =>
    obtain ⟨v, rfl, hv⟩ := hi _ List.mem_cons_self
    cases h with
    | cons h1 h2 =>
      cases h1 with
      | ignored _ => exact ih (fun ev he => hi ev (List.mem_cons_of_mem _ he)) h2
      | success h => obtain ⟨md, rfl⟩ := h; obtain ⟨fs, hf⟩ := hv; cases hf
      | refused h _ => exact absurd hv h

/-- If the server answers RESET with anything but SUCCESS, then the connection is closed when the call returns: provided no transaction was open, and the network takes
what is written. -/
theorem C112_given_up {fuel : Nat} {user password : Bytes} (hu : user.length ≤ 65535) (hpw : password.length ≤ 65535) {w : σ} {c : Conn σ}
    (h : createBoltConn env W fuel user password w = (.ok (), c)) {lo : Nat} (hlo : 8 ≤ lo) (hlo' : lo ≤ 65535) {before : List Op} {op : Op} {fuel' : Nat}
    (hops : ∀ o ∈ before ++ [op], o.Fine env c.proto.codec lo) (htx : (run env W fuel' before c).cur = none) (hW : ∀ w ws, (W.onSend w ws).ok = true)
    (hf : (step env W fuel' op (run env W fuel' before c)).1 ≠ .fuel) {a b d : List Ev} {ws : List Bytes} {v : Val}
    (ht : (step env W fuel' op (run env W fuel' before c)).2.trace = (run env W fuel' before c).trace ++ (a ++ .sent ws :: (b ++ .recv v :: d)))
    (hws : Carries resetTree ws) (hb : ∀ ev ∈ b, ∃ v, ev = .recv v ∧ IsIgnored v) (hv : ¬ IsIgnored v) (hv' : ¬ IsSuccess v) :
    (step env W fuel' op (run env W fuel' before c)).2.closed = true ∧ (d = [.closed] ∨ ∃ ws', Carries (.struct 0x02 []) ws' ∧ d = [.sent ws', .closed]) := by
  obtain ⟨evs, s, h1, h2, h3⟩ := C112_partial env W hu hpw h hlo hlo' (fuel' := fuel') hops
  have h3 := h3 hf
  rw [ht] at h1
  have he := List.append_cancel_left h1
  subst he
  obtain ⟨s1, _, h2⟩ := C112.follows_split h2
  cases h2 with
  | cons m1 h2 =>
    have := C112.moves_reset m1 hws
    subst this
    obtain ⟨s2, f1, f2⟩ := C112.follows_split h2
    have := C112.follows_ignored hb f1
    subst this
    cases f2 with
    | cons m2 f2 =>
      cases m2 with
      | ignored h => exact absurd h hv
      | success h => exact absurd h hv'
      | refused _ _ =>
        rw [htx] at f2
        have hover : ∀ {evs s}, Follows c.proto false .over evs s → evs = [] ∧ s = .over := by
          intro evs s h
          cases h with
          | nil => exact ⟨rfl, rfl⟩
          | cons h _ => cases h
        cases f2 with
        | nil => rcases h3 with h3 | ⟨h3, _⟩ | ⟨_, h3 | ⟨h3, _⟩⟩ <;> cases h3
        | cons m3 f3 =>
          cases m3 with
          | rollback h _ _ => cases h
          | giveUp _ _ =>
            obtain ⟨rfl, rfl⟩ := hover f3
            rcases h3 with h3 | ⟨_, h3⟩ | ⟨_, h3 | ⟨h3, _⟩⟩
            · cases h3
            · exact ⟨h3, .inl rfl⟩
            · cases h3
            · cases h3
          | goodbye _ _ hg =>
            cases f3 with
            | nil =>
              rcases h3 with h3 | ⟨h3, _⟩ | ⟨_, h3 | ⟨_, h3⟩⟩
              · cases h3
              · cases h3
              · cases h3
              · exact absurd hW h3
            | cons m4 f4 =>
              cases m4 with
              | leave =>
                obtain ⟨rfl, rfl⟩ := hover f4
                rcases h3 with h3 | ⟨_, h3⟩ | ⟨_, h3 | ⟨h3, _⟩⟩
                · cases h3
                · exact ⟨h3, .inr ⟨_, hg, rfl⟩⟩
                · cases h3
                · cases h3

end

/-- The full statement: a call that sends RESET and does not receive SUCCESS afterwards leaves the connection closed. -/
def C112_statement : Prop := ∀ (σ : Type) (env : Env) (W : World σ) (fuel : Nat) (op : Op) (c : Conn σ), InUse env W c →
  (step env W fuel op c).1 ≠ .fuel → ∀ (a b : List Ev) (ws : List Bytes), (step env W fuel op c).2.trace = c.trace ++ (a ++ .sent ws :: b) → Carries resetTree ws →
  (∀ v, .recv v ∈ b → ¬ IsSuccess v) → (step env W fuel op c).2.closed = true

/-- A version 4 server that answers RUN with FAILURE, and RESET with `answer` (the list may be empty). -/
def C112.script (answer : List Bytes) : List (List Bytes) := sOpen4 ++ [sFailure, sIgnored, answer]

/-- The connection after the query `X`. -/
def C112.after (answer : List Bytes) : CRes Unit × Conn (List (List Bytes)) := step env0 scripted 3 (.query [0x58] [] []) (opened (C112.script answer)).2

deriving instance DecidableEq for Ev

/-- The messages RUN and PULL of this query. -/
def C112.asks : List Ev := [.sent (encodeMsg env0 .v2 65535 (Proto.v4.runMessage [0x58] [] [] readMode true)).1, .sent (encodeMsg env0 .v2 65535 Proto.v4.pullAllMessage).1]

/-- The full statement is false: if no answer to RESET arrives in time, the call returns an error and the connection stays in use. -/
theorem C112_refuted : ¬ C112_statement := by
  intro h
  have hk : (opened (C112.script [])).1.kind = 0 := by decide +kernel
  have hf : (C112.after []).1.kind ≠ 3 := by decide +kernel
  have ht : (C112.after []).2.trace = (opened (C112.script [])).2.trace ++ ((C112.asks ++ [.recv (.struct .failure [.map []])]) ++
      .sent (encodeMsg env0 .v2 65535 newResetMessage).1 :: [.recv (.struct .ignored [])]) := by decide +kernel
  have hc : (C112.after []).2.closed = false := by decide +kernel
  have hu : InUse env0 scripted (opened (C112.script [])).2 := opened_inUse hk []
  have hr : Carries resetTree (encodeMsg env0 .v2 65535 newResetMessage).1 := carries_reset env0 .v2 (by decide) (by decide)
  unfold C112.after at hf ht hc
  generalize (opened (C112.script [])).2 = c at hf ht hc hu
  have := h _ env0 scripted 3 (.query [0x58] [] []) c hu (fun e => hf (by rw [e]; rfl)) _ _ _ ht hr (by
    rintro v hv ⟨md, rfl⟩
    have hv := List.mem_singleton.mp hv
    cases hv)
  rw [hc] at this
  cases this

/-- The hypotheses of `C112_given_up`: the server refuses RESET. -/
example : let c := (opened (C112.script (sIgnored ++ sFailure))).2
    (opened (C112.script (sIgnored ++ sFailure))).1.kind = 0 ∧ c.cur = none ∧ (C112.after (sIgnored ++ sFailure)).1.kind = 1 ∧
    (C112.after (sIgnored ++ sFailure)).2.trace = c.trace ++ ((C112.asks ++ [.recv (.struct .failure [.map []])]) ++
      .sent (encodeMsg env0 .v2 65535 newResetMessage).1 :: ([.recv (.struct .ignored []), .recv (.struct .ignored [])] ++ .recv (.struct .failure [.map []]) ::
        [.sent (encodeMsg env0 .v2 65535 newGoodbyeMessage).1, .closed])) ∧ (C112.after (sIgnored ++ sFailure)).2.closed = true := by decide +kernel

/-- RESET is answered with SUCCESS: the connection remains in use. -/
example : (C112.after sSuccess).1.kind = 1 ∧ (C112.after sSuccess).2.closed = false := by decide +kernel

/-- The remaining hypotheses of `C112_partial` and `C112_given_up`, for this query. -/
example (ver : Ver) : ∀ o ∈ [] ++ [Op.query [0x58] [] []], o.Fine env0 ver 8 := by
  intro o ho
  obtain rfl := List.mem_singleton.mp ho
  exact ⟨.map [], by decide, by decide, by decide, by simp, by cases ver <;> rfl, by simp [PS.Fits, PS.FitsWith, FitsEntries], by simp [Val.All, AllEntries, strAtMost]⟩

/-- In a transaction, `Close` after a refused RESET rolls back first; if that fails too the connection is not closed. -/
example : let c := step env0 scripted 3 (.txQuery 0 [0x58] [] []) (run env0 scripted 3 [.begin_ []] (opened (sOpen4 ++ [sSuccess, sFailure, [], sFailure, []])).2)
    c.1.kind = 1 ∧ c.2.closed = false ∧ c.2.trace.length = 11 := by decide +kernel

end Verif
