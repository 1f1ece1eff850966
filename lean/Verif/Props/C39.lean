/-
C39  A connection can always be closed.
-/
import Verif.Props.C38
import Verif.Props.C28
namespace Verif

section
variable {σ : Type} (env : Env) (W : World σ)

/-- C39: after `Close` returns, the socket is closed, whatever happened before. -/
def C39_statement : Prop := ∀ (σ : Type) (env : Env) (W : World σ) (c : Conn σ), InUse env W c → c.closed = false →
  ∀ fuel r c', close env W fuel c = (r, c') → (r.kind ≠ 3) → c'.sock = false

theorem encodeMsg_goodbye (ver : Ver) (cs : Nat) : (encodeMsg env ver cs newGoodbyeMessage).2 = none := by
  rfl

/-- Without an open transaction, `Close` closes the socket, provided that in versions 3 and 4 the GOODBYE message can be written. -/
theorem C39_no_tx_partial (fuel : Nat) {c : Conn σ} (hc : c.closed = false) (hcur : c.cur = none)
    (hw : c.proto = .v3 ∨ c.proto = .v4 → c.sock = true ∧ ∀ ws, (W.onSend c.world ws).ok = true) : (close env W fuel c).2.sock = false := by
  replace hw : ∀ m, c.proto.closeMessage = some m → ∃ c1, sendMessage env W m c = (.ok (), c1) := by
    intro m hm
    have hp : (c.proto = .v3 ∨ c.proto = .v4) ∧ m = newGoodbyeMessage := by
      cases hp : c.proto <;> rw [hp] at hm <;> cases hm
      · exact ⟨.inl rfl, rfl⟩
      · exact ⟨.inr rfl, rfl⟩
    obtain ⟨h1, h2⟩ := hw hp.1
    rw [hp.2]
    exact ⟨_, sendMessage_good env W h1 (encodeMsg_goodbye env _ _) (h2 _)⟩
  show (closeWith env W _ c).2.sock = false
  have he : endCur (rollback env W fuel) c = (.ok (), c) := by rw [endCur_apply, hcur]
  rw [closeWith_apply, hc, if_neg (by simp), CM.bind_ok he, goodbye_apply]
  cases hm : c.proto.closeMessage with
  | none => exact congrArg Core.sock (closeSock_core W c)
  | some m =>
    obtain ⟨c1, h1⟩ := hw m hm
    show ((sendMessage env W m >>= fun _ => closeSock W) c).2.sock = false
    rw [CM.bind_ok h1]
    exact congrArg Core.sock (closeSock_core W c1)

/-- With an open transaction, if its `Rollback` would succeed, `Close` closes the socket, provided that in versions 3 and 4 messages can be
written. -/
theorem C39_tx_partial (fuel : Nat) {c c1 : Conn σ} {h : Nat} (hc : c.closed = false) (hcur : c.cur = some h)
    (hr : rollback env W fuel h c = (.ok (), c1))
    (hw : c.proto = .v3 ∨ c.proto = .v4 → c.sock = true ∧ ∀ w ws, (W.onSend w ws).ok = true) : (close env W fuel c).2.sock = false := by
  have hk : c1.core = c.core.endTx h := (endWith_ok_core env W hr).2
  have h1 : c1.closed = false := (congrArg Core.closed hk).trans hc
  have h2 : c1.cur = none := congrArg Core.cur hk
  have h3 : c1.proto = c.proto := congrArg Core.proto hk
  have h4 : c1.sock = c.sock := congrArg Core.sock hk
  have := C39_no_tx_partial env W fuel h1 h2 (by
    rw [h3, h4]
    exact fun hp => ⟨(hw hp).1, (hw hp).2 _⟩)
  have e : close env W fuel c = goodbye env W c1 := by
    show closeWith env W _ c = _
    rw [closeWith_apply, hc, if_neg (by simp), CM.bind_ok (by rw [endCur_apply, hcur]; exact hr)]
  have e1 : close env W fuel c1 = goodbye env W c1 := by
    show closeWith env W _ c1 = _
    rw [closeWith_apply, h1, if_neg (by simp), CM.bind_ok (by rw [endCur_apply, h2])]
  rw [e, ← e1]
  exact this

/-- When the roll-back of the open transaction fails without the connection being closed meanwhile, `Close` fails and the socket stays
open. -/
theorem C39_stuck (fuel : Nat) {c c1 : Conn σ} {h : Nat} {e : Err} (hc : c.closed = false) (hcur : c.cur = some h)
    (hr : rollback env W fuel h c = (.err e, c1)) (hs : c1.sock = true) :
    close env W fuel c = (.err e, c1) ∧ (close env W fuel c).2.sock = true := by
  have he : endCur (rollback env W fuel) c = (.err e, c1) := by rw [endCur_apply, hcur]; exact hr
  have : close env W fuel c = (.err e, c1) := by
    show closeWith env W _ c = _
    rw [closeWith_apply, hc, if_neg (by simp), CM.bind_err he]
  exact ⟨this, by rw [this]; exact hs⟩

/-- The last step of `Close` leaves the socket open exactly if there is a GOODBYE message and it cannot be written. -/
theorem goodbye_sock {c : Conn σ} (hs : c.sock = true) : (goodbye env W c).2.sock = true ↔
    (c.proto = .v3 ∨ c.proto = .v4) ∧ (W.onSend c.world (encodeMsg env c.proto.codec c.chunkSize newGoodbyeMessage).1).ok = false := by
  rw [goodbye_apply]
  have hno : c.proto.closeMessage = none → ¬ (c.proto = .v3 ∨ c.proto = .v4) := by cases c.proto <;> simp [Proto.closeMessage]
  have hyes : ∀ m, c.proto.closeMessage = some m → (c.proto = .v3 ∨ c.proto = .v4) ∧ m = newGoodbyeMessage := by
    cases c.proto <;> simp [Proto.closeMessage] <;> exact fun _ h => h.symm
  cases hm : c.proto.closeMessage with
  | none =>
    refine ⟨fun h => ?_, fun h => absurd h.1 (hno hm)⟩
    rw [show (closeSock W c).2.sock = false from congrArg Core.sock (closeSock_core W c)] at h
    cases h
  | some m =>
    obtain ⟨hp, rfl⟩ := hyes m hm
    show ((sendMessage env W newGoodbyeMessage >>= fun _ => closeSock W) c).2.sock = true ↔ _
    cases hok : (W.onSend c.world (encodeMsg env c.proto.codec c.chunkSize newGoodbyeMessage).1).ok with
    | true =>
      rw [CM.bind_ok (sendMessage_good env W hs (encodeMsg_goodbye env _ _) hok),
        show (closeSock W (c.sent env W newGoodbyeMessage)).2.sock = false from congrArg Core.sock (closeSock_core W _)]
      simp
    | false =>
      refine ⟨fun _ => ⟨hp, rfl⟩, fun _ => ?_⟩
      have hcore := congrArg Core.sock (sendMessage_core env W newGoodbyeMessage c)
      rcases h : sendMessage env W newGoodbyeMessage c with ⟨r, c1⟩
      rw [h] at hcore
      rw [CM.bind_apply, h]
      match r, h with
      | .ok u, h => rw [(sendMessage_ok env W h).2.2.1] at hok; cases hok
      | .err e, _ => exact hcore.trans hs
      | .panic, _ => exact hcore.trans hs
      | .fuel, _ => exact hcore.trans hs

/-- Exactly when the socket stays open after `Close` on an open connection: the roll-back of the open transaction did not succeed and did not close the
socket itself, or the transaction was rolled back (or there was none) but, in versions 3 and 4, GOODBYE could not be written. -/
theorem C39_exact (fuel : Nat) {c : Conn σ} (hc : c.closed = false) (hs : c.sock = true) : (close env W fuel c).2.sock = true ↔
    (∃ h, c.cur = some h ∧ (rollback env W fuel h c).1 ≠ .ok () ∧ (rollback env W fuel h c).2.sock = true) ∨
    ∃ c1, (c.cur = none ∧ c1 = c ∨ ∃ h, c.cur = some h ∧ rollback env W fuel h c = (.ok (), c1)) ∧ (c.proto = .v3 ∨ c.proto = .v4) ∧
      (W.onSend c1.world (encodeMsg env c1.proto.codec c1.chunkSize newGoodbyeMessage).1).ok = false := by
  have hcl : close env W fuel c = (endCur (rollback env W fuel) >>= fun _ => goodbye env W) c := by
    show closeWith env W _ c = _
    rw [closeWith_apply, hc, if_neg (by simp)]
  rw [hcl]
  cases hcur : c.cur with
  | none =>
    have he : endCur (rollback env W fuel) c = (.ok (), c) := by rw [endCur_apply, hcur]
    rw [CM.bind_ok he, goodbye_sock env W hs]
    constructor
    · exact fun h => .inr ⟨c, .inl ⟨rfl, rfl⟩, h⟩
    · rintro (⟨h, h1, _⟩ | ⟨c1, (⟨_, rfl⟩ | ⟨h, h1, _⟩), h2⟩)
      · cases h1
      · exact h2
      · cases h1
  | some h =>
    have he : endCur (rollback env W fuel) c = rollback env W fuel h c := by rw [endCur_apply, hcur]
    rcases hr : rollback env W fuel h c with ⟨r, c1⟩
    rw [CM.bind_apply, he, hr]
    match r, hr with
    | .ok u, hr =>
      have hk : c1.core = c.core.endTx h := (endWith_ok_core env W hr).2
      have h3 : c1.proto = c.proto := congrArg Core.proto hk
      have h4 : c1.sock = c.sock := congrArg Core.sock hk
      show (goodbye env W c1).2.sock = true ↔ _
      rw [goodbye_sock env W (h4.trans hs)]
      constructor
      · exact fun h' => .inr ⟨c1, .inr ⟨h, rfl, hr⟩, by rw [← h3]; exact h'⟩
      · rintro (⟨h', h1, h2, _⟩ | ⟨c2, (⟨h1, _⟩ | ⟨h', h1, h5⟩), h2⟩)
        · cases h1; exact absurd (by rw [hr]) h2
        · cases h1
        · cases h1
          rw [hr] at h5
          cases h5
          rw [h3] at h2 ⊢
          exact h2
    | .err e, hr =>
      constructor
      · exact fun h' => .inl ⟨h, rfl, by rw [hr]; simp, by rw [hr]; exact h'⟩
      · rintro (⟨h', h1, h2, h3⟩ | ⟨c2, (⟨h1, _⟩ | ⟨h', h1, h5⟩), h2⟩)
        · cases h1; rw [hr] at h3; exact h3
        · cases h1
        · cases h1; rw [hr] at h5; cases h5
    | .panic, hr =>
      constructor
      · exact fun h' => .inl ⟨h, rfl, by rw [hr]; simp, by rw [hr]; exact h'⟩
      · rintro (⟨h', h1, h2, h3⟩ | ⟨c2, (⟨h1, _⟩ | ⟨h', h1, h5⟩), h2⟩)
        · cases h1; rw [hr] at h3; exact h3
        · cases h1
        · cases h1; rw [hr] at h5; cases h5
    | .fuel, hr =>
      constructor
      · exact fun h' => .inl ⟨h, rfl, by rw [hr]; simp, by rw [hr]; exact h'⟩
      · rintro (⟨h', h1, h2, h3⟩ | ⟨c2, (⟨h1, _⟩ | ⟨h', h1, h5⟩), h2⟩)
        · cases h1; rw [hr] at h3; exact h3
        · cases h1
        · cases h1; rw [hr] at h5; cases h5

/-- A connection in version 4 with an open transaction in which a query failed. -/
def failedInTx : Conn (List (List Bytes)) :=
  run env0 scripted 3 [.begin_ [], .txQuery 0 [0x58] [] []]
    (opened (sOpen4 ++ [sSuccess, sFailure, sIgnored, sSuccess, sFailure, sSuccess, sFailure, sSuccess])).2

/-- The server reports a failure of a query in a transaction (and so has ended the transaction itself); the driver resets the session, but still
sends ROLLBACK in `Close`, which the server must refuse: `Close` returns an error and the socket stays open, every time it is called. -/
theorem C39_refuted : ¬ C39_statement := by
  intro h
  have h1 : InUse env0 scripted failedInTx := opened_inUse (by decide +kernel) _
  have h2 : (close env0 scripted 3 failedInTx).2.sock = true := by decide +kernel
  have h3 : (close env0 scripted 3 failedInTx).1.kind ≠ 3 := by decide +kernel
  obtain ⟨r, hr⟩ : ∃ r, r = close env0 scripted 3 failedInTx := ⟨_, rfl⟩
  rw [← hr] at h2 h3
  have := h _ env0 scripted failedInTx h1 (by decide +kernel) 3 r.1 r.2 (by rw [← hr]) h3
  rw [h2] at this
  cases this

example : failedInTx.cur = some 0 ∧ failedInTx.closed = false ∧ (close env0 scripted 3 failedInTx).1.kind = 1 ∧
    (run env0 scripted 3 [.close, .close] failedInTx).sock = true := by decide +kernel

/-- The hypotheses of `C39_no_tx_partial` and its conclusion, in version 1 and in version 4. -/
example : let c := (opened sOpen1).2
    c.closed = false ∧ c.cur = none ∧ c.proto = .v1 ∧ c.sock = true ∧ (close env0 scripted 3 c).2.sock = false := by decide +kernel
example : let c := (opened sOpen4).2
    c.closed = false ∧ c.cur = none ∧ c.proto = .v4 ∧ c.sock = true ∧ (close env0 scripted 3 c).2.sock = false := by decide +kernel
example (w : List (List Bytes)) (ws : List Bytes) : (scripted.onSend w ws).ok = true := by cases w <;> rfl

/-- The hypotheses of `C39_tx_partial` and its conclusion. -/
example : let c := run env0 scripted 3 [.begin_ []] (opened (sOpen4 ++ [sSuccess, sSuccess])).2
    c.closed = false ∧ c.cur = some 0 ∧ c.proto = .v4 ∧ c.sock = true ∧ (rollback env0 scripted 3 0 c).1.kind = 0 ∧
      (close env0 scripted 3 c).2.sock = false := by decide +kernel

end
end Verif
