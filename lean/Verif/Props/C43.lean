/-
C43  A failed connection attempt leaks no socket: exactly which failed attempts leak one.
-/
import Verif.Props.C39
import Verif.Props.C42
import Verif.Props.C112
namespace Verif

namespace Spec
open Recover

/-- The answers to RESET make the driver give the session up: after any number of IGNORED there is one that is neither IGNORED nor SUCCESS. -/
def Rejects : List Val → Prop
  | [] => False
  | v :: vs => (IsIgnored v ∧ Rejects vs) ∨ (¬ IsIgnored v ∧ ¬ IsSuccess v)

/-- The answers to the first message make the driver give the session up: the first one is not SUCCESS and, if it is a FAILURE, the RESET is rejected too. -/
def TurnsAway : List Val → Prop
  | [] => False
  | v :: vs => ¬ IsSuccess v ∧ (IsFailure v → Rejects vs)

end Spec
open Spec Spec.Recover

section
variable {σ : Type} (env : Env) (W : World σ)

namespace C43

/-- The answers read by a computation, and whether they were such that the socket was closed. -/
def Reads (P : List Val → Prop) {α : Type} (m : CM σ α) : Prop := ∀ c : Conn σ, c.sock = true → c.closed = false → c.cur = none →
  (m c).1 = .fuel ∨ (m c).1 = .panic ∨ ∃ vs, recvs (m c).2.trace = recvs c.trace ++ vs ∧ ((m c).2.sock = false ↔ P vs)

theorem recvs_append (a b : List Ev) : recvs (a ++ b) = recvs a ++ recvs b := by simp [recvs]

theorem recvs_send (v : Val) (c : Conn σ) : recvs (sendMessage env W v c).2.trace = recvs c.trace := by
  unfold sendMessage writeAll
  dsimp only
  repeat' split
  all_goals first | rfl | simp [recvs]

theorem recvs_closeSock (c : Conn σ) : recvs (closeSock W c).2.trace = recvs c.trace := by
  unfold closeSock
  dsimp only
  split <;> simp [recvs]

/-- Closing a connection without a transaction closes the socket and reads nothing. -/
theorem closes (hW : ∀ w ws, (W.onSend w ws).ok = true) (roll : Nat → CM σ Unit) {c : Conn σ} (hs : c.sock = true) (hc : c.closed = false)
    (hcur : c.cur = none) : (closeWith env W roll c).2.sock = false ∧ recvs (closeWith env W roll c).2.trace = recvs c.trace := by
  have he : endCur roll c = (.ok (), c) := by rw [endCur_apply, hcur]
  rw [closeWith_apply, hc, if_neg (by simp), CM.bind_ok he, goodbye_apply]
  cases hm : c.proto.closeMessage with
  | none => exact ⟨congrArg Core.sock (closeSock_core W c), recvs_closeSock W c⟩
  | some m =>
    have hm' : m = newGoodbyeMessage := by cases hp : c.proto <;> rw [hp] at hm <;> cases hm <;> rfl
    subst hm'
    have hg := sendMessage_good env W hs (encodeMsg_goodbye env _ _) (hW _ _)
    show ((sendMessage env W newGoodbyeMessage >>= fun _ => closeSock W) c).2.sock = false ∧
      recvs ((sendMessage env W newGoodbyeMessage >>= fun _ => closeSock W) c).2.trace = recvs c.trace
    rw [CM.bind_ok hg]
    refine ⟨congrArg Core.sock (closeSock_core W _), ?_⟩
    have := recvs_send env W newGoodbyeMessage c
    rw [hg] at this
    rw [recvs_closeSock]; exact this

/-- What one read does to the state. -/
theorem receive_reads {c : Conn σ} (hs : c.sock = true) (hc : c.closed = false) (hcur : c.cur = none) :
    (receive env c).2.sock = true ∧ (receive env c).2.closed = false ∧ (receive env c).2.cur = none ∧
      (∀ v, (receive env c).1 = .ok v → recvs (receive env c).2.trace = recvs c.trace ++ [v]) ∧
      ((∀ v, (receive env c).1 ≠ .ok v) → recvs (receive env c).2.trace = recvs c.trace) := by
  have hk := receive_core env c
  refine ⟨(congrArg Core.sock hk).trans hs, (congrArg Core.closed hk).trans hc, (congrArg Core.cur hk).trans hcur, fun v hv => ?_, fun hv => ?_⟩
  · match h : receive env c with
    | (r, c') =>
      rw [h] at hv
      cases (show r = .ok v from hv)
      rw [(receive_ok env h).2.2]
      simp [recvs]
  · rcases C112.receive_trace env c with ⟨v, h⟩ | h
    · exact absurd h (hv v)
    · rw [h]

theorem loop_reads (hW : ∀ w ws, (W.onSend w ws).ok = true) (roll : Nat → CM σ Unit) : (n : Nat) → Reads Rejects (resetLoop env (closeWith env W roll) n)
  | 0 => fun _ _ _ _ => .inl rfl
  | n + 1 => by
    intro c hs hc hcur
    obtain ⟨r1, r2, r3, r4, r5⟩ := receive_reads env hs hc hcur
    unfold resetLoop
    match h : receive env c with
    | (.err e, c1) =>
      rw [h] at r1 r5
      have h' : CM.mapErr (fun e => e.wrap "An error occurred decoding reset message response") (receive env) c = (.err (e.wrap "An error occurred decoding reset message response"), c1) := by
        unfold CM.mapErr; rw [h]
      rw [CM.bind_err h']
      refine .inr (.inr ⟨[], by rw [r5 (by simp)]; simp, ?_⟩)
      rw [show c1.sock = true from r1]; simp [Rejects]
    | (.panic, c1) =>
      have h' : CM.mapErr (fun e => e.wrap "An error occurred decoding reset message response") (receive env) c = (.panic, c1) := by
        unfold CM.mapErr; rw [h]
      rw [CM.bind_panic h']; exact .inr (.inl rfl)
    | (.fuel, c1) =>
      have h' : CM.mapErr (fun e => e.wrap "An error occurred decoding reset message response") (receive env) c = (.fuel, c1) := by
        unfold CM.mapErr; rw [h]
      rw [CM.bind_fuel h']; exact .inl rfl
    | (.ok v, c1) =>
      rw [h] at r1 r2 r3 r4
      replace r4 := r4 v rfl
      rw [CM.bind_ok (CM.mapErr_eq_ok.mpr h)]
      by_cases hi : isIgnored v = true
      · rw [if_pos hi]
        rcases loop_reads hW roll n c1 r1 r2 r3 with g | g | ⟨vs, g1, g2⟩
        · exact .inl g
        · exact .inr (.inl g)
        · refine .inr (.inr ⟨v :: vs, by rw [g1, r4]; simp, g2.trans ?_⟩)
          have := (C112.isIgnored_iff v).mp hi
          constructor
          · exact fun h => .inl ⟨this, h⟩
          · rintro (⟨_, h⟩ | ⟨h, _⟩)
            · exact h
            · exact absurd this h
      · rw [if_neg hi]
        have hi' : ¬ IsIgnored v := fun h => hi ((C112.isIgnored_iff v).mpr h)
        have hR : Rejects [v] ↔ ¬ IsSuccess v := by
          constructor
          · rintro (⟨h, _⟩ | ⟨_, h⟩)
            · exact absurd h hi'
            · exact h
          · exact fun h => .inr ⟨hi', h⟩
        cases hsu : asSuccess v with
        | some md =>
          refine .inr (.inr ⟨[v], r4, ?_⟩)
          rw [hR]
          have := (C112.asSuccess_iff v).mp ⟨md, hsu⟩
          show c1.sock = false ↔ _
          rw [show c1.sock = true from r1]; simp [this]
        | none =>
          have hns : ¬ IsSuccess v := by rw [← C112.asSuccess_iff, hsu]; simp
          obtain ⟨q1, q2⟩ := closes env W hW roll r1 r2 r3
          have key : ∀ e : Err, recvs (CM.thenFail (closeWith env W roll) e c1 : CRes Unit × Conn σ).2.trace = recvs c.trace ++ [v] ∧
              ((CM.thenFail (closeWith env W roll) e c1 : CRes Unit × Conn σ).2.sock = false ↔ Rejects [v]) := fun e => by
            rw [CM.thenFail_snd, q2, hR]
            exact ⟨r4, by simp [q1, hns]⟩
          cases hfa : asFailure v with
          | some md => exact .inr (.inr ⟨[v], key _⟩)
          | none => exact .inr (.inr ⟨[v], key _⟩)

theorem reset_reads (hW : ∀ w ws, (W.onSend w ws).ok = true) : (fuel : Nat) → Reads Rejects (reset env W fuel)
  | 0 => fun _ _ _ _ => .inl rfl
  | fuel + 1 => by
    intro c hs hc hcur
    have hg := sendMessage_good env W hs (reset_enc env c.proto.codec c.chunkSize) (hW _ _)
    have ht := recvs_send env W newResetMessage c
    have hk := sendMessage_core env W newResetMessage c
    rw [hg] at ht hk
    have he : reset env W (fuel + 1) c = resetLoop env (closeWith env W (rollbackWith env W (consumeWith env (reset env W fuel))))
        (streamLen (c.sent env W newResetMessage).segs + 1) (c.sent env W newResetMessage) := by
      show (resetWith env W _) c = _
      unfold resetWith
      exact CM.bind_ok (CM.mapErr_eq_ok.mpr hg)
    rw [he, ← ht]
    exact loop_reads env W hW _ _ (c.sent env W newResetMessage) ((congrArg Core.sock hk).trans hs) ((congrArg Core.closed hk).trans hc)
      ((congrArg Core.cur hk).trans hcur)

theorem init_reads (hW : ∀ w ws, (W.onSend w ws).ok = true) (fuel : Nat) (m : Val) : Reads TurnsAway (sendInit env W fuel m) := by
  intro c hs hc hcur
  have ht := recvs_send env W m c
  have hk := sendMessage_core env W m c
  unfold sendInit
  match hg : sendMessage env W m c with
  | (.err e, c1) =>
    rw [hg] at ht hk
    rw [CM.bind_err hg]
    refine .inr (.inr ⟨[], by simpa using ht, ?_⟩)
    show c1.sock = false ↔ _
    rw [show c1.sock = true from (congrArg Core.sock hk).trans hs]; simp [TurnsAway]
  | (.panic, c1) => rw [CM.bind_panic hg]; exact .inr (.inl rfl)
  | (.fuel, c1) => rw [CM.bind_fuel hg]; exact .inl rfl
  | (.ok (), c1) =>
    rw [hg] at ht hk
    rw [CM.bind_ok hg]
    replace hs : c1.sock = true := (congrArg Core.sock hk).trans hs
    replace hc : c1.closed = false := (congrArg Core.closed hk).trans hc
    replace hcur : c1.cur = none := (congrArg Core.cur hk).trans hcur
    rw [← show recvs c1.trace = recvs c.trace from ht]
    clear ht hk hg
    obtain ⟨r1, r2, r3, r4, r5⟩ := receive_reads env hs hc hcur
    unfold consume consumeWith
    match h : receive env c1 with
    | (.err e, c2) =>
      rw [h] at r1 r5
      rw [CM.bind_err (CM.bind_err h)]
      refine .inr (.inr ⟨[], by rw [r5 (by simp)]; simp, ?_⟩)
      rw [show c2.sock = true from r1]; simp [TurnsAway]
    | (.panic, c2) => rw [CM.bind_panic (CM.bind_panic h)]; exact .inr (.inl rfl)
    | (.fuel, c2) => rw [CM.bind_fuel (CM.bind_fuel h)]; exact .inl rfl
    | (.ok v, c2) =>
      rw [h] at r1 r2 r3 r4
      replace r4 := r4 v rfl
      cases hfa : asFailure v with
      | some md =>
        have hf := (C112.asFailure_iff v).mp ⟨md, hfa⟩
        have hns : ¬ IsSuccess v := by
          obtain ⟨md, rfl⟩ := hf
          rintro ⟨md', h⟩; cases h
        have hT : ∀ vs, TurnsAway (v :: vs) ↔ Rejects vs := fun vs => ⟨fun h => h.2 hf, fun h => ⟨hns, fun _ => h⟩⟩
        have hc1 : (consumeWith env (reset env W fuel) c1) = (CM.bind (CM.mapErr (fun _ => (GoErr.failure md).wrap "reset failed") (reset env W fuel)) fun _ =>
            CM.fail ((GoErr.failure md).wrap "Neo4J reported a failure for the runQuery")) c2 := by
          unfold consumeWith
          rw [CM.bind_ok h, hfa]
        obtain ⟨e, he⟩ : ∃ e : Err, consumeWith env (reset env W fuel) c1 = (match (reset env W fuel c2).1 with
            | .fuel => .fuel
            | .panic => .panic
            | _ => .err e, (reset env W fuel c2).2) := by
          rw [hc1]
          unfold CM.bind CM.mapErr
          cases hr : reset env W fuel c2 with
          | mk r c3 => cases r <;> first | exact ⟨_, rfl⟩ | exact ⟨.new "", rfl⟩
        have hq := reset_reads env W hW fuel c2 r1 r2 r3
        rw [r4] at hq
        show ((consumeWith env (reset env W fuel) >>= _) c1).1 = .fuel ∨ ((consumeWith env (reset env W fuel) >>= _) c1).1 = .panic ∨
          ∃ vs, recvs ((consumeWith env (reset env W fuel) >>= _) c1).2.trace = recvs c1.trace ++ vs ∧
            (((consumeWith env (reset env W fuel) >>= _) c1).2.sock = false ↔ TurnsAway vs)
        generalize hrr : reset env W fuel c2 = rr at he hq
        obtain ⟨r, c3⟩ := rr
        have hvs : (∃ vs, recvs c3.trace = (recvs c1.trace ++ [v]) ++ vs ∧ (c3.sock = false ↔ Rejects vs)) →
            ∃ vs, recvs c3.trace = recvs c1.trace ++ vs ∧ (c3.sock = false ↔ TurnsAway vs) := by
          rintro ⟨vs, h1, h2⟩
          exact ⟨v :: vs, by simpa using h1, h2.trans (hT vs).symm⟩
        cases r with
        | fuel => rw [CM.bind_fuel he]; exact .inl rfl
        | panic => rw [CM.bind_panic he]; exact .inr (.inl rfl)
        | ok _ =>
          rw [CM.bind_err he]
          rcases hq with g | g | g
          · cases g
          · cases g
          · exact .inr (.inr (hvs g))
        | err _ =>
          rw [CM.bind_err he]
          rcases hq with g | g | g
          · cases g
          · cases g
          · exact .inr (.inr (hvs g))
      | none =>
        have hnf : ¬ IsFailure v := by rw [← C112.asFailure_iff, hfa]; simp
        have h2 : consumeWith env (reset env W fuel) c1 = (.ok v, c2) := by
          unfold consumeWith
          rw [CM.bind_ok h, hfa]; rfl
        show ((consumeWith env (reset env W fuel) >>= _) c1).1 = .fuel ∨ ((consumeWith env (reset env W fuel) >>= _) c1).1 = .panic ∨
          ∃ vs, recvs ((consumeWith env (reset env W fuel) >>= _) c1).2.trace = recvs c1.trace ++ vs ∧
            (((consumeWith env (reset env W fuel) >>= _) c1).2.sock = false ↔ TurnsAway vs)
        rw [CM.bind_ok h2]
        cases hsu : asSuccess v with
        | some md =>
          have := (C112.asSuccess_iff v).mp ⟨md, hsu⟩
          refine .inr (.inr ⟨[v], r4, ?_⟩)
          show c2.sock = false ↔ _
          rw [show c2.sock = true from r1]; simp [TurnsAway, this]
        | none =>
          have hns : ¬ IsSuccess v := by rw [← C112.asSuccess_iff, hsu]; simp
          obtain ⟨q1, q2⟩ := closes env W hW (rollback env W fuel) r1 r2 r3
          refine .inr (.inr ⟨[v], q2.trans r4, ?_⟩)
          show (closeWith env W (rollback env W fuel) c2).2.sock = false ↔ _
          simp [q1, TurnsAway, hns, hnf]

end C43

/-- A failed attempt on a network that takes what is written to it leaves the socket closed exactly if the server turned the driver away: it answered the first
message with something that is neither SUCCESS nor FAILURE, or with a FAILURE and then the RESET with something else than SUCCESS.  After every other failure
(a refused version, a lost connection, an unreadable answer, wrong credentials) the socket stays open, with nobody holding a reference to it. -/
theorem C43_exact {fuel : Nat} {user password : Bytes} {w : σ} {e : Err} {c : Conn σ} (hd : (W.dial w).2 = true)
    (hW : ∀ w ws, (W.onSend w ws).ok = true) (h : createBoltConn env W fuel user password w = (.err e, c)) :
    c.sock = false ↔ TurnsAway (recvs c.trace) := by
  rcases handshake_cases env W fuel user password w hd with ⟨n, p, segs', h1, h2, h3, h4⟩ | ⟨h1, _, ht⟩
  · rcases C43.init_reads env W hW fuel (p.initMessage clientID (buildAuthTokenBasic user password)) (afterHandshake W w segs' p) rfl rfl rfl with
      g | g | ⟨vs, g1, g2⟩
    · rw [← h4, h] at g; cases g
    · rw [← h4, h] at g; cases g
    · rw [← h4, h] at g1 g2
      rw [show recvs c.trace = vs from g1]
      exact g2
  · have hl := (handshake_leaks env W fuel user password w hd fun n p s ho => h1 n p s ho (hW _ _)).2
    rw [h] at ht hl
    rw [show c.trace = [.sent [preamble]] from ht, show c.sock = true from hl]
    simp [recvs, TurnsAway]

/-- Wrong credentials: FAILURE, and SUCCESS for the RESET.  The socket stays open. -/
example : (opened [[[0x00, 0x00, 0x00, 0x04]], sFailure, sSuccess]).1.kind = 1 ∧ (opened [[[0x00, 0x00, 0x00, 0x04]], sFailure, sSuccess]).2.sock = true ∧
    (scripted.dial [[[0x00, 0x00, 0x00, 0x04]], sFailure, sSuccess]).2 = true ∧ ∀ w ws, (scripted.onSend w ws).ok = true := by
  refine ⟨by decide +kernel, by decide +kernel, rfl, fun w ws => ?_⟩
  cases w <;> rfl

/-- FAILURE, and FAILURE for the RESET.  The socket is closed. -/
example : (opened [[[0x00, 0x00, 0x00, 0x04]], sFailure, sFailure]).1.kind = 1 ∧
    (opened [[[0x00, 0x00, 0x00, 0x04]], sFailure, sFailure]).2.sock = false := by decide +kernel

end
end Verif
