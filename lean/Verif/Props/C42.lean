/-
C42  CreateBoltConn returns nil error only for an accepted session.  C43  A failed connection attempt leaks no socket.
-/
import Verif.Props.C28
import Verif.Props.C38
namespace Verif

section
variable {σ : Type} (env : Env) (W : World σ)

/-- C42: a nil error means that the server's answer to the initialisation message was SUCCESS, and the connection is open. -/
def C42_statement : Prop := ∀ (σ : Type) (env : Env) (W : World σ) (fuel : Nat) (user password : Bytes) (w : σ) (c : Conn σ),
  createBoltConn env W fuel user password w = (.ok (), c) →
    c.closed = false ∧ ∃ md, c.trace.getLast? = some (.recv (.struct .success [.map md]))

/-- What a nil error does mean, for every server: either the answer to the initialisation message was SUCCESS and the connection is open; or it was
some other message that is not a FAILURE, and the connection returned to the caller is already closed. -/
theorem C42_nil_partial {fuel : Nat} {user password : Bytes} {w : σ} {c : Conn σ} (h : createBoltConn env W fuel user password w = (.ok (), c)) :
    ∃ ws v t, c.trace = .sent [preamble] :: .sent ws :: .recv v :: t ∧
      ((c.closed = false ∧ c.sock = true ∧ t = [] ∧ ∃ md, v = .struct .success [.map md]) ∨
       (c.closed = true ∧ c.sock = false ∧ (∀ md, v ≠ .struct .success [.map md]) ∧ ∀ md, v ≠ .struct .failure [.map md])) := by
  obtain ⟨c1, vb, c2, p, nv, h1, h2, h3, _, h4⟩ := initConn_ok env W h
  obtain ⟨hd, _⟩ := createConnection_ok W h1
  rcases handshake_cases env W fuel user password w hd with ⟨n, p', segs', g1, g2, g3, g4⟩ | ⟨_, ⟨e, he⟩, _⟩
  · rw [g4] at h
    unfold sendInit at h
    obtain ⟨_, d1, k1, j1⟩ := CM.bind_eq_ok.mp h
    obtain ⟨v, d2, k2, j2⟩ := CM.bind_eq_ok.mp j1
    obtain ⟨k3, k4⟩ := consumeWith_ok env k2
    obtain ⟨_, _, _, rfl⟩ := sendMessage_ok env W k1
    obtain ⟨_, _, k5⟩ := receive_ok env k3
    have htr : d2.trace = [.sent [preamble], .sent (encodeMsg env p'.codec 65535 (p'.initMessage clientID (buildAuthTokenBasic user password))).1,
        .recv v] := by rw [k5]; rfl
    refine ⟨(encodeMsg env p'.codec 65535 (p'.initMessage clientID (buildAuthTokenBasic user password))).1, v, ?_⟩
    cases hs : asSuccess v with
    | some md =>
      rw [hs] at j2
      replace j2 : (CRes.ok (), d2) = (CRes.ok (), c) := j2
      simp only [Prod.mk.injEq, true_and] at j2
      subst j2
      refine ⟨[], htr, .inl ⟨by rw [k5]; rfl, by rw [k5]; rfl, rfl, md, ?_⟩⟩
      unfold asSuccess at hs
      split at hs
      · cases hs; rfl
      · cases hs
    | none =>
      rw [hs] at j2
      obtain ⟨q1, q2, t, q3⟩ := close_ok env W j2
      refine ⟨t ++ [.closed], ?_, .inr ⟨q1, q2, fun md h => (by rw [h] at hs; cases hs), fun md h => (by rw [h] at k4; cases k4)⟩⟩
      rw [q3, htr]; simp
  · rw [h] at he; cases he

/-- A server that answers the initialisation with IGNORED: no error, and a closed connection. -/
theorem C42_refuted : ¬ C42_statement := by
  intro h
  have h1 : opened [[[0x00, 0x00, 0x00, 0x04]], sIgnored] = (.ok (), (opened [[[0x00, 0x00, 0x00, 0x04]], sIgnored]).2) :=
    CRes.kind_ok (by decide +kernel)
  have h2 := (h _ env0 scripted 3 [0x75] [0x70] _ _ h1).1
  exact absurd h2 (by decide +kernel)

example : (opened sOpen4).1.kind = 0 ∧ (opened sOpen4).2.closed = false := by decide +kernel

/-- C43: after an error no socket is open. -/
def C43_statement : Prop := ∀ (σ : Type) (env : Env) (W : World σ) (fuel : Nat) (user password : Bytes) (w : σ) (e : Err) (c : Conn σ),
  createBoltConn env W fuel user password w = (.err e, c) → c.sock = false

/-- The property holds when dialling fails. -/
theorem C43_dial_partial (fuel : Nat) (user password : Bytes) (w : σ) (hd : (W.dial w).2 = false) :
    (createBoltConn env W fuel user password w).2.sock = false := by
  have hcreate : createConnection W (Conn.fresh w) = (.err (.plain "dial"), { Conn.fresh w with world := (W.dial w).1 }) := by
    unfold createConnection
    dsimp only
    rw [show (Conn.fresh w).world = w from rfl, if_neg (by simp [hd])]
  unfold createBoltConn initConn
  rw [CM.bind_err hcreate]
  rfl

/-- If the first read does not give an offered version, the call returns an error and leaves the socket open. -/
theorem handshake_leaks (fuel : Nat) (user password : Bytes) (w : σ) (hd : (W.dial w).2 = true)
    (hb : ∀ n p segs', offered n p → readOnce 4 (firstAnswer W w).segs ≠ some ([0, 0, 0, n], segs')) :
    (∃ e, (createBoltConn env W fuel user password w).1 = .err e) ∧ (createBoltConn env W fuel user password w).2.sock = true := by
  rcases handshake_cases env W fuel user password w hd with ⟨n, p', segs', g1, g2, g3, g4⟩ | ⟨_, he, _⟩
  · exact absurd g3 (hb n p' segs' g1)
  · refine ⟨he, ?_⟩
    have hcreate : createConnection W (Conn.fresh w) = (.ok (), { Conn.fresh w with world := (W.dial w).1, sock := true, closed := false }) := by
      unfold createConnection
      dsimp only
      rw [show (Conn.fresh w).world = w from rfl, if_pos hd]
    have hk := handshake_core W { Conn.fresh w with world := (W.dial w).1, sock := true, closed := false }
    obtain ⟨e, he⟩ := he
    unfold createBoltConn initConn at he ⊢
    rw [CM.bind_ok hcreate] at he ⊢
    match hh : CM.mapErr (fun e => e.wrap "handshake failed") (handshake W) { Conn.fresh w with world := (W.dial w).1, sock := true, closed := false } with
    | (.ok vb, c2) =>
      have hh' := CM.mapErr_eq_ok.mp hh
      rw [hh'] at hk
      rw [CM.bind_ok hh] at he ⊢
      match hg : getProtocol vb with
      | (some p', a, b) =>
        exfalso
        obtain ⟨n, hv, ho⟩ := getProtocol_offered (vb := vb) (p := p') (by rw [hg])
        unfold handshake at hh'
        dsimp only at hh'
        split at hh'
        · cases hh'
        · split at hh'
          · cases hh'
          · rename_i version s hr
            split at hh'
            · cases hh'
            · split at hh'
              · cases hh'
              · cases hh'
                rw [hv] at hr
                have hpre : handShake = preamble := by decide
                rw [hpre] at hr
                exact hb n p' s ho hr
      | (none, a, some e) => exact congrArg Core.sock hk
      | (none, a, none) => exact congrArg Core.sock hk
    | (.err e, c2) =>
      have := CM.mapErr_snd (fun e => e.wrap "handshake failed") (handshake W) { Conn.fresh w with world := (W.dial w).1, sock := true, closed := false }
      rw [hh] at this
      rw [CM.bind_err hh]
      show c2.sock = true
      rw [show c2 = _ from this]
      exact congrArg Core.sock hk
    | (.panic, c2) => rw [CM.bind_panic hh] at he; cases he
    | (.fuel, c2) => rw [CM.bind_fuel hh] at he; cases he

/-- It fails whenever the handshake fails: for every server whose answer is not an offered version, the call returns an error and leaves the socket
open, with nobody holding a reference to it. -/
theorem C43_leaks (fuel : Nat) (user password : Bytes) (w : σ) (hd : (W.dial w).2 = true)
    (hbad : ∀ n p rest, offered n p → (firstAnswer W w).segs.flatten ≠ [0, 0, 0, n] ++ rest) :
    (∃ e, (createBoltConn env W fuel user password w).1 = .err e) ∧ (createBoltConn env W fuel user password w).2.sock = true :=
  handshake_leaks env W fuel user password w hd fun n p _ ho hr => by
    obtain ⟨_, _, h3⟩ := readOnce_some (by omega) hr
    exact hbad n p _ ho h3.symm

/-- Wrong credentials: the server answers the initialisation with FAILURE (and the reset with SUCCESS); the socket stays open. -/
theorem C43_refuted : ¬ C43_statement := by
  intro h
  obtain ⟨script, hs⟩ : ∃ s, s = [[[0x00, 0x00, 0x00, 0x04]], sFailure, sSuccess] := ⟨_, rfl⟩
  have hk : (opened script).1.kind = 1 := by rw [hs]; decide +kernel
  have h2 : (opened script).2.sock = true := by rw [hs]; decide +kernel
  match ho : opened script with
  | (.err e, c) =>
    have := h _ env0 scripted 3 [0x75] [0x70] script e c ho
    rw [ho] at h2
    rw [h2] at this
    cases this
  | (.ok a, c) => rw [ho] at hk; cases hk
  | (.panic, c) => rw [ho] at hk; cases hk
  | (.fuel, c) => rw [ho] at hk; cases hk

/-- The hypothesis of `C43_leaks`: a web server. -/
example : ∀ n p rest, offered n p → (firstAnswer scripted [[[0x48, 0x54, 0x54, 0x50]]]).segs.flatten ≠ [0, 0, 0, n] ++ rest := by
  intro n p rest _ h
  simp [firstAnswer, scripted] at h

end
end Verif
