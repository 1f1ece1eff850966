/-
A relation between states and calls into the log that every primitive action respects is respected by every call.
-/
import Verif.Spec.LogHistory
import Verif.Proofs.StepsAll
namespace Verif

section
variable {σ α β : Type} (env : Env) (W : World σ) (L : LogEnv)

/-- Running `m` leads, with what it writes to the log, to a related state. -/
def LSteps (R : Conn σ → List LogCall → Conn σ → Prop) (m : LM σ α) : Prop := ∀ c, R c (m c).2.2 (m c).2.1

/-- A call into the log other than a dump and a change of the level. -/
def LogCall.IsText : LogCall → Prop
  | .trace _ | .info _ | .error _ => True
  | _ => False

/-- The primitive actions respect `R`. -/
structure LPrim (R : Conn σ → List LogCall → Conn σ → Prop) : Prop where
  refl : ∀ c, R c [] c
  trans : ∀ {a b c : Conn σ} {l l' : List LogCall}, R a l b → R b l' c → R a (l ++ l') c
  say : ∀ (c : Conn σ) (l : LogCall), l.IsText → R c [l] c
  send : ∀ v, LSteps R (logSend env W L v)
  recv : ∀ c, R c [] (receive env c).2
  endTx : ∀ h c, R c [] (c.endTx h)
  newTx : ∀ (c : Conn σ) (h : Nat), R c [] { c with txs := c.txs ++ [false], cur := some h }
  sock : ∀ c, R c [] (closeSock W c).2
  probe : ∀ c, R c [] (validateOpen W c).2

namespace LPrim
variable {env W L} {R : Conn σ → List LogCall → Conn σ → Prop} (P : LPrim env W L R)
include P

theorem bind {m : LM σ α} {f : α → LM σ β} (hm : LSteps R m) (hf : ∀ a, LSteps R (f a)) : LSteps R (m >>= f) := by
  intro c
  have h1 := hm c
  show R c (LM.bind m f c).2.2 (LM.bind m f c).2.1
  unfold LM.bind
  match h : m c with
  | (.ok a, c', l) => rw [h] at h1; exact P.trans h1 (hf a c')
  | (.err e, c', l) => rw [h] at h1; exact h1
  | (.panic, c', l) => rw [h] at h1; exact h1
  | (.fuel, c', l) => rw [h] at h1; exact h1

theorem lift {m : CM σ α} (h : ∀ c, R c [] (m c).2) : LSteps R (LM.lift m) := h

theorem pure (a : α) : LSteps R (Pure.pure a : LM σ α) := P.refl

theorem fail (e : Err) : LSteps R (LM.fail e : LM σ α) := P.refl

theorem get : LSteps R (LM.get : LM σ (Conn σ)) := P.refl

theorem fuel : LSteps R (LM.lift fun c => (.fuel, c) : LM σ α) := P.refl

theorem text {l : LogCall} (h : l.IsText) : LSteps R (LM.say l : LM σ Unit) := fun c => P.say c l h

theorem ite {p : Prop} [Decidable p] {m m' : LM σ α} (h : LSteps R m) (h' : LSteps R m') : LSteps R (if p then m else m') := by
  split
  · exact h
  · exact h'

theorem mapErr {m : LM σ α} (f : Err → Err) (h : LSteps R m) : LSteps R (LM.mapErr f m) := by
  intro c
  have h1 := h c
  unfold LM.mapErr
  match h : m c with
  | (.ok a, c', l) => rw [h] at h1; exact h1
  | (.err e, c', l) => rw [h] at h1; exact h1
  | (.panic, c', l) => rw [h] at h1; exact h1
  | (.fuel, c', l) => rw [h] at h1; exact h1

theorem thenFail {m : LM σ α} {log : Err → List LogCall} (hl : ∀ e, ∀ l ∈ log e, l.IsText) (e : Err) (h : LSteps R m) : LSteps R (LM.thenFail m log e : LM σ β) := by
  intro c
  have h1 := h c
  unfold LM.thenFail
  match h : m c with
  | (.ok a, c', l) => rw [h] at h1; exact h1
  | (.err e', c', l) =>
    rw [h] at h1
    have key : ∀ ls : List LogCall, (∀ l ∈ ls, l.IsText) → R c' ls c' := by
      intro ls
      induction ls with
      | nil => exact fun _ => P.refl c'
      | cons x ls ih => exact fun hx => P.trans (P.say c' x (hx x List.mem_cons_self)) (ih fun y hy => hx y (List.mem_cons_of_mem _ hy))
    exact P.trans h1 (key _ (hl e'))
  | (.panic, c', l) => rw [h] at h1; exact h1
  | (.fuel, c', l) => rw [h] at h1; exact h1

theorem consumeWith {reset : LM σ Unit} (h : LSteps R reset) : LSteps R (logConsumeWith env L reset) := by
  unfold logConsumeWith
  refine P.bind (P.text trivial) fun _ => ?_
  refine P.bind (P.lift P.recv) fun v => ?_
  refine P.bind (P.text trivial) fun _ => ?_
  cases asFailure v with
  | none => exact P.pure _
  | some md =>
    refine P.bind (P.text trivial) fun _ => ?_
    exact P.bind (P.mapErr _ h) fun _ => P.fail _

theorem resetLoop {close : LM σ Unit} (h : LSteps R close) (n : Nat) : LSteps R (logResetLoop env L close n) := by
  induction n with
  | zero => exact P.fuel
  | succ n ih =>
    unfold logResetLoop
    refine P.bind (P.mapErr _ (P.lift P.recv)) fun v => ?_
    refine P.ite (P.bind (P.text trivial) fun _ => ih) ?_
    cases asSuccess v with
    | some md => exact P.text trivial
    | none =>
      cases asFailure v with
      | some md => exact P.bind (P.text trivial) fun _ => P.thenFail (fun e l hl => by rw [List.mem_singleton.1 hl]; trivial) _ h
      | none => exact P.bind (P.text trivial) fun _ => P.thenFail (fun e l hl => absurd hl List.not_mem_nil) _ h

theorem resetWith {close : LM σ Unit} (h : LSteps R close) : LSteps R (logResetWith env W L close) := by
  unfold logResetWith
  refine P.bind (P.text trivial) fun _ => ?_
  refine P.bind (P.mapErr _ (P.send _)) fun _ => ?_
  exact fun c => P.resetLoop h _ c

theorem txExchange {consume : LM σ Val} (h : LSteps R consume) (msg : Val) (what : String) (said : Option String) :
    LSteps R (logTxExchange env W L consume msg what said) := by
  unfold logTxExchange
  refine P.bind (P.send _) fun _ => ?_
  refine P.ite ?_ ?_
  · refine P.bind h fun run => ?_
    cases asSuccess run with
    | none => exact P.fail _
    | some _ =>
      cases said with
      | none => exact P.pure _
      | some f => exact P.text trivial
  · refine P.bind P.get fun c => ?_
    refine P.bind (P.send _) fun _ => ?_
    refine P.bind h fun run => ?_
    refine P.bind h fun pull => ?_
    cases asSuccess run with
    | none => exact P.fail _
    | some _ =>
      cases said with
      | none =>
        cases asSuccess pull with
        | none => exact P.fail _
        | some _ => exact P.pure _
      | some f =>
        refine P.bind (P.text trivial) fun _ => ?_
        cases asSuccess pull with
        | none => exact P.fail _
        | some _ => exact P.text trivial

theorem rollbackWith {consume : LM σ Val} (h : LSteps R consume) (hd : Nat) : LSteps R (logRollbackWith env W L consume hd) := by
  unfold logRollbackWith
  refine P.bind P.get fun c => P.ite (P.fail _) ?_
  refine P.bind P.get fun c => ?_
  exact P.bind (P.txExchange h _ _ _) fun _ => P.lift (P.endTx hd)

theorem commitWith {consume : LM σ Val} (h : LSteps R consume) (hd : Nat) : LSteps R (logCommitWith env W L consume hd) := by
  unfold logCommitWith
  refine P.bind P.get fun c => P.ite (P.fail _) ?_
  refine P.bind P.get fun c => ?_
  exact P.bind (P.txExchange h _ _ _) fun _ => P.lift (P.endTx hd)

theorem closeWith {rollback : Nat → LM σ Unit} (h : ∀ hd, LSteps R (rollback hd)) : LSteps R (logCloseWith env W L rollback) := by
  unfold logCloseWith
  refine P.bind P.get fun c => P.ite (P.fail _) ?_
  refine P.bind P.get fun c => ?_
  have hk : LSteps R (do
      match (← LM.get).proto.closeMessage with
      | some m => logSend env W L m
      | none => Pure.pure ()
      LM.lift (closeSock W)) := by
    refine P.bind P.get fun c => ?_
    cases c.proto.closeMessage with
    | none => exact P.lift P.sock
    | some m => exact P.bind (P.send _) fun _ => P.lift P.sock
  cases c.cur with
  | none => exact hk
  | some hd => exact P.bind (h hd) fun _ => hk

theorem reset (fuel : Nat) : LSteps R (logReset env W L fuel) := by
  induction fuel with
  | zero => exact P.fuel
  | succ n ih =>
    unfold logReset
    exact P.resetWith (P.closeWith fun hd => P.rollbackWith (P.consumeWith ih) hd)

theorem consume (fuel : Nat) : LSteps R (logConsume env W L fuel) := P.consumeWith (P.reset fuel)

theorem rollback (fuel hd : Nat) : LSteps R (logRollback env W L fuel hd) := P.rollbackWith (P.consume fuel) hd

theorem commit (fuel hd : Nat) : LSteps R (logCommit env W L fuel hd) := P.commitWith (P.consume fuel) hd

theorem close (fuel : Nat) : LSteps R (logClose env W L fuel) := P.closeWith fun hd => P.rollback fuel hd

theorem makeIdle (fuel : Nat) : LSteps R (logMakeIdle env W L fuel) := by
  unfold logMakeIdle
  refine P.bind P.get fun c => ?_
  cases c.cur with
  | none => exact P.pure _
  | some hd => exact P.rollback fuel hd

theorem begin_ (fuel : Nat) (db : Bytes) : LSteps R (logBegin env W L fuel db) := by
  unfold logBegin
  refine P.bind P.get fun c => P.ite (P.fail _) ?_
  refine P.bind P.get fun c => P.ite (P.fail _) ?_
  refine P.bind P.get fun c => ?_
  refine P.bind (P.txExchange (P.consume fuel) _ _ _) fun _ => ?_
  refine P.bind P.get fun c => ?_
  exact P.bind (P.lift fun c' => P.newTx c' _) fun _ => P.pure _

theorem rowsLoop (fuel : Nat) (n : Nat) (out : List (List Val)) : LSteps R (logRowsLoop L (logConsume env W L fuel) n out) := by
  induction n generalizing out with
  | zero => exact P.fuel
  | succ n ih =>
    unfold logRowsLoop
    refine P.bind (P.consume fuel) fun v => ?_
    cases asSuccess v with
    | some md => exact P.bind (P.text trivial) fun _ => P.pure _
    | none =>
      cases asRecord v with
      | some fs => exact P.bind (P.text trivial) fun _ => ih _
      | none => exact P.fail _

theorem query (fuel : Nat) (q : Bytes) (ps : Entries) (db : Bytes) (inTx : Bool) : LSteps R (logQueryWithDb env W L fuel q ps db inTx) := by
  unfold logQueryWithDb
  refine P.bind (P.lift fun c => by rw [checkDb_snd]; exact P.refl c) fun _ => ?_
  unfold logRunQuery
  refine P.bind P.get fun c => P.ite (P.fail _) ?_
  refine P.bind P.get fun c => ?_
  refine P.bind (P.text trivial) fun _ => ?_
  refine P.bind (P.send _) fun _ => ?_
  refine P.bind (P.text trivial) fun _ => ?_
  refine P.bind (P.send _) fun _ => ?_
  refine P.bind (P.consume fuel) fun v => ?_
  refine P.bind (P.text trivial) fun _ => ?_
  cases asSuccess v with
  | none => exact P.fail _
  | some _ => exact fun c => P.rowsLoop fuel _ _ c

theorem void {m : LM σ α} (h : LSteps R m) : LSteps R m.void := P.bind h fun _ => P.pure _

theorem step (fuel : Nat) (op : Op) (hop : (∃ n, op = .setChunkSize n) → ∀ (n : UInt16) (c : Conn σ), R c [] (setChunkSize n c).2) : LSteps R (logStep env W L fuel op) := by
  cases op with
  | query q ps db => exact P.void (P.query fuel q ps db false)
  | exec q ps db => exact P.void (P.query fuel q ps db false)
  | begin_ db => exact P.void (P.begin_ fuel db)
  | commit h => exact P.commit fuel h
  | rollback h => exact P.rollback fuel h
  | txQuery h q ps db => exact P.void (P.query fuel q ps db true)
  | txExec h q ps => exact P.void (P.query fuel q ps [] false)
  | txExecDb h q ps db => exact P.void (P.query fuel q ps db true)
  | close => exact P.close fuel
  | makeIdle => exact P.makeIdle fuel
  | validateOpen => exact P.void (P.lift P.probe)
  | setChunkSize n => exact P.lift (hop ⟨n, rfl⟩ n)

theorem sendInit (fuel : Nat) (m : Val) : LSteps R (logSendInit env W L fuel m) := by
  unfold logSendInit
  refine P.bind (P.send _) fun _ => ?_
  refine P.bind (P.consume fuel) fun v => ?_
  cases asSuccess v with
  | some _ => exact P.text trivial
  | none => exact P.bind (P.text trivial) fun _ => P.close fuel

theorem history (fuel : Nat) (ops : List LogOp) (hops : (∃ n, .call (.setChunkSize n) ∈ ops) → ∀ (n : UInt16) (c : Conn σ), R c [] (setChunkSize n c).2)
    (hl : ∀ name, .setLevel name ∈ ops → ∀ c, R c [.setLevel name] c) (c : Conn σ) :
    R c (logHistory env W L fuel ops c).2 (logHistory env W L fuel ops c).1 := by
  induction ops generalizing c with
  | nil => exact P.refl c
  | cons op ops ih =>
    have ih := ih (fun ⟨n, h⟩ => hops ⟨n, List.mem_cons_of_mem _ h⟩) (fun name h => hl name (List.mem_cons_of_mem _ h))
    cases op with
    | call op => exact P.trans (P.step fuel op (fun ⟨n, h⟩ => hops ⟨n, by rw [h]; exact List.mem_cons_self⟩) c) (ih _)
    | setLevel name => exact P.trans (hl name List.mem_cons_self c) (ih c)

end LPrim

/-- Opening a connection writes nothing to the log before the version is known, nor afterwards if none is. -/
theorem logCreate_cases (fuel : Nat) (user password : Bytes) (w : σ) :
    ((logCreate env W L fuel user password w).2.2 = [] ∧ (∀ u, (logCreate env W L fuel user password w).1 ≠ .ok u) ∧
      ((logCreate env W L fuel user password w).2.1.trace = [] ∨ (logCreate env W L fuel user password w).2.1.trace = [.sent [handShake]])) ∨
    ∃ p c l, c.proto = p ∧ c.chunkSize = 65535 ∧ c.sock = true ∧ c.trace = [.sent [handShake]] ∧
      logCreate env W L fuel user password w = ((logSendInit env W L fuel (p.initMessage clientID (buildAuthTokenBasic user password)) c).1,
        (logSendInit env W L fuel (p.initMessage clientID (buildAuthTokenBasic user password)) c).2.1,
        .trace l :: (logSendInit env W L fuel (p.initMessage clientID (buildAuthTokenBasic user password)) c).2.2) := by
  generalize hx : logCreate env W L fuel user password w = x
  have hx : LM.bind (LM.lift (createConnection W)) (fun _ => LM.bind (LM.mapErr (fun e => e.wrap "handshake failed") (LM.lift (handshake W))) fun versionBytes =>
      match getProtocol versionBytes with
      | (some p, version, _) => LM.bind (LM.say (.trace (versionText p))) fun _ =>
        LM.bind (LM.lift (CM.modify fun c => { c with proto := p, version := version, versionBytes := versionBytes })) fun _ =>
          logSendInit env W L fuel (p.initMessage clientID (buildAuthTokenBasic user password))
      | (none, _, some e) => LM.fail e
      | (none, _, none) => LM.fail (.plain "unreachable")) (Conn.fresh w) = x := hx
  unfold LM.bind LM.lift at hx
  by_cases hd : (W.dial w).2 = true
  · have h1 : createConnection W (Conn.fresh w) = (.ok (), { Conn.fresh w with world := (W.dial w).1, sock := true, closed := false }) := by
      unfold createConnection
      dsimp only
      rw [show (Conn.fresh w).world = w from rfl, if_pos hd]
    rw [h1] at hx
    dsimp only at hx
    have h2 : ∀ c : Conn σ, (handshake W c).2.trace = c.trace ++ [.sent [handShake]] ∧ (handshake W c).2.chunkSize = c.chunkSize ∧ (handshake W c).2.sock = c.sock := by
      intro c
      unfold handshake
      dsimp only
      split
      · exact ⟨rfl, rfl, rfl⟩
      · split
        · exact ⟨rfl, rfl, rfl⟩
        · split
          · exact ⟨rfl, rfl, rfl⟩
          · split <;> exact ⟨rfl, rfl, rfl⟩
    have h2 : _ = [Ev.sent [handShake]] ∧ _ = 65535 ∧ _ = true := h2 { Conn.fresh w with world := (W.dial w).1, sock := true, closed := false }
    generalize { Conn.fresh w with world := (W.dial w).1, sock := true, closed := false } = c1 at hx h2
    match hh : handshake W c1 with
    | (.ok vb, c2) =>
      rw [hh] at h2
      have hm : LM.mapErr (fun e => e.wrap "handshake failed") (fun c => ((handshake W c).1, (handshake W c).2, [])) c1 = (.ok vb, c2, []) := by
        unfold LM.mapErr
        dsimp only
        rw [hh]
      rw [hm] at hx
      dsimp only at hx
      rcases hg : getProtocol vb with ⟨_ | p, n, _ | e⟩
      · rw [hg] at hx
        subst hx
        exact .inl ⟨rfl, fun _ => by nofun, .inr h2.1⟩
      · rw [hg] at hx
        subst hx
        exact .inl ⟨rfl, fun _ => by nofun, .inr h2.1⟩
      all_goals
        rw [hg] at hx
        subst hx
        exact .inr ⟨p, { c2 with proto := p, version := n, versionBytes := vb }, versionText p, rfl, h2.2.1, h2.2.2, h2.1, rfl⟩
    | (.err e, c2) =>
      rw [hh] at h2
      have hm : LM.mapErr (fun e => e.wrap "handshake failed") (fun c => ((handshake W c).1, (handshake W c).2, [])) c1 = (.err (e.wrap "handshake failed"), c2, []) := by
        unfold LM.mapErr
        dsimp only
        rw [hh]
      rw [hm] at hx
      subst hx
      exact .inl ⟨rfl, fun _ => by nofun, .inr h2.1⟩
    | (.panic, c2) =>
      rw [hh] at h2
      have hm : LM.mapErr (fun e => e.wrap "handshake failed") (fun c => ((handshake W c).1, (handshake W c).2, [])) c1 = (.panic, c2, []) := by
        unfold LM.mapErr
        dsimp only
        rw [hh]
      rw [hm] at hx
      subst hx
      exact .inl ⟨rfl, fun _ => by nofun, .inr h2.1⟩
    | (.fuel, c2) =>
      rw [hh] at h2
      have hm : LM.mapErr (fun e => e.wrap "handshake failed") (fun c => ((handshake W c).1, (handshake W c).2, [])) c1 = (.fuel, c2, []) := by
        unfold LM.mapErr
        dsimp only
        rw [hh]
      rw [hm] at hx
      subst hx
      exact .inl ⟨rfl, fun _ => by nofun, .inr h2.1⟩
  · have h1 : createConnection W (Conn.fresh w) = (.err (.plain "dial"), { Conn.fresh w with world := (W.dial w).1 }) := by
      unfold createConnection
      dsimp only
      rw [show (Conn.fresh w).world = w from rfl, if_neg hd]
    rw [h1] at hx
    subst hx
    exact .inl ⟨rfl, fun _ => by nofun, .inl rfl⟩

/-- What a session does after the version is known respects `R`. -/
theorem LPrim.session {R : Conn σ → List LogCall → Conn σ → Prop} (P : LPrim env W L R) (fuel : Nat) (user password : Bytes) (ops : List LogOp) (w : σ)
    (hops : (∃ n, .call (.setChunkSize n) ∈ ops) → ∀ (n : UInt16) (c : Conn σ), R c [] (setChunkSize n c).2)
    (hl : ∀ name, .setLevel name ∈ ops → ∀ c, R c [.setLevel name] c) :
    ((logSession env W L fuel user password ops w).2 = [] ∧
      ((logSession env W L fuel user password ops w).1.trace = [] ∨ (logSession env W L fuel user password ops w).1.trace = [.sent [handShake]])) ∨
    ∃ c l l', c.chunkSize = 65535 ∧ c.sock = true ∧ c.trace = [.sent [handShake]] ∧ R c l' (logSession env W L fuel user password ops w).1 ∧
      (logSession env W L fuel user password ops w).2 = .trace l :: l' := by
  unfold logSession
  rcases logCreate_cases env W L fuel user password w with ⟨h1, h2, h3⟩ | ⟨p, c, l, -, h2, h3, h4, h5⟩
  · match hx : logCreate env W L fuel user password w with
    | (.ok _, c, l) => rw [hx] at h2; exact absurd rfl (h2 _)
    | (.err e, c, l) => rw [hx] at h1 h3; exact .inl ⟨h1, h3⟩
    | (.panic, c, l) => rw [hx] at h1 h3; exact .inl ⟨h1, h3⟩
    | (.fuel, c, l) => rw [hx] at h1 h3; exact .inl ⟨h1, h3⟩
  · refine .inr ⟨c, l, ?_⟩
    have hs := P.sendInit fuel (p.initMessage clientID (buildAuthTokenBasic user password)) c
    rw [h5]
    match hx : logSendInit env W L fuel (p.initMessage clientID (buildAuthTokenBasic user password)) c with
    | (.ok _, c', l') => rw [hx] at hs; exact ⟨_, h2, h3, h4, P.trans hs (P.history fuel ops hops hl c'), rfl⟩
    | (.err e, c', l') => rw [hx] at hs; exact ⟨_, h2, h3, h4, hs, rfl⟩
    | (.panic, c', l') => rw [hx] at hs; exact ⟨_, h2, h3, h4, hs, rfl⟩
    | (.fuel, c', l') => rw [hx] at hs; exact ⟨_, h2, h3, h4, hs, rfl⟩

end
end Verif
