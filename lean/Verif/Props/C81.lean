/-
C81  A transaction can be ended, and the connection used again, after an error.
-/
import Verif.Props.C80
namespace Verif
open Spec

/-- The calls that end a transaction or need it ended. -/
def endCalls (op : Op) : Prop := match op with
  | .begin_ _ => True
  | .commit _ => True
  | .rollback _ => True
  | .makeIdle => True
  | .close => True
  | _ => False

/-- Full statement: whatever happened on a connection to a server that follows the protocol, as long as the session is not over at the server, rolling back the
open transaction ends it, and a new one can be begun. -/
def C81_statement : Prop := ∀ (σ : Type) (env : Env) (W : World σ) (sess : σ → Session) (fuel : Nat) (user password : Bytes) (w : σ) (c : Conn σ) (ops : List Op) (h : Nat),
  TFollows W sess → user.length ≤ 65535 → password.length ≤ 65535 → createBoltConn env W (fuel + 1) user password w = (.ok (), c) →
  (∀ op ∈ ops, op.Fine env c.proto.codec 8) → PlainCall ops → (run env W (fuel + 1) ops c).cur = some h →
  (sess (run env W (fuel + 1) (ops ++ [.rollback h]) c).world).phase ≠ .defunct → (run env W (fuel + 1) (ops ++ [.rollback h]) c).cur = none

section
variable {σ : Type} (env : Env) {W : World σ} {sess : σ → Session} {D : Database} (hT : TServes D W sess) {lo : Nat} (hlo : 8 ≤ lo)

/-- No transaction at the server, although the connection has an open one; or the session is over. -/
structure Stuck (p : Proto) (lo h : Nat) (c : Conn σ) : Prop where
  inv : c.core.Inv
  idle : Idle env (fun w => (sess w).phase) p lo c
  cur : c.cur = some h
  lost : Dead (fun w => (sess w).phase) c ∨ (ledgerOf sess c).tx = none

theorem void_not_ok {α : Type} {m : CM σ α} {c : Conn σ} (h : ∀ a, (m c).1 ≠ .ok a) : ∀ a, (m.void c).1 ≠ .ok a := by
  unfold CM.void
  rw [CM.bind_apply]
  match hm : m c with
  | (.ok a, _) => rw [hm] at h; exact absurd rfl (h a)
  | (.err _, _) => intro a; simp
  | (.panic, _) => intro a; simp
  | (.fuel, _) => intro a; simp

theorem void_snd {α : Type} (m : CM σ α) (c : Conn σ) : (m.void c).2 = (m c).2 := by
  unfold CM.void
  rw [CM.bind_apply]
  match m c with
  | (.ok a, _) => rfl
  | (.err _, _) => rfl
  | (.panic, _) => rfl
  | (.fuel, _) => rfl

theorem bind_snd {α β : Type} {m : CM σ α} {f : α → CM σ β} {c : Conn σ} (h : ∀ a, (m c).1 ≠ .ok a) : ((m >>= f) c).2 = (m c).2 := by
  rw [CM.bind_apply]
  match hm : m c with
  | (.ok a, _) => rw [hm] at h; exact absurd rfl (h a)
  | (.err _, _) => rfl
  | (.panic, _) => rfl
  | (.fuel, _) => rfl

include hT

/-- A statement after the end of the session. -/
theorem dead_runQuery_core (fuel : Nat) (q : Bytes) (ps : Entries) (db : Bytes) (inTx : Bool) {c : Conn σ} (h : Dead (fun w => (sess w).phase) c) :
    (runQuery env W fuel q ps db inTx c).2.core = c.core := by
  by_cases hcl : c.closed = true
  · rw [runQuery_closed env W _ q ps db inTx hcl]
  · rw [runQuery_open env W (by simpa using hcl)]
    obtain ⟨a1, a2, _⟩ := dead_send env hT (c.proto.runMessage q ps db c.mode (!inTx)) h
    match h1 : sendMessage env W (c.proto.runMessage q ps db c.mode (!inTx)) c with
    | (.err e, c1) => rw [h1] at a2; rw [CM.bind_err h1]; exact a2
    | (.panic, c1) => rw [h1] at a2; rw [CM.bind_panic h1]; exact a2
    | (.fuel, c1) => rw [h1] at a2; rw [CM.bind_fuel h1]; exact a2
    | (.ok (), c1) =>
      rw [h1] at a1 a2
      rw [CM.bind_ok h1]
      obtain ⟨b1, b2, _⟩ := dead_send env hT c.proto.pullAllMessage a1
      match h2 : sendMessage env W c.proto.pullAllMessage c1 with
      | (.err e, c2) => rw [h2] at b2; rw [CM.bind_err h2]; exact b2.trans a2
      | (.panic, c2) => rw [h2] at b2; rw [CM.bind_panic h2]; exact b2.trans a2
      | (.fuel, c2) => rw [h2] at b2; rw [CM.bind_fuel h2]; exact b2.trans a2
      | (.ok (), c2) =>
        rw [h2] at b1 b2
        rw [CM.bind_ok h2]
        obtain ⟨e, c3, k1, k2, _⟩ := dead_consume env hT (reset := reset env W fuel) b1
        rw [CM.bind_err (show consume env W fuel c2 = _ from k1)]
        exact k2.trans (b2.trans a2)

/-- After the end of the session nothing works, and an open transaction stays open. -/
theorem dead_step (fuel : Nat) (op : Op) {h : Nat} {c : Conn σ} (hinv : c.core.Inv) (hc : c.cur = some h) (hd : Dead (fun w => (sess w).phase) c) :
    let r := step env W fuel op c
    r.2.cur = some h ∧ (endCalls op → ∀ a, r.1 ≠ .ok a) ∧ ((statementOf op).isSome → ∀ a, r.1 ≠ .ok a) := by
  dsimp only
  -- a statement
  have stmt : ∀ {α : Type} (q : Bytes) (ps : Entries) (db : Bytes) (inTx : Bool) (f : List (List Val) × Entries → CM σ α),
      (CM.void (checkDb db >>= fun _ => runQuery env W fuel q ps db inTx >>= f) c).2.cur = some h ∧
      ∀ a, (CM.void (checkDb db >>= fun _ => runQuery env W fuel q ps db inTx >>= f) c).1 ≠ .ok a := by
    intro α q ps db inTx f
    have h1 := dead_runQuery env hT fuel q ps db inTx hd
    have h2 := dead_runQuery_core env hT fuel q ps db inTx hd
    have h3 : ∀ a, ((runQuery env W fuel q ps db inTx >>= f) c).1 ≠ .ok a := by
      intro a ha
      obtain ⟨b, c1, h4, _⟩ := CM.bind_eq_ok.mp (Prod.ext (x := (runQuery env W fuel q ps db inTx >>= f) c) (y := (.ok a, _)) ha rfl)
      exact h1 b (by rw [h4])
    have h4 : ((runQuery env W fuel q ps db inTx >>= f) c).2.core = c.core := by rw [bind_snd h1]; exact h2
    have hs := checkDb_snd db c
    have key : (∀ a, ((checkDb db >>= fun _ => runQuery env W fuel q ps db inTx >>= f) c).1 ≠ .ok a) ∧
        ((checkDb db >>= fun _ => runQuery env W fuel q ps db inTx >>= f) c).2.core = c.core := by
      match hx : checkDb db c with
      | (.ok (), c1) =>
        rw [show c1 = c by rw [hx] at hs; exact hs] at hx
        rw [CM.bind_ok hx]
        exact ⟨h3, h4⟩
      | (.err e, c1) => rw [CM.bind_err hx]; rw [hx] at hs; exact ⟨fun a => by simp, by rw [show c1 = c from hs]⟩
      | (.panic, c1) => rw [CM.bind_panic hx]; rw [hx] at hs; exact ⟨fun a => by simp, by rw [show c1 = c from hs]⟩
      | (.fuel, c1) => rw [CM.bind_fuel hx]; rw [hx] at hs; exact ⟨fun a => by simp, by rw [show c1 = c from hs]⟩
    refine ⟨?_, void_not_ok key.1⟩
    rw [void_snd]
    exact (congrArg Core.cur key.2).trans hc
  have pure : ∀ (q : Bytes) (ps : Entries) (db : Bytes) (inTx : Bool),
      (CM.void (checkDb db >>= fun _ => runQuery env W fuel q ps db inTx) c).2.cur = some h ∧
      ∀ a, (CM.void (checkDb db >>= fun _ => runQuery env W fuel q ps db inTx) c).1 ≠ .ok a := by
    intro q ps db inTx
    have h1 := dead_runQuery env hT fuel q ps db inTx hd
    have h2 := dead_runQuery_core env hT fuel q ps db inTx hd
    have hs := checkDb_snd db c
    have key : (∀ a, ((checkDb db >>= fun _ => runQuery env W fuel q ps db inTx) c).1 ≠ .ok a) ∧
        ((checkDb db >>= fun _ => runQuery env W fuel q ps db inTx) c).2.core = c.core := by
      match hx : checkDb db c with
      | (.ok (), c1) =>
        rw [show c1 = c by rw [hx] at hs; exact hs] at hx
        rw [CM.bind_ok hx]
        exact ⟨h1, h2⟩
      | (.err e, c1) => rw [CM.bind_err hx]; rw [hx] at hs; exact ⟨fun a => by simp, by rw [show c1 = c from hs]⟩
      | (.panic, c1) => rw [CM.bind_panic hx]; rw [hx] at hs; exact ⟨fun a => by simp, by rw [show c1 = c from hs]⟩
      | (.fuel, c1) => rw [CM.bind_fuel hx]; rw [hx] at hs; exact ⟨fun a => by simp, by rw [show c1 = c from hs]⟩
    refine ⟨?_, void_not_ok key.1⟩
    rw [void_snd]
    exact (congrArg Core.cur key.2).trans hc
  have roll : Stays sess c (rollback env W fuel h c) := dead_endWith env hT (reset := reset env W fuel) _ _ h hd
  cases op with
  | query q ps db => exact ⟨(pure q ps db false).1, fun h => h.elim, fun _ => (pure q ps db false).2⟩
  | exec q ps db => exact ⟨(stmt q ps db false _).1, fun h => h.elim, fun _ => (stmt q ps db false _).2⟩
  | txQuery n q ps db => exact ⟨(pure q ps db true).1, fun h => h.elim, fun _ => (pure q ps db true).2⟩
  | txExec n q ps => exact ⟨(stmt q ps [] false _).1, fun h => h.elim, fun _ => (stmt q ps [] false _).2⟩
  | txExecDb n q ps db => exact ⟨(stmt q ps db true _).1, fun h => h.elim, fun _ => (stmt q ps db true _).2⟩
  | begin_ db =>
    have e : step env W fuel (.begin_ db) c = (.err (.new "transaction already open"), c) := CM.bind_err (by rw [begin_apply, hc]; rfl)
    rw [e]
    exact ⟨hc, fun _ a => by simp, fun h => by cases h⟩
  | commit n =>
    have := dead_endWith env hT (reset := reset env W fuel) Proto.txCommitMessage "Unrecognized response type committing transaction" n hd
    exact ⟨this.2.1.trans hc, fun _ => this.1, fun h => by cases h⟩
  | rollback n =>
    have := dead_endWith env hT (reset := reset env W fuel) Proto.txRollbackMessage "Unrecognized response type rolling back transaction" n hd
    exact ⟨this.2.1.trans hc, fun _ => this.1, fun h => by cases h⟩
  | close =>
    have h1 : Stays sess c (endCur (rollback env W fuel) c) := by rw [endCur_apply, hc]; exact roll
    have e : step env W fuel .close c = if c.closed then (.err errClosed, c) else (endCur (rollback env W fuel) >>= fun _ => goodbye env W) c := closeWith_apply env W _ c
    rw [e]
    split
    · exact ⟨hc, fun _ a => by simp, fun h => by cases h⟩
    · have := Stays.bind hT (f := fun _ => goodbye env W) h1
      exact ⟨this.2.1.trans hc, fun _ => this.1, fun h => by cases h⟩
  | makeIdle =>
    have e : step env W fuel .makeIdle c = rollback env W fuel h c := by
      show makeIdle env W fuel c = _
      rw [makeIdle_eq, endCur_apply, hc]
    rw [e]
    exact ⟨roll.2.1.trans hc, fun _ => roll.1, fun h => by cases h⟩
  | validateOpen =>
    have e : (step env W fuel .validateOpen c).2 = (validateOpen W c).2 := void_snd _ c
    rw [e]
    refine ⟨?_, fun h => h.elim, fun h => by cases h⟩
    unfold validateOpen
    split
    · exact hc
    · split
      · exact hc
      · exact hc
      · split <;> exact hc
  | setChunkSize n => exact ⟨hc, fun h => h.elim, fun h => by cases h⟩

include hlo

/-- A call on a stuck connection leaves it stuck.  If it begins or ends a transaction it fails; if it is a statement that succeeds, the statement is permanent. -/
theorem step_stuck (fuel : Nat) {op : Op} {p : Proto} {h : Nat} {c : Conn σ} (hU : Understood env p.codec W) (hop : op.Fine env p.codec lo)
    (hpl : ∀ q, statementOf op = some q → q ∉ controlVerbs) (hs : Stuck (sess := sess) env p lo h c) :
    let r := step env W (fuel + 1) op c
    Stuck (sess := sess) env p lo h r.2 ∧ (endCalls op → ∀ a, r.1 ≠ .ok a) ∧
      (∀ q, statementOf op = some q → r.1 = .ok () → (ledgerOf sess r.2).lasting = (ledgerOf sess c).lasting ++ [⟨q, fieldsOf env p c.mode op, none⟩]) := by
  dsimp only
  have hinv : (step env W (fuel + 1) op c).2.core.Inv := Keeps.step env W (fuel + 1) op c hs.inv
  have hidle := (step_kept env hT.follows p hlo hU fuel hop hs.idle).1
  have hp := hs.idle.1
  rcases Spec.idle_alive env hs.idle hs.inv with hd | hal
  · obtain ⟨k1, k2, k3⟩ := dead_step env hT (fuel + 1) op hs.inv hs.cur hd
    refine ⟨⟨hinv, hidle, k1, .inl ((dead_ledger env hT).step env W (fuel + 1) op c hd).1⟩, k2, fun q hq hok => ?_⟩
    exact absurd hok (k3 (by rw [hq]; rfl) ())
  · have hl : (ledgerOf sess c).tx = none := by
      rcases hs.lost with hd | h
      · rcases hd.1 with h | h
        · rw [hal.sock] at h; cases h
        · have := hal.ready; rw [show (sess c.world).phase = _ from h] at this; cases this
      · exact h
    have hsl := step_ledger env hT hlo fuel hal (by rw [hp]; exact hU) (by rw [hp]; exact hop)
    rw [hp] at hsl
    rcases hsl with ⟨he, hf⟩ | ⟨k1, k2, k3, k4, k5⟩
    · have stmt : ∀ q, statementOf op = some q → (((step env W (fuel + 1) op c).1 = .ok () ∧ (step env W (fuel + 1) op c).2.core = c.core ∧
          ledgerOf sess (step env W (fuel + 1) op c).2 = (ledgerOf sess c).complete q (fieldsOf env p c.mode op)) ∨ ((∀ a, (step env W (fuel + 1) op c).1 ≠ .ok a) ∧ (step env W (fuel + 1) op c).2 = c)) →
          Stuck (sess := sess) env p lo h (step env W (fuel + 1) op c).2 ∧
          (∀ q', statementOf op = some q' → (step env W (fuel + 1) op c).1 = .ok () → (ledgerOf sess (step env W (fuel + 1) op c).2).lasting = (ledgerOf sess c).lasting ++ [⟨q', fieldsOf env p c.mode op, none⟩]) := by
        rintro q hq (⟨e1, e2, e3⟩ | ⟨e1, e2⟩)
        · have h3 : q ≠ ascii "BEGIN" := fun h => hpl q hq (by simp [h, controlVerbs])
          have h4 : q ≠ ascii "COMMIT" := fun h => hpl q hq (by simp [h, controlVerbs])
          have h5 : q ≠ ascii "ROLLBACK" := fun h => hpl q hq (by simp [h, controlVerbs])
          have e4 : ledgerOf sess (step env W (fuel + 1) op c).2 = ⟨none, (ledgerOf sess c).lasting ++ [⟨q, fieldsOf env p c.mode op, none⟩]⟩ := by
            rw [e3]
            unfold Ledger.complete Ledger.stmt
            rw [if_neg h3, if_neg h4, if_neg h5, hl]; rfl
          refine ⟨⟨hinv, hidle, (congrArg Core.cur e2).trans hs.cur, .inr (by rw [e4])⟩, ?_⟩
          intro q' hq' _
          rw [hq] at hq'
          cases hq'
          rw [e4]
        · refine ⟨by rw [e2]; exact hs, fun q' _ hok => absurd hok (e1 ())⟩
      have same : (∀ a, (step env W (fuel + 1) op c).1 ≠ .ok a) → (step env W (fuel + 1) op c).2 = c →
          Stuck (sess := sess) env p lo h (step env W (fuel + 1) op c).2 ∧ (endCalls op → ∀ a, (step env W (fuel + 1) op c).1 ≠ .ok a) ∧
          (∀ q', statementOf op = some q' → (step env W (fuel + 1) op c).1 = .ok () → (ledgerOf sess (step env W (fuel + 1) op c).2).lasting = (ledgerOf sess c).lasting ++ [⟨q', fieldsOf env p c.mode op, none⟩]) := by
        intro e1 e2
        exact ⟨by rw [e2]; exact hs, fun _ => e1, fun q' _ hok => absurd hok (e1 ())⟩
      cases op with
      | query q ps db => obtain ⟨q', e, he⟩ := he; have := stmt q' e he; exact ⟨this.1, fun h => h.elim, this.2⟩
      | exec q ps db => obtain ⟨q', e, he⟩ := he; have := stmt q' e he; exact ⟨this.1, fun h => h.elim, this.2⟩
      | txQuery n q ps db => obtain ⟨q', e, he⟩ := he; have := stmt q' e he; exact ⟨this.1, fun h => h.elim, this.2⟩
      | txExec n q ps => obtain ⟨q', e, he⟩ := he; have := stmt q' e he; exact ⟨this.1, fun h => h.elim, this.2⟩
      | txExecDb n q ps db => obtain ⟨q', e, he⟩ := he; have := stmt q' e he; exact ⟨this.1, fun h => h.elim, this.2⟩
      | begin_ db =>
        rcases he with ⟨_, e2, _⟩ | ⟨e1, e2, _⟩
        · rw [hs.cur] at e2; cases e2
        · exact same e1 e2
      | commit n =>
        rcases he with ⟨w, e1, _⟩ | ⟨e1, e2, _⟩
        · rw [hl] at e1; cases e1
        · exact same e1 e2
      | rollback n =>
        rcases he with ⟨e1, _⟩ | ⟨e1, e2, _⟩
        · exact absurd hl e1
        · exact same e1 e2
      | makeIdle =>
        rcases he with ⟨n, e1, _⟩ | ⟨_, e2⟩
        · exact absurd hl e1
        · rw [hs.cur] at e2; cases e2
      | close => exact absurd hl (he.1 (by rw [hs.cur]; simp))
      | validateOpen =>
        obtain ⟨e1, e2, e3⟩ := he
        exact ⟨⟨hinv, hidle, e1.trans hs.cur, .inr (by rw [e3]; exact hl)⟩, fun h => h.elim, fun q hq => by cases hq⟩
      | setChunkSize n =>
        obtain ⟨e1, e2, e3⟩ := he
        exact ⟨⟨hinv, hidle, e1.trans hs.cur, .inr (by rw [e3]; exact hl)⟩, fun h => h.elim, fun q hq => by cases hq⟩
    · exact ⟨⟨hinv, hidle, k2.trans hs.cur, .inr (by rw [k4]; rfl)⟩, fun _ => k1, fun q _ hok => absurd hok (k1 ())⟩

theorem run_stuck (fuel : Nat) {p : Proto} {h : Nat} (hU : Understood env p.codec W) : (ops : List Op) → (∀ op ∈ ops, op.Fine env p.codec lo) → PlainCall ops →
    (c : Conn σ) → Stuck (sess := sess) env p lo h c → Stuck (sess := sess) env p lo h (run env W (fuel + 1) ops c)
  | [], _, _, _, hs => hs
  | op :: ops, hops, hpl, c, hs =>
    run_stuck fuel hU ops (fun o ho => hops o (List.mem_cons_of_mem _ ho)) (fun o ho => hpl o (List.mem_cons_of_mem _ ho)) _
      (step_stuck env hT hlo fuel hU (hops op List.mem_cons_self) (hpl op List.mem_cons_self) hs).1

/-- A failure reported while a transaction is open leaves the connection stuck. -/
theorem failure_stuck (fuel : Nat) {op : Op} {p : Proto} {h : Nat} {c : Conn σ} (hU : Understood env p.codec W) (hop : op.Fine env p.codec lo)
    (hinv : c.core.Inv) (hi : Idle env (fun w => (sess w).phase) p lo c) (hc : c.cur = some h)
    (hf : failures (step env W (fuel + 1) op c).2.trace ≠ failures c.trace) : Stuck (sess := sess) env p lo h (step env W (fuel + 1) op c).2 := by
  have hp := hi.1
  rcases Spec.idle_alive env hi hinv with hd | hal
  · exact absurd ((dead_ledger env hT).step env W (fuel + 1) op c hd).2.2 hf
  · rcases step_ledger env hT hlo fuel hal (by rw [hp]; exact hU) (by rw [hp]; exact hop) with ⟨_, h1⟩ | ⟨k1, k2, k3, k4, k5⟩
    · exact absurd h1 hf
    · exact ⟨Keeps.step env W (fuel + 1) op c hinv, (step_kept env hT.follows p hlo hU fuel hop hi).1, k2.trans hc, .inr (by rw [k4]; rfl)⟩

/-- Once a failure was reported while a transaction was open, that transaction is lost at the server but can never be ended on the connection: whatever is called
later, every Begin, Commit, Rollback, MakeIdle and Close fails, and every statement that succeeds, through the transaction or not, is permanent at once. -/
theorem C81_stuck {fuel : Nat} {user password : Bytes} (hu : user.length ≤ 65535) (hpw : password.length ≤ 65535) {w : σ} {c : Conn σ}
    (h : createBoltConn env W (fuel + 1) user password w = (.ok (), c)) (hU : Understood env c.proto.codec W) (hlo' : lo ≤ 65535)
    {before : List Op} {op : Op} {after : List Op} {next : Op} {n : Nat} (hops : ∀ o ∈ before ++ op :: after ++ [next], o.Fine env c.proto.codec lo)
    (hpl : PlainCall (before ++ op :: after ++ [next])) (hc : (run env W (fuel + 1) before c).cur = some n)
    (hf : failures (step env W (fuel + 1) op (run env W (fuel + 1) before c)).2.trace ≠ failures (run env W (fuel + 1) before c).trace) :
    let c' := run env W (fuel + 1) (before ++ op :: after) c
    let r := step env W (fuel + 1) next c'
    c'.cur = some n ∧ (endCalls next → ∀ a, r.1 ≠ .ok a) ∧
      (∀ q, statementOf next = some q → r.1 = .ok () → (sess r.2.world).ledger.lasting = (sess c'.world).ledger.lasting ++ [⟨q, fieldsOf env c.proto c'.mode next, none⟩]) := by
  dsimp only
  have hi := create_idle env hT.follows hu hpw h hU hlo hlo'
  have h1 := run_idle env hT.follows c.proto hlo hU fuel before (fun o ho => hops o (by simp [ho])) c hi
  have h2 := run_inv env W (fuel + 1) before c (create_inv env W h)
  have h3 := failure_stuck env hT hlo fuel hU (hops op (by simp)) h2 h1 hc hf
  have h4 := run_stuck env hT hlo fuel hU after (fun o ho => hops o (by simp [ho])) (fun o ho => hpl o (by simp [ho])) _ h3
  have e : run env W (fuel + 1) (before ++ op :: after) c = run env W (fuel + 1) after (step env W (fuel + 1) op (run env W (fuel + 1) before c)).2 := by
    unfold run
    rw [List.foldl_append]; rfl
  rw [e]
  have h5 := step_stuck env hT hlo fuel hU (hops next (by simp)) (hpl next (by simp)) h4
  exact ⟨h4.cur, h5.2.1, h5.2.2⟩

/-- Without a failure, book and server stay in agreement. -/
theorem run_agreed (fuel : Nat) {p : Proto} {m : AccessMode} {L : List Stmt} (hU : Understood env p.codec W) (last : Op) : (ops : List Op) → (∀ op ∈ ops, op.Fine env p.codec lo) → PlainCall ops →
    (b : Book) → (c : Conn σ) → Agree (sess := sess) env p m lo L b c → Undisturbed env W (fieldsOf env p m) (fuel + 1) (ops ++ [last]) b c →
    Agree (sess := sess) env p m lo L (booked env W (fieldsOf env p m) (fuel + 1) ops b c) (run env W (fuel + 1) ops c)
  | [], _, _, b, c, ha, _ => ha
  | op :: ops, hops, hpl, b, c, ha, ⟨hu1, hu2, hu3⟩ => by
    rcases step_agree env hT hlo fuel hU (hops op List.mem_cons_self) (hpl op List.mem_cons_self) hu1 ha with h | ⟨h1, h2, h3⟩
    · exact run_agreed fuel hU last ops (fun o ho => hops o (List.mem_cons_of_mem _ ho)) (fun o ho => hpl o (List.mem_cons_of_mem _ ho)) _ _ h hu3
    · exact absurd (hu2 (by simp) h1) h2

/-- True if no failure is reported while a transaction is open, nor in answer to the rollback, and the server's answers can be decoded.  Missing from the full
statement: rolling back after a failure. -/
theorem C81_rollback_partial {fuel : Nat} {user password : Bytes} (hu : user.length ≤ 65535) (hpw : password.length ≤ 65535) {w : σ} {c : Conn σ}
    (h : createBoltConn env W (fuel + 1) user password w = (.ok (), c)) (hU : Understood env c.proto.codec W) (hlo' : lo ≤ 65535)
    {ops : List Op} (hops : ∀ op ∈ ops, op.Fine env c.proto.codec lo) (hpl : PlainCall ops) {n : Nat} (hc : (run env W (fuel + 1) ops c).cur = some n)
    (hun : Undisturbed env W (fieldsOf env c.proto c.mode) (fuel + 1) (ops ++ [.rollback n]) .new c)
    (hf : failures (run env W (fuel + 1) (ops ++ [.rollback n]) c).trace = failures (run env W (fuel + 1) ops c).trace)
    (hd : (sess (run env W (fuel + 1) (ops ++ [.rollback n]) c).world).phase ≠ .defunct) :
    (run env W (fuel + 1) (ops ++ [.rollback n]) c).cur = none ∧ (rollback env W (fuel + 1) n (run env W (fuel + 1) ops c)).1 = .ok () := by
  obtain ⟨h1, h2, h3, h4⟩ := create_ledger env hT hu hpw h hU hlo hlo'
  have ha := run_agreed env hT hlo fuel hU (.rollback n) ops hops hpl .new c
    (L := (ledgerOf sess c).lasting) ⟨h1.inv, rfl, h1.idle env, by rw [show Book.new.lasting = [] from rfl, List.append_nil], .inr ⟨by rw [h4]; rfl, h3, h2⟩⟩ hun
  have e : run env W (fuel + 1) (ops ++ [.rollback n]) c = (rollback env W (fuel + 1) n (run env W (fuel + 1) ops c)).2 := by
    unfold run
    rw [List.foldl_append]; rfl
  rw [e] at hf hd ⊢
  generalize run env W (fuel + 1) ops c = c1 at *
  have hp := ha.idle.1
  rcases Spec.idle_alive env ha.idle ha.inv with hdead | hal
  · exfalso
    have k1 := ((dead_ledger env hT).step env W (fuel + 1) (.rollback n) c1 hdead).1
    have k2 : (rollback env W (fuel + 1) n c1).2.core.Inv := Keeps.step env W (fuel + 1) (.rollback n) c1 ha.inv
    have k3 := (dead_step env hT (fuel + 1) (.rollback n) ha.inv hc hdead).1
    rcases k1.1 with k | k
    · have k4 := k2.sock
      change (rollback env W (fuel + 1) n c1).2.closed = !(rollback env W (fuel + 1) n c1).2.sock at k4
      rw [show (rollback env W (fuel + 1) n c1).2.sock = false from k] at k4
      have k5 := k2.closed_cur k4
      rw [show (rollback env W (fuel + 1) n c1).2.core.cur = _ from k3] at k5
      cases k5
    · exact hd k
  · rcases rollback_ledger env hT hlo fuel n hal (by rw [hp]; exact hU) hc with ⟨_, g2, g3, _⟩ | ⟨_, _, _, _, g5⟩
    · exact ⟨congrArg Core.cur g3, g2⟩
    · omega

end

/-- The full statement is false: after a failed statement the rollback fails and the transaction stays open. -/
theorem C81_refuted : ¬ C81_statement := by
  intro h
  have hk : (tOpened 4).1.kind = 0 := by decide +kernel
  have hc : (run env0 (tServer 4) (1 + 1) [.begin_ [], inTx 0 "X"] (tOpened 4).2).cur = some 0 := by decide +kernel
  have hd : (id (run env0 (tServer 4) (1 + 1) ([.begin_ [], inTx 0 "X"] ++ [.rollback 0]) (tOpened 4).2).world).phase ≠ .defunct := by decide +kernel
  have := h Session env0 (tServer 4) id 1 [0x75] [0x70] ⟨.new, ([], []), ⟨none, []⟩⟩ (tOpened 4).2 [.begin_ [], inTx 0 "X"] 0 (tServer_follows 4) (by simp) (by simp)
    (CRes.kind_ok hk) (by
      intro op ho
      simp only [List.mem_cons, List.not_mem_nil, or_false] at ho
      rcases ho with rfl | rfl
      · exact Nat.zero_le _
      · exact inTx_fine _ 0 (by decide)) (by
      intro op ho q hq
      simp only [List.mem_cons, List.not_mem_nil, or_false] at ho
      rcases ho with rfl | rfl
      · cases hq
      · cases hq; decide) hc hd
  have e : (run env0 (tServer 4) (1 + 1) ([.begin_ [], inTx 0 "X"] ++ [.rollback 0]) (tOpened 4).2).cur = some 0 := by decide +kernel
  have e' := e.symm.trans this
  cases e'

/-- The hypotheses of `C81_stuck` are met, for protocol versions 1 and 4: the transaction stays open through rollback, commit and reset attempts, and a statement
run later, through the transaction, is permanent. -/
example : (run env0 (tServer 4) 2 [.begin_ []] (tOpened 4).2).cur = some 0 ∧
    failures (step env0 (tServer 4) 2 (inTx 0 "X") (run env0 (tServer 4) 2 [.begin_ []] (tOpened 4).2)).2.trace ≠ failures (run env0 (tServer 4) 2 [.begin_ []] (tOpened 4).2).trace := by
  decide +kernel
example : let c := run env0 (tServer 1) 2 [.begin_ [], inTx 0 "X", .rollback 0, .commit 0, .makeIdle, .begin_ [], .close, inTx 0 "Y"] (tOpened 1).2
    c.cur = some 0 ∧ c.closed = false ∧ c.world.ledger.lasting.map Stmt.text = [ascii "Y"] := by decide +kernel

/-- The hypotheses of `C81_rollback_partial` are met. -/
example : Undisturbed env0 (tServer 4) (fieldsOf env0 (tOpened 4).2.proto (tOpened 4).2.mode) 2 ([.query (ascii "X") [] [], .begin_ [], inTx 0 "A"] ++ [.rollback 0]) .new (tOpened 4).2 ∧
    (run env0 (tServer 4) 2 [.query (ascii "X") [] [], .begin_ [], inTx 0 "A"] (tOpened 4).2).cur = some 0 ∧
    (run env0 (tServer 4) 2 ([.query (ascii "X") [] [], .begin_ [], inTx 0 "A"] ++ [.rollback 0]) (tOpened 4).2).world.phase = .ready := by decide +kernel

end Verif
