/-
C116  What calls mean for the database, in every history: also after failures in transactions, and with handles of ended transactions.
-/
import Verif.Props.C105
namespace Verif
open Spec

namespace Spec

/-- What a history of calls has done.
* `held`: the number of the transaction that the driver takes to be open; `begun`: how many were begun.
* `work`: the fields of the request that began the transaction the server has open, and the statements completed in it.
* `lasting`: the statements made permanent. -/
structure Account where
  held : Option Nat
  begun : Nat
  work : Option (List PS × List Stmt)
  lasting : List Stmt

/-- Nothing was called yet. -/
def Account.new : Account := ⟨none, 0, none, []⟩

/-- A statement was completed, through whatever handle: it belongs to the transaction the server has open, and is permanent if there is none. -/
def Account.statement (a : Account) (q : Bytes) (fs : List PS) : Account :=
  match a.work with
  | some (b, w) => { a with work := some (b, w ++ [⟨q, fs, some b⟩]) }
  | none => { a with lasting := a.lasting ++ [⟨q, fs, none⟩] }

/-- The driver's transaction has ended without effect. -/
def Account.ended (a : Account) : Account := { a with held := none, work := none }

/-- The account after a call, from whether it succeeded and whether the server reported a failure meanwhile.  A failure ends the server's transaction (by the
RESET that the driver sends), but not the driver's. -/
def Account.after (f : Op → List PS) (a : Account) (op : Op) (ok failed : Bool) : Account :=
  if failed then { a with work := none }
  else if ok then
    match op with
    | .query q _ _ => a.statement q (f op)
    | .exec q _ _ => a.statement q (f op)
    | .txQuery _ q _ _ => a.statement q (f op)
    | .txExec _ q _ => a.statement q (f op)
    | .txExecDb _ q _ _ => a.statement q (f op)
    | .begin_ _ => ⟨some a.begun, a.begun + 1, some (f op, []), a.lasting⟩
    | .commit _ => ⟨none, a.begun, none, a.lasting ++ (a.work.map (·.2)).getD []⟩
    | .rollback _ => a.ended
    | .makeIdle => a.ended
    | .close => a.ended
    | .validateOpen => a
    | .setChunkSize _ => a
  else a

/-- When a call that begins or ends a transaction may succeed: if the driver's and the server's transactions are as it needs them. -/
def Account.Fits (a : Account) : Op → Prop
  | .begin_ _ => a.held = none
  | .commit h => a.held = some h ∧ a.work ≠ none
  | .rollback h => a.held = some h ∧ a.work ≠ none
  | .makeIdle => a.held = none ∨ a.work ≠ none
  | .close => a.held = none ∨ a.work ≠ none
  | _ => True

/-- The ledger of a server that had the permanent statements `L` before. -/
def Account.ledger (a : Account) (L : List Stmt) : Ledger := ⟨a.work, L ++ a.lasting⟩

section
variable {σ : Type} (env : Env) (W : World σ)

/-- The account after some calls. -/
def account (f : Op → List PS) (fuel : Nat) : List Op → Account → Conn σ → Account
  | [], a, _ => a
  | op :: ops, a, c =>
    let r := step env W fuel op c
    account f fuel ops (a.after f op (okOf r.1) (failures c.trace < failures r.2.trace)) r.2

end

/-- The session is not over: the connection is open and the server has not ended the session. -/
def Ongoing {σ : Type} (sess : σ → Session) (c : Conn σ) : Prop := c.closed = false ∧ (sess c.world).phase ≠ .defunct

end Spec

section
variable {σ : Type} (env : Env) {W : World σ} {sess : σ → Session} {D : Database} (hT : TServes D W sess) {lo : Nat} (hlo : 8 ≤ lo)

/-- The account agrees with the server. -/
structure Accounts (p : Proto) (m : AccessMode) (lo : Nat) (L : List Stmt) (a : Account) (c : Conn σ) : Prop where
  inv : c.core.Inv
  mode : c.mode = m
  idle : Idle env (fun w => (sess w).phase) p lo c
  lasting : (ledgerOf sess c).lasting = L ++ a.lasting
  rest : Dead (fun w => (sess w).phase) c ∨ (a.begun = c.txs.length ∧ c.cur = a.held ∧ (ledgerOf sess c).tx = a.work ∧ (a.held = none → a.work = none))

theorem complete_account {a : Account} {l : Ledger} {L : List Stmt} {q : Bytes} {fs : List PS} (hq : q ∉ controlVerbs) (h1 : l.lasting = L ++ a.lasting) (h2 : l.tx = a.work) :
    (l.complete q fs).lasting = L ++ (a.statement q fs).lasting ∧ (l.complete q fs).tx = (a.statement q fs).work := by
  have h3 : q ≠ ascii "BEGIN" := fun h => hq (by simp [h, controlVerbs])
  have h4 : q ≠ ascii "COMMIT" := fun h => hq (by simp [h, controlVerbs])
  have h5 : q ≠ ascii "ROLLBACK" := fun h => hq (by simp [h, controlVerbs])
  unfold Ledger.complete Account.statement Ledger.stmt
  rw [if_neg h3, if_neg h4, if_neg h5, h2]
  cases hw : a.work with
  | none => exact ⟨by simp [h1], by simp [hw]⟩
  | some x => exact ⟨h1, rfl⟩

theorem Account.statement_held (a : Account) (q : Bytes) (fs : List PS) :
    (a.statement q fs).begun = a.begun ∧ (a.statement q fs).held = a.held ∧ ((a.held = none → a.work = none) → (a.statement q fs).held = none → (a.statement q fs).work = none) := by
  unfold Account.statement
  split
  · rename_i h
    refine ⟨rfl, rfl, fun k1 k2 => ?_⟩
    have := k1 k2
    rw [h] at this; cases this
  · exact ⟨rfl, rfl, fun k1 k2 => k1 k2⟩

theorem dead_over {c : Conn σ} (hinv : c.core.Inv) (hd : Dead (fun w => (sess w).phase) c) : ¬ Ongoing sess c := by
  intro hu
  rcases hd.1 with h | h
  · have := hinv.sock
    change c.closed = !c.sock at this
    rw [h, hu.1] at this; cases this
  · exact absurd h hu.2

theorem not_dead {p : Proto} {c : Conn σ} (hi : Idle env (fun w => (sess w).phase) p lo c) (hinv : c.core.Inv) (hu : Ongoing sess c) : Alive (sess := sess) lo c :=
  (Spec.idle_alive env hi hinv).resolve_left fun hd => dead_over hinv hd hu

theorem Alive.not_dead {c : Conn σ} (h : Alive (sess := sess) lo c) : ¬ Dead (fun w => (sess w).phase) c := by
  intro hd
  rcases hd.1 with h' | h'
  · rw [h.sock] at h'; cases h'
  · have := h.ready; rw [show (sess c.world).phase = _ from h'] at this; cases this

/-- The ledger of a session that is not over is that of the account. -/
theorem ledger_accounts {p : Proto} {m : AccessMode} {L : List Stmt} {a : Account} {c : Conn σ} (ha : Accounts (sess := sess) env p m lo L a c) (hg : Ongoing sess c) :
    (sess c.world).ledger = a.ledger L := by
  obtain ⟨_, _, r3, _⟩ := ha.rest.resolve_left (not_dead env ha.idle ha.inv hg).not_dead
  have e : ledgerOf sess c = ⟨(ledgerOf sess c).tx, (ledgerOf sess c).lasting⟩ := rfl
  show ledgerOf sess c = _
  rw [e, r3, ha.lasting]
  rfl

include hT hlo

/-- A statement gives what the database says after the statements of the account. -/
theorem result_accounts (fuel : Nat) {p : Proto} {m : AccessMode} {L : List Stmt} {a : Account} {c : Conn σ} {op : Op} {q : Bytes} (hU : Understood env p.codec W)
    (hop : op.Fine env p.codec lo) (hpl : ∀ q, statementOf op = some q → q ∉ controlVerbs) (hq : statementOf op = some q) (ha : Accounts (sess := sess) env p m lo L a c) :
    let r := resultOf env W (fuel + 1) op c
    (¬ Ongoing sess c ∧ ∀ x, r ≠ .ok x) ∨ (p ≠ .v4 ∧ dbOf op ≠ [] ∧ ∃ e, r = .err e) ∨
      ∃ o, D (a.ledger L) ((a.ledger L).stmt q (fieldsOf env p m op)) o ∧ Conveys env p.codec (withRows op) o r := by
  dsimp only
  have hp := ha.idle.1
  have hi := ha.idle
  rw [← hp] at hi
  have hr := result_of env hT hlo fuel hq (hpl q hq) (by rw [hp]; exact hU) (by rw [hp]; exact hop) hi ha.inv
  rw [hp, ha.mode] at hr
  rcases hr with ⟨hd, hr⟩ | ⟨⟨k1, k2⟩, hr⟩ | ⟨hal, o, k1, k2⟩
  · exact .inl ⟨fun hg => (not_dead env ha.idle ha.inv hg).not_dead hd, hr⟩
  · refine .inr (.inl ⟨fun hv => ?_, k2, hr⟩)
    rw [hp, hv] at k1
    cases k1
  · have hg : Ongoing sess c := ⟨hal.open_, by rw [hal.ready]; simp⟩
    rw [show ledgerOf sess c = _ from ledger_accounts env ha hg] at k1
    exact .inr (.inr ⟨o, k1, k2⟩)

/-- One call keeps account and server in agreement. -/
theorem step_accounts (fuel : Nat) {op : Op} {p : Proto} {m : AccessMode} {L : List Stmt} {a : Account} {c : Conn σ} (hU : Understood env p.codec W) (hop : op.Fine env p.codec lo)
    (hpl : ∀ q, statementOf op = some q → q ∉ controlVerbs) (ha : Accounts (sess := sess) env p m lo L a c) :
    let r := step env W (fuel + 1) op c
    Accounts (sess := sess) env p m lo L (a.after (fieldsOf env p m) op (okOf r.1) (failures c.trace < failures r.2.trace)) r.2 := by
  dsimp only
  have hinv : (step env W (fuel + 1) op c).2.core.Inv := Keeps.step env W (fuel + 1) op c ha.inv
  have hidle := (step_kept env hT.follows p hlo hU fuel hop ha.idle).1
  have hp := ha.idle.1
  have hmode : (step env W (fuel + 1) op c).2.mode = m := ((sameProto env W).step env W (fuel + 1) op c).2.trans ha.mode
  rcases Spec.idle_alive env ha.idle ha.inv with hd | hal
  · obtain ⟨d1, d2, d3⟩ := (dead_ledger env hT).step env W (fuel + 1) op c hd
    refine ⟨hinv, hmode, hidle, ?_, .inl d1⟩
    rw [d2, ha.lasting, d3]
    have hq := fun h => dead_quiet env hT fuel (op := op) h hd
    generalize (step env W (fuel + 1) op c).1 = r at hq
    unfold Account.after
    rw [if_neg (by simp)]
    split
    · rename_i hok
      have no : ¬ ((statementOf op).isSome ∨ ∃ h, op = .commit h) := fun h => by rw [okOf_false (hq h)] at hok; cases hok
      cases op with
      | query q ps db => exact absurd (.inl rfl) no
      | exec q ps db => exact absurd (.inl rfl) no
      | txQuery h q ps db => exact absurd (.inl rfl) no
      | txExec h q ps => exact absurd (.inl rfl) no
      | txExecDb h q ps db => exact absurd (.inl rfl) no
      | commit h => exact absurd (.inr ⟨h, rfl⟩) no
      | begin_ db => rfl
      | rollback h => rfl
      | close => rfl
      | makeIdle => rfl
      | validateOpen => rfl
      | setChunkSize n => rfl
    · rfl
  · obtain ⟨r1, r2, r3, r4⟩ : a.begun = c.txs.length ∧ c.cur = a.held ∧ (ledgerOf sess c).tx = a.work ∧ (a.held = none → a.work = none) :=
      ha.rest.resolve_left hal.not_dead
    have hsl := step_ledger env hT hlo fuel hal (by rw [hp]; exact hU) (by rw [hp]; exact hop)
    rw [hp, ha.mode] at hsl
    generalize hr : step env W (fuel + 1) op c = r at *
    rcases hsl with ⟨he, hf⟩ | ⟨k1, k2, k3, k4, k5⟩
    · have e0 : ∀ ok, a.after (fieldsOf env p m) op ok (failures c.trace < failures r.2.trace) = a.after (fieldsOf env p m) op ok false := by
        intro ok; rw [hf]; simp
      rw [e0]
      -- nothing happened
      have same : ((∀ x, r.1 ≠ .ok x) ∧ r.2 = c) → Accounts (sess := sess) env p m lo L (a.after (fieldsOf env p m) op (okOf r.1) false) r.2 := by
        rintro ⟨e1, e2⟩
        rw [okOf_false e1, e2]
        exact ha
      -- a statement
      have stmt : ∀ q, statementOf op = some q → ((r.1 = .ok () ∧ r.2.core = c.core ∧ ledgerOf sess r.2 = (ledgerOf sess c).complete q (fieldsOf env p m op)) ∨ ((∀ x, r.1 ≠ .ok x) ∧ r.2 = c)) →
          a.after (fieldsOf env p m) op true false = a.statement q (fieldsOf env p m op) → Accounts (sess := sess) env p m lo L (a.after (fieldsOf env p m) op (okOf r.1) false) r.2 := by
        rintro q hq (⟨e1, e2, e3⟩ | h) hb
        · obtain ⟨g1, g2⟩ := complete_account (fs := fieldsOf env p m op) (hpl q hq) ha.lasting r3
          obtain ⟨g3, g4, g5⟩ := Account.statement_held a q (fieldsOf env p m op)
          rw [e1, show okOf (CRes.ok ()) = true from rfl, hb]
          refine ⟨hinv, hmode, hidle, by rw [e3]; exact g1, .inr ⟨?_, ?_, by rw [e3]; exact g2, g5 r4⟩⟩
          · rw [g3, r1]; exact congrArg (fun k => List.length k.txs) e2.symm
          · rw [g4, ← r2]; exact congrArg Core.cur e2
        · exact same h
      -- the end of a transaction without commit
      have dropped : ∀ h, r.1 = .ok () → r.2.core = c.core.endTx h → ledgerOf sess r.2 = (ledgerOf sess c).drop → a.after (fieldsOf env p m) op true false = a.ended →
          Accounts (sess := sess) env p m lo L (a.after (fieldsOf env p m) op (okOf r.1) false) r.2 := by
        intro h e1 e2 e3 hb
        rw [e1, show okOf (CRes.ok ()) = true from rfl, hb]
        refine ⟨hinv, hmode, hidle, by rw [e3]; exact ha.lasting, .inr ⟨?_, congrArg Core.cur e2, by rw [e3]; rfl, fun _ => rfl⟩⟩
        have := congrArg (fun k => List.length k.txs) e2
        simp only [Core.endTx, List.length_set] at this
        exact r1.trans this.symm
      cases op with
      | query q ps db => obtain ⟨q', e, he⟩ := he; cases e; exact stmt q rfl he rfl
      | exec q ps db => obtain ⟨q', e, he⟩ := he; cases e; exact stmt q rfl he rfl
      | txQuery h q ps db => obtain ⟨q', e, he⟩ := he; cases e; exact stmt q rfl he rfl
      | txExec h q ps => obtain ⟨q', e, he⟩ := he; cases e; exact stmt q rfl he rfl
      | txExecDb h q ps db => obtain ⟨q', e, he⟩ := he; cases e; exact stmt q rfl he rfl
      | begin_ db =>
        rcases he with ⟨e1, e2, e3, e4, e5, e6⟩ | ⟨e1, e2, _⟩
        · rw [e3]
          refine ⟨hinv, hmode, hidle, by rw [e6]; exact ha.lasting, .inr ⟨?_, ?_, by rw [e6]; rfl, ?_⟩⟩
          · rw [e5, List.length_append, ← r1]; rfl
          · rw [e4, ← r1]; rfl
          · intro h; cases h
        · exact same ⟨e1, e2⟩
      | commit h =>
        rcases he with ⟨w, e1, e2, e3, e4, e5⟩ | ⟨e1, e2, _⟩
        · rw [e3]
          have hw : a.work = some w := r3 ▸ e1
          refine ⟨hinv, hmode, hidle, ?_, .inr ⟨?_, congrArg Core.cur e4, by rw [e5]; rfl, fun _ => rfl⟩⟩
          · rw [e5]
            show _ ++ w.2 = L ++ (a.lasting ++ (a.work.map (·.2)).getD [])
            rw [ha.lasting, List.append_assoc, hw]; rfl
          · have := congrArg (fun k => List.length k.txs) e4
            simp only [Core.endTx, List.length_set] at this
            exact r1.trans this.symm
        · exact same ⟨e1, e2⟩
      | rollback h =>
        rcases he with ⟨e1, e2, e3, e4, e5⟩ | ⟨e1, e2, _⟩
        · exact dropped h e3 e4 e5 rfl
        · exact same ⟨e1, e2⟩
      | makeIdle =>
        rcases he with ⟨h, e1, e2, e3, e4, e5⟩ | ⟨e1, e2⟩
        · exact dropped h e3 e4 e5 rfl
        · rw [e1]
          have hb : a.held = none := by rw [← r2]; exact e2
          refine ⟨ha.inv, ha.mode, ha.idle, ha.lasting, .inr ⟨r1, e2, by rw [r3, r4 hb]; rfl, fun _ => rfl⟩⟩
      | close =>
        obtain ⟨e1, e2, e3⟩ := he
        refine ⟨hinv, hmode, hidle, ?_, .inl e2⟩
        rw [e3, ha.lasting]
        cases okOf r.1 <;> rfl
      | validateOpen =>
        obtain ⟨e1, e2, e3⟩ := he
        have : ∀ ok, a.after (fieldsOf env p m) .validateOpen ok false = a := fun ok => by cases ok <;> rfl
        rw [this]
        exact ⟨hinv, hmode, hidle, by rw [e3]; exact ha.lasting, .inr ⟨by rw [e2]; exact r1, by rw [e1]; exact r2, by rw [e3]; exact r3, r4⟩⟩
      | setChunkSize n =>
        obtain ⟨e1, e2, e3⟩ := he
        have : ∀ ok, a.after (fieldsOf env p m) (.setChunkSize n) ok false = a := fun ok => by cases ok <;> rfl
        rw [this]
        exact ⟨hinv, hmode, hidle, by rw [e3]; exact ha.lasting, .inr ⟨by rw [e2]; exact r1, by rw [e1]; exact r2, by rw [e3]; exact r3, r4⟩⟩
    · have e0 : a.after (fieldsOf env p m) op (okOf r.1) (failures c.trace < failures r.2.trace) = { a with work := none } := by
        unfold Account.after
        rw [if_pos (by simp; omega)]
      rw [e0]
      exact ⟨hinv, hmode, hidle, by rw [k4]; exact ha.lasting, .inr ⟨by rw [k3]; exact r1, by rw [k2]; exact r2, by rw [k4]; rfl, fun _ => rfl⟩⟩

theorem run_accounts (fuel : Nat) {p : Proto} {m : AccessMode} {L : List Stmt} (hU : Understood env p.codec W) : (ops : List Op) → (∀ op ∈ ops, op.Fine env p.codec lo) → PlainCall ops →
    (a : Account) → (c : Conn σ) → Accounts (sess := sess) env p m lo L a c →
    Accounts (sess := sess) env p m lo L (account env W (fieldsOf env p m) (fuel + 1) ops a c) (run env W (fuel + 1) ops c)
  | [], _, _, _, _, ha => ha
  | op :: ops, hops, hpl, a, c, ha =>
    run_accounts fuel hU ops (fun o ho => hops o (List.mem_cons_of_mem _ ho)) (fun o ho => hpl o (List.mem_cons_of_mem _ ho)) _ _
      (step_accounts env hT hlo fuel hU (hops op List.mem_cons_self) (hpl op List.mem_cons_self) ha)

/-- A new connection has a new account. -/
theorem create_accounts {fuel : Nat} {user password : Bytes} (hu : user.length ≤ 65535) (hpw : password.length ≤ 65535) {w : σ} {c : Conn σ}
    (h : createBoltConn env W fuel user password w = (.ok (), c)) (hU : Understood env c.proto.codec W) (hlo' : lo ≤ 65535) :
    Accounts (sess := sess) env c.proto c.mode lo (sess c.world).ledger.lasting .new c := by
  obtain ⟨h1, h2, h3, h4⟩ := create_ledger env hT hu hpw h hU hlo hlo'
  exact ⟨h1.inv, rfl, h1.idle env, by rw [show Account.new.lasting = [] from rfl, List.append_nil]; rfl, .inr ⟨by rw [h4]; rfl, h3, h2, fun _ => rfl⟩⟩

section
variable {fuel : Nat} {user password : Bytes} (hu : user.length ≤ 65535) (hpw : password.length ≤ 65535) {w : σ} {c : Conn σ}
  (h : createBoltConn env W (fuel + 1) user password w = (.ok (), c)) (hU : Understood env c.proto.codec W) (hlo' : lo ≤ 65535)
include hu hpw h hU hlo'

/-- **C116**: after every history of calls, the permanent statements are those of the account; and, while the session is not over, the server's transaction is that
of the account. -/
theorem C116 {ops : List Op} (hops : ∀ op ∈ ops, op.Fine env c.proto.codec lo) (hpl : PlainCall ops) :
    let a := account env W (fieldsOf env c.proto c.mode) (fuel + 1) ops .new c
    let s := sess (run env W (fuel + 1) ops c).world
    s.ledger.lasting = (sess c.world).ledger.lasting ++ a.lasting ∧
      (Ongoing sess (run env W (fuel + 1) ops c) → s.ledger = a.ledger (sess c.world).ledger.lasting) := by
  have ha := run_accounts env hT hlo fuel hU ops hops hpl _ _ (create_accounts env hT hlo hu hpw h hU hlo')
  exact ⟨ha.lasting, ledger_accounts env ha⟩

/-- A statement gives what the database says after the statements of the account.  It fails otherwise only if the session is over, or if the protocol version has
no database names. -/
theorem C116_result {ops : List Op} {op : Op} {q : Bytes} (hops : ∀ o ∈ ops ++ [op], o.Fine env c.proto.codec lo) (hpl : PlainCall (ops ++ [op])) (hq : statementOf op = some q) :
    let c' := run env W (fuel + 1) ops c
    let r := resultOf env W (fuel + 1) op c'
    let l := (account env W (fieldsOf env c.proto c.mode) (fuel + 1) ops .new c).ledger (sess c.world).ledger.lasting
    (¬ Ongoing sess c' ∧ ∀ x, r ≠ .ok x) ∨ (c.proto ≠ .v4 ∧ dbOf op ≠ [] ∧ ∃ e, r = .err e) ∨
      ∃ o, D l (l.stmt q (fieldsOf env c.proto c.mode op)) o ∧ Conveys env c.proto.codec (withRows op) o r := by
  dsimp only
  have ha := run_accounts env hT hlo fuel hU ops (fun o ho => hops o (by simp [ho])) (fun o ho => hpl o (by simp [ho])) _ _ (create_accounts env hT hlo hu hpw h hU hlo')
  exact result_accounts env hT hlo fuel hU (hops op (by simp)) (hpl op (by simp)) hq ha

/-- While the session is not over, a call that begins or ends a transaction succeeds only if driver and server agree about the transaction, and, if the server
reports no failure, exactly then. -/
theorem C116_control {ops : List Op} {op : Op} (hops : ∀ o ∈ ops ++ [op], o.Fine env c.proto.codec lo) (hpl : PlainCall (ops ++ [op])) (hop : endCalls op)
    (hg : Ongoing sess (run env W (fuel + 1) ops c)) :
    let a := account env W (fieldsOf env c.proto c.mode) (fuel + 1) ops .new c
    let r := step env W (fuel + 1) op (run env W (fuel + 1) ops c)
    (r.1 = .ok () → a.Fits op) ∧ (a.Fits op → (∀ x, r.1 ≠ .ok x) → failures (run env W (fuel + 1) ops c).trace < failures r.2.trace ∨ (op = .close ∧ ¬ Ongoing sess r.2)) := by
  dsimp only
  have ha := run_accounts env hT hlo fuel hU ops (fun o ho => hops o (by simp [ho])) (fun o ho => hpl o (by simp [ho])) _ _ (create_accounts env hT hlo hu hpw h hU hlo')
  generalize run env W (fuel + 1) ops c = c' at *
  generalize account env W (fieldsOf env c.proto c.mode) (fuel + 1) ops .new c = a at *
  have hal := not_dead env ha.idle ha.inv hg
  obtain ⟨r1, r2, r3, r4⟩ := ha.rest.resolve_left hal.not_dead
  have hp := ha.idle.1
  have hsl := step_ledger env hT hlo fuel hal (by rw [hp]; exact hU) (by rw [hp]; exact hops op (by simp))
  rw [hp, ha.mode] at hsl
  have hinv' := Keeps.step env W (fuel + 1) op c' ha.inv
  generalize step env W (fuel + 1) op c' = r at *
  rcases hsl with ⟨he, hf⟩ | ⟨k1, k2, k3, k4, k5⟩
  · cases op with
    | begin_ db =>
      rcases he with ⟨_, e2, e3, _⟩ | ⟨e1, _, e3⟩
      · exact ⟨fun _ => r2.symm.trans e2, fun _ hx => absurd e3 (hx ())⟩
      · exact ⟨fun hx => absurd hx (e1 ()), fun hx => absurd (r2.trans hx) e3⟩
    | commit n =>
      rcases he with ⟨x, e1, e2, e3, _⟩ | ⟨e1, _, e3⟩
      · exact ⟨fun _ => ⟨r2.symm.trans e2, by rw [← r3, e1]; simp⟩, fun _ hx => absurd e3 (hx ())⟩
      · exact ⟨fun hx => absurd hx (e1 ()), fun hx => absurd (r2.trans hx.1) e3⟩
    | rollback n =>
      rcases he with ⟨e1, e2, e3, _⟩ | ⟨e1, _, e3⟩
      · exact ⟨fun _ => ⟨r2.symm.trans e2, by rw [← r3]; exact e1⟩, fun _ hx => absurd e3 (hx ())⟩
      · exact ⟨fun hx => absurd hx (e1 ()), fun hx => absurd (r2.trans hx.1) e3⟩
    | makeIdle =>
      rcases he with ⟨n, e1, e2, e3, _⟩ | ⟨e1, e2⟩
      · exact ⟨fun _ => .inr (by rw [← r3]; exact e1), fun _ hx => absurd e3 (hx ())⟩
      · exact ⟨fun _ => .inl (r2.symm.trans e2), fun _ hx => absurd (by rw [e1]) (hx ())⟩
    | close =>
      obtain ⟨e1, e2, e3⟩ := he
      refine ⟨fun _ => ?_, fun _ _ => .inr ⟨rfl, dead_over hinv' e2⟩⟩
      by_cases hh : a.held = none
      · exact .inl hh
      · exact .inr (by rw [← r3]; exact e1 (by rw [r2]; exact hh))
    | query q ps db => exact hop.elim
    | exec q ps db => exact hop.elim
    | txQuery h q ps db => exact hop.elim
    | txExec h q ps => exact hop.elim
    | txExecDb h q ps db => exact hop.elim
    | validateOpen => exact hop.elim
    | setChunkSize n => exact hop.elim
  · exact ⟨fun hx => absurd hx (k1 ()), fun _ _ => .inl (by omega)⟩

end
end

/-! ### A concrete history -/

/-- What can be seen of an account: the driver's transaction, the statements of the server's, and the permanent statements. -/
def seen (a : Account) : Option Nat × Option (List Bytes) × List Bytes := (a.held, a.work.map fun w => w.2.map (·.text), a.lasting.map (·.text))

/-- A statement that fails in a transaction, one that succeeds after it, and an attempt to roll back: the first statement of the transaction is lost, the last one is
permanent, and the driver's transaction stays open. -/
def mixed : List Op := [.begin_ [], inTx 0 "A", .commit 0, .begin_ [], inTx 1 "B", inTx 1 "X", inTx 0 "C", .rollback 1]

example : seen (account env0 (cServer 4) (fieldsOf env0 (cOpened 4).2.proto (cOpened 4).2.mode) 2 mixed .new (cOpened 4).2) = (some 1, none, [ascii "A", ascii "C"]) := by decide +kernel
example : seen (account env0 (cServer 1) (fieldsOf env0 (cOpened 1).2.proto (cOpened 1).2.mode) 2 (mixed.take 5) .new (cOpened 1).2) = (some 1, some [ascii "B"], [ascii "A"]) := by decide +kernel

/-- It meets the hypotheses of `C116`. -/
example : (id (run env0 (cServer 4) (1 + 1) mixed (cOpened 4).2).world).ledger.lasting.map (·.text) = [ascii "A", ascii "C"] := by
  have hk : (cOpened 4).1.kind = 0 := by decide +kernel
  have := (C116 env0 (cServer_serves 4) (lo := 8) (by decide) (fuel := 1) (user := [0x75]) (password := [0x70]) (by decide) (by decide) (w := ⟨.new, ([], []), ⟨none, []⟩⟩) (c := (cOpened 4).2) (CRes.kind_ok hk)
    (cServer_understood env0 _ 4) (by decide) (ops := mixed) (by
      intro op ho
      simp only [mixed, List.mem_cons, List.not_mem_nil, or_false] at ho
      rcases ho with rfl | rfl | rfl | rfl | rfl | rfl | rfl | rfl
      · exact Nat.zero_le _
      · exact inTx_fine _ 0 (by decide)
      · exact trivial
      · exact Nat.zero_le _
      · exact inTx_fine _ 1 (by decide)
      · exact inTx_fine _ 1 (by decide)
      · exact inTx_fine _ 0 (by decide)
      · exact trivial) (by
      intro op ho q hq
      simp only [mixed, List.mem_cons, List.not_mem_nil, or_false] at ho
      rcases ho with rfl | rfl | rfl | rfl | rfl | rfl | rfl | rfl <;> cases hq <;> decide)).1
  have e := congrArg (List.map (·.text)) this
  rw [List.map_append] at e
  exact e.trans (by decide +kernel)

end Verif
