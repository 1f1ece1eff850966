/-
C105  A session behaves like direct access to the database: what a statement gives is what the database says, after the statements the caller ran before.
-/
import Verif.Props.C81
namespace Verif
open Spec

namespace Spec

/-- Change the value of a result. -/
def mapResult {α β : Type} (f : α → β) : CRes α → CRes β
  | .ok a => .ok (f a)
  | .err e => .err e
  | .panic => .panic
  | .fuel => .fuel

/-- A database given by a state and the effect and result of each statement: a statement works on what the permanent statements and those of the open
transaction have left.  Statements that fail have no effect. -/
def machine {δ : Type} (exec : δ → Stmt → δ × Outcome) (start : δ) : Database := fun l s o =>
  (exec ((l.lasting ++ (l.tx.map (·.2)).getD []).foldl (fun d s => (exec d s).1) start) s).2 = o

/-- What the caller gets for an outcome: the rows (if it is a call that returns rows) and the metadata, or an error with the metadata of the failure. -/
def Conveys (env : Env) (ver : Ver) (withRows : Bool) : Outcome → CRes (Option (List (List Val)) × Entries) → Prop
  | .rows recs m, r => ∃ rows md, RowsMean env ver recs rows ∧ interpEntries env ver m [] = some md ∧ r = .ok (if withRows then some rows else none, md)
  | .failed m, r => ∃ md what, interpEntries env ver m [] = some md ∧ r = .err ((GoErr.failure md).wrap what)

/-- Whether a call returns the rows of its statement. -/
def withRows : Op → Bool
  | .query _ _ _ => true
  | .txQuery _ _ _ _ => true
  | _ => false

section
variable {σ : Type} (env : Env) (W : World σ)

/-- The result of a call that runs a statement. -/
def resultOf (fuel : Nat) (op : Op) (c : Conn σ) : CRes (Option (List (List Val)) × Entries) :=
  match op with
  | .query q ps db => mapResult (fun r => (some r.1, r.2)) (queryWithDb env W fuel q ps db c).1
  | .exec q ps db => mapResult (fun md => (none, md)) (execWithDb env W fuel q ps db c).1
  | .txQuery h q ps db => mapResult (fun r => (some r.1, r.2)) (txQueryWithDb env W fuel h q ps db c).1
  | .txExec h q ps => mapResult (fun md => (none, md)) (txExec env W fuel h q ps c).1
  | .txExecDb h q ps db => mapResult (fun md => (none, md)) (txExecWithDb env W fuel h q ps db c).1
  | _ => .panic

/-- The database name given with a statement. -/
def dbOf : Op → Bytes
  | .query _ _ db => db
  | .exec _ _ db => db
  | .txQuery _ _ _ db => db
  | .txExecDb _ _ _ db => db
  | _ => []

/-- Statements run through a transaction only while it is the open one. -/
def Through (f : Op → List PS) (fuel : Nat) : List Op → Book → Conn σ → Prop
  | [], _, _ => True
  | op :: ops, b, c =>
    let r := step env W fuel op c
    (∀ h, throughOf op = some h → b.tx.map (·.1) = some h) ∧ Through f fuel ops (b.after f op (okOf r.1)) r.2

end
end Spec

/-- Full statement: for every database, every server that follows the protocol for it, and every history of calls that uses each transaction's handle while it is
open, a statement that succeeds returns rows and metadata that the database gives for this statement, with its parameters and metadata, after the statements that
are permanent or belong to the open transaction according to the calls that succeeded so far. -/
def C105_statement : Prop := ∀ (σ : Type) (env : Env) (D : Database) (W : World σ) (sess : σ → Session) (fuel : Nat) (user password : Bytes) (w : σ) (c : Conn σ) (ops : List Op) (op : Op) (q : Bytes),
  TServes D W sess → user.length ≤ 65535 → password.length ≤ 65535 → createBoltConn env W (fuel + 1) user password w = (.ok (), c) →
  (∀ o ∈ ops ++ [op], o.Fine env c.proto.codec 8) → PlainCall (ops ++ [op]) → Through env W (fieldsOf env c.proto c.mode) (fuel + 1) (ops ++ [op]) .new c → statementOf op = some q →
  let l := (booked env W (fieldsOf env c.proto c.mode) (fuel + 1) ops .new c).ledger (sess c.world).ledger.lasting
  ∀ a, resultOf env W (fuel + 1) op (run env W (fuel + 1) ops c) = .ok a →
    ∃ recs m, D l (l.stmt q (fieldsOf env c.proto c.mode op)) (.rows recs m) ∧ Conveys env c.proto.codec (withRows op) (.rows recs m) (.ok a)

section
variable {σ : Type} (env : Env) {W : World σ} {sess : σ → Session} {D : Database} (hT : TServes D W sess) {lo : Nat} (hlo : 8 ≤ lo)

theorem Spec.Gives.some_ {ver : Ver} {o : Outcome} {r : CRes (List (List Val) × Entries)} (h : Gives env ver o r) :
    Conveys env ver true o (mapResult (fun r => (some r.1, r.2)) r) := by
  cases o with
  | rows recs m => obtain ⟨rows, md, h1, h2, rfl⟩ := h; exact ⟨rows, md, h1, h2, rfl⟩
  | failed m => obtain ⟨md, what, h1, rfl⟩ := h; exact ⟨md, what, h1, rfl⟩

theorem Spec.Gives.none_ {m : CM σ (List (List Val) × Entries)} {c : Conn σ} {ver : Ver} {o : Outcome} (h : Gives env ver o (m c).1) :
    Conveys env ver false o (mapResult (fun md => (none, md)) ((m >>= fun r => Pure.pure r.2) c).1) := by
  cases o with
  | rows recs mm =>
    obtain ⟨rows, md, h1, h2, h3⟩ := h
    rw [CM.bind_fst h3]
    exact ⟨rows, md, h1, h2, rfl⟩
  | failed mm =>
    obtain ⟨md, what, h1, h2⟩ := h
    rw [CM.bind_err (Prod.ext (x := m c) (y := (CRes.err _, (m c).2)) h2 rfl)]
    exact ⟨md, what, h1, rfl⟩

theorem CM.bind_pure_apply {α : Type} (m : CM σ α) (c : Conn σ) : (m >>= Pure.pure) c = m c := by
  rw [CM.bind_apply]
  match m c with
  | (.ok _, _) => rfl
  | (.err _, _) => rfl
  | (.panic, _) => rfl
  | (.fuel, _) => rfl

/-- A call that runs a statement is refused because of its database name. -/
def Refused (op : Op) (c : Conn σ) : Prop := c.proto.supportsMultiDatabase = false ∧ dbOf op ≠ []

include hT hlo

/-- The result of one statement, on a connection with the server's ledger `l`. -/
theorem result_of (fuel : Nat) {op : Op} {q : Bytes} {c : Conn σ} (hq : statementOf op = some q) (hpl : q ∉ controlVerbs) (hU : Understood env c.proto.codec W)
    (hop : op.Fine env c.proto.codec lo) (hi : Idle env (fun w => (sess w).phase) c.proto lo c) (hinv : c.core.Inv) :
    let r := resultOf env W (fuel + 1) op c
    (Dead (fun w => (sess w).phase) c ∧ ∀ a, r ≠ .ok a) ∨ (Refused op c ∧ ∃ e, r = .err e) ∨
      (Alive (sess := sess) lo c ∧ ∃ o, D (ledgerOf sess c) ((ledgerOf sess c).stmt q (fieldsOf env c.proto c.mode op)) o ∧ Conveys env c.proto.codec (withRows op) o r) := by
  dsimp only
  have chk : ∀ db, checkDb db c = if c.proto.supportsMultiDatabase = false ∧ db ≠ [] then (.err (.plain "bolt protocol version does not have multi database support"), c) else (.ok (), c) := by
    intro db
    unfold checkDb
    rw [CM.get_bind]
    split <;> rfl
  -- a statement after the check of its database name
  have stmt : ∀ {α : Type} (ps : Entries) (db : Bytes) (inTx : Bool) (f : List (List Val) × Entries → CM σ α) (g : α → Option (List (List Val)) × Entries) (b : Bool),
      (∃ pt, Sendable env c.proto.codec lo q ps db pt) → dbOf op = db → withRows op = b → fieldsOf env c.proto c.mode op = laterFields (runTree c.proto q (paramTree env c.proto ps) db c.mode inTx) →
      (∀ o, Gives env c.proto.codec o (runQuery env W (fuel + 1) q ps db inTx c).1 → Conveys env c.proto.codec b o (mapResult g ((runQuery env W (fuel + 1) q ps db inTx >>= f) c).1)) →
      resultOf env W (fuel + 1) op c = mapResult g ((checkDb db >>= fun _ => runQuery env W (fuel + 1) q ps db inTx >>= f) c).1 →
      (Dead (fun w => (sess w).phase) c ∧ ∀ a, resultOf env W (fuel + 1) op c ≠ .ok a) ∨ (Refused op c ∧ ∃ e, resultOf env W (fuel + 1) op c = .err e) ∨
      (Alive (sess := sess) lo c ∧ ∃ o, D (ledgerOf sess c) ((ledgerOf sess c).stmt q (fieldsOf env c.proto c.mode op)) o ∧ Conveys env c.proto.codec (withRows op) o (resultOf env W (fuel + 1) op c)) := by
    rintro α ps db inTx f g b ⟨pt, hs⟩ hdb hb hf hg e
    rw [e, hb, hf, show paramTree env c.proto ps = pt by unfold paramTree; rw [hs.params]; rfl]
    have hx := chk db
    split at hx
    · rename_i hr
      rw [CM.bind_err hx]
      exact .inr (.inl ⟨⟨hr.1, by rw [hdb]; exact hr.2⟩, _, rfl⟩)
    · rw [CM.bind_ok hx]
      rcases Spec.idle_alive env hi hinv with hd | ha
      · refine .inl ⟨hd, fun a hok => ?_⟩
        match hm : (runQuery env W (fuel + 1) q ps db inTx >>= f) c with
        | (.ok v, c') =>
          obtain ⟨v', c1, h1, _⟩ := CM.bind_eq_ok.mp hm
          exact dead_runQuery env hT (fuel + 1) q ps db inTx hd v' (by rw [h1])
        | (.err _, _) => rw [hm] at hok; cases hok
        | (.panic, _) => rw [hm] at hok; cases hok
        | (.fuel, _) => rw [hm] at hok; cases hok
      · obtain ⟨o, h1, h2⟩ := (runQuery_ledger env hT hlo fuel (inTx := inTx) hU ha.open_ ⟨ha.low, ha.high⟩ ha.ready (ha.at env) (hs.mono ha.low ha.high)).2 hpl
        exact .inr (.inr ⟨ha, o, h1, hg o h2⟩)
  have plain : ∀ (ps : Entries) (db : Bytes) (inTx : Bool), (checkDb db >>= fun _ => runQuery env W (fuel + 1) q ps db inTx) c =
      (checkDb db >>= fun _ => runQuery env W (fuel + 1) q ps db inTx >>= Pure.pure) c := by
    intro ps db inTx
    have hx := chk db
    split at hx
    · rw [CM.bind_err hx, CM.bind_err hx]
    · rw [CM.bind_ok hx, CM.bind_ok hx, CM.bind_pure_apply]
  cases op with
  | query q' ps db =>
    cases hq
    refine stmt ps db false Pure.pure (fun r => (some r.1, r.2)) true hop rfl rfl rfl (fun o h => ?_) ?_
    · rw [CM.bind_pure_apply]; exact h.some_
    · exact congrArg (fun x => mapResult (fun r => (some r.1, r.2)) (Prod.fst x)) (plain ps db false)
  | exec q' ps db =>
    cases hq
    exact stmt ps db false (fun r => Pure.pure r.2) (fun md => (none, md)) false hop rfl rfl rfl (fun o h => h.none_) rfl
  | txQuery h q' ps db =>
    cases hq
    refine stmt ps db true Pure.pure (fun r => (some r.1, r.2)) true hop rfl rfl rfl (fun o h => ?_) ?_
    · rw [CM.bind_pure_apply]; exact h.some_
    · exact congrArg (fun x => mapResult (fun r => (some r.1, r.2)) (Prod.fst x)) (plain ps db true)
  | txExec h q' ps =>
    cases hq
    exact stmt ps [] false (fun r => Pure.pure r.2) (fun md => (none, md)) false hop rfl rfl rfl (fun o h => h.none_) rfl
  | txExecDb h q' ps db =>
    cases hq
    exact stmt ps db true (fun r => Pure.pure r.2) (fun md => (none, md)) false hop rfl rfl rfl (fun o h => h.none_) rfl
  | begin_ db => cases hq
  | commit h => cases hq
  | rollback h => cases hq
  | makeIdle => cases hq
  | close => cases hq
  | validateOpen => cases hq
  | setChunkSize n => cases hq

/-- True if the server's answers can be decoded and no failure is reported inside a transaction before the last call; then also failures are those the database
gives.  A call may only fail otherwise if the session is over, or if the protocol version has no database names.  Missing from the full statement: what follows a
failure inside a transaction. -/
theorem C105_result_partial {fuel : Nat} {user password : Bytes} (hu : user.length ≤ 65535) (hpw : password.length ≤ 65535) {w : σ} {c : Conn σ}
    (h : createBoltConn env W (fuel + 1) user password w = (.ok (), c)) (hU : Understood env c.proto.codec W) (hlo' : lo ≤ 65535)
    {ops : List Op} {op : Op} {q : Bytes} (hops : ∀ o ∈ ops ++ [op], o.Fine env c.proto.codec lo) (hpl : PlainCall (ops ++ [op]))
    (hun : Undisturbed env W (fieldsOf env c.proto c.mode) (fuel + 1) (ops ++ [op]) .new c) (hq : statementOf op = some q) :
    let c' := run env W (fuel + 1) ops c
    let r := resultOf env W (fuel + 1) op c'
    let l := (booked env W (fieldsOf env c.proto c.mode) (fuel + 1) ops .new c).ledger (sess c.world).ledger.lasting
    ((c'.closed = true ∨ (sess c'.world).phase = .defunct) ∧ ∀ a, r ≠ .ok a) ∨ (c.proto ≠ .v4 ∧ dbOf op ≠ [] ∧ ∃ e, r = .err e) ∨
      ∃ o, D l (l.stmt q (fieldsOf env c.proto c.mode op)) o ∧ Conveys env c.proto.codec (withRows op) o r := by
  dsimp only
  obtain ⟨h1, h2, h3, h4⟩ := create_ledger env hT hu hpw h hU hlo hlo'
  have ha := run_agreed env hT hlo fuel hU op ops (fun o ho => hops o (by simp [ho])) (fun o ho => hpl o (by simp [ho])) .new c
    (L := (ledgerOf sess c).lasting) ⟨h1.inv, rfl, h1.idle env, by rw [show Book.new.lasting = [] from rfl, List.append_nil], .inr ⟨by rw [h4]; rfl, h3, h2⟩⟩ hun
  have hL : (ledgerOf sess c).lasting = (sess c.world).ledger.lasting := rfl
  rw [hL] at ha
  generalize hc' : run env W (fuel + 1) ops c = c' at *
  generalize hb : booked env W (fieldsOf env c.proto c.mode) (fuel + 1) ops .new c = b at *
  have hp := ha.idle.1
  have hi := ha.idle
  rw [← hp] at hi
  have hr := result_of env hT hlo fuel hq (hpl op (by simp) q hq) (by rw [hp]; exact hU) (by rw [hp]; exact hops op (by simp)) hi ha.inv
  rw [hp, ha.mode] at hr
  have dead : Dead (fun w => (sess w).phase) c' → c'.closed = true ∨ (sess c'.world).phase = .defunct := by
    intro hd
    rcases hd.1 with hs | hs
    · have := ha.inv.sock
      change c'.closed = !c'.sock at this
      rw [hs] at this
      exact .inl this
    · exact .inr hs
  rcases hr with ⟨hd, hr⟩ | ⟨⟨k1, k2⟩, hr⟩ | ⟨hal, o, k1, k2⟩
  · exact .inl ⟨dead hd, hr⟩
  · refine .inr (.inl ⟨fun hv => ?_, k2, hr⟩)
    rw [hp, hv] at k1
    cases k1
  · rcases ha.rest with hd | ⟨_, _, g⟩
    · rcases hd.1 with h | h
      · rw [hal.sock] at h; cases h
      · have := hal.ready; rw [show (sess c'.world).phase = _ from h] at this; cases this
    · have hl : ledgerOf sess c' = b.ledger (sess c.world).ledger.lasting := by
        have e : ledgerOf sess c' = ⟨(ledgerOf sess c').tx, (ledgerOf sess c').lasting⟩ := rfl
        rw [e, g, ha.lasting]; rfl
      rw [hl] at k1
      exact .inr (.inr ⟨o, k1, k2⟩)

/-- A statement that succeeds returns what the database gives for it. -/
theorem C105_rows_partial {fuel : Nat} {user password : Bytes} (hu : user.length ≤ 65535) (hpw : password.length ≤ 65535) {w : σ} {c : Conn σ}
    (h : createBoltConn env W (fuel + 1) user password w = (.ok (), c)) (hU : Understood env c.proto.codec W) (hlo' : lo ≤ 65535)
    {ops : List Op} {op : Op} {q : Bytes} (hops : ∀ o ∈ ops ++ [op], o.Fine env c.proto.codec lo) (hpl : PlainCall (ops ++ [op]))
    (hun : Undisturbed env W (fieldsOf env c.proto c.mode) (fuel + 1) (ops ++ [op]) .new c) (hq : statementOf op = some q) :
    let l := (booked env W (fieldsOf env c.proto c.mode) (fuel + 1) ops .new c).ledger (sess c.world).ledger.lasting
    ∀ a, resultOf env W (fuel + 1) op (run env W (fuel + 1) ops c) = .ok a →
      ∃ recs m, D l (l.stmt q (fieldsOf env c.proto c.mode op)) (.rows recs m) ∧ Conveys env c.proto.codec (withRows op) (.rows recs m) (.ok a) := by
  intro l a ha
  rcases C105_result_partial env hT hlo hu hpw h hU hlo' hops hpl hun hq with ⟨_, h1⟩ | ⟨_, _, e, h1⟩ | ⟨o, h1, h2⟩
  · exact absurd ha (h1 a)
  · rw [ha] at h1; cases h1
  · rw [ha] at h2
    cases o with
    | rows recs m => exact ⟨recs, m, h1, h2⟩
    | failed m => obtain ⟨_, _, _, h3⟩ := h2; cases h3

end

/-- For a database with a state: the result of a statement is the one it has after the statements that succeeded before, one after the other, those of
transactions that were not committed left out. -/
theorem C105_machine_partial {σ δ : Type} (env : Env) {W : World σ} {sess : σ → Session} {exec : δ → Stmt → δ × Outcome} {start : δ}
    (hT : TServes (machine exec start) W sess) {lo : Nat} (hlo : 8 ≤ lo)
    {fuel : Nat} {user password : Bytes} (hu : user.length ≤ 65535) (hpw : password.length ≤ 65535) {w : σ} {c : Conn σ}
    (h : createBoltConn env W (fuel + 1) user password w = (.ok (), c)) (hU : Understood env c.proto.codec W) (hlo' : lo ≤ 65535)
    {ops : List Op} {op : Op} {q : Bytes} (hops : ∀ o ∈ ops ++ [op], o.Fine env c.proto.codec lo) (hpl : PlainCall (ops ++ [op]))
    (hun : Undisturbed env W (fieldsOf env c.proto c.mode) (fuel + 1) (ops ++ [op]) .new c) (hq : statementOf op = some q)
    (halive : (run env W (fuel + 1) ops c).closed = false ∧ (sess (run env W (fuel + 1) ops c).world).phase ≠ .defunct) (hdb : c.proto = .v4 ∨ dbOf op = []) :
    let b := booked env W (fieldsOf env c.proto c.mode) (fuel + 1) ops .new c
    let before := (sess c.world).ledger.lasting ++ b.lasting ++ (b.tx.map (·.2.2)).getD []
    let state := before.foldl (fun d s => (exec d s).1) start
    Conveys env c.proto.codec (withRows op) (exec state ⟨q, fieldsOf env c.proto c.mode op, b.tx.map (·.2.1)⟩).2 (resultOf env W (fuel + 1) op (run env W (fuel + 1) ops c)) := by
  dsimp only
  rcases C105_result_partial env hT hlo hu hpw h hU hlo' hops hpl hun hq with ⟨h1 | h1, _⟩ | ⟨h1, h2, _⟩ | ⟨o, h1, h2⟩
  · rw [halive.1] at h1; cases h1
  · exact absurd h1 halive.2
  · rcases hdb with hdb | hdb
    · exact absurd hdb h1
    · exact absurd hdb h2
  · generalize booked env W (fieldsOf env c.proto c.mode) (fuel + 1) ops .new c = b at *
    unfold machine at h1
    rw [← h1] at h2
    rcases b with ⟨tx, n, bl⟩
    cases tx with
    | none => exact h2
    | some x => exact h2

/-! ### A concrete server with a database -/

/-- The database counts the statements; "X" fails, and every other statement tells whether it is the first one. -/
def cExec (n : Nat) (s : Stmt) : Nat × Outcome := if s.text = ascii "X" then (n, .failed []) else (n + 1, .rows [[.bool (n == 0)]] [])

/-- Its state. -/
def cState (l : Ledger) : Nat := (l.lasting ++ (l.tx.map (·.2)).getD []).foldl (fun d s => (cExec d s).1) 0

/-- A RECORD message with one truth value. -/
def cRecord (b : Bool) : Bytes := [0x00, 0x04, 0xB1, 0x71, 0x91, if b then 0xC3 else 0xC2, 0x00, 0x00]

def cAnswer (s : Session) (t : PS) : Session × Bytes :=
  match s.phase, t with
  | .streaming true, .struct 0x3F _ =>
    if s.running.1 = ascii "X" then ({ s with phase := .failed }, sFailure.flatten)
    else ({ s with phase := .ready, ledger := s.ledger.complete s.running.1 s.running.2 }, cRecord (cState s.ledger == 0) ++ sSuccess.flatten)
  | _, _ => tAnswer s t

/-- The server, for connections of protocol version `v`. -/
def cServer (v : UInt8) : World Session where
  dial s := ({ s with phase := .new, ledger := s.ledger.drop }, true)
  onSend s ws :=
    if s.phase = .new then ⟨{ s with phase := .connected }, true, [[0, 0, 0, v]], .broken⟩
    else if s.phase = .defunct then ⟨s, true, [], .broken⟩
    else match requestOf ws with
      | some t => ⟨(cAnswer s t).1, true, [(cAnswer s t).2], .broken⟩
      | none => ⟨s, true, [], .broken⟩
  onClose _ := true
  probe _ := .other

theorem cRecord_framed (b : Bool) : Framed [0xB1, 0x71, 0x91, if b then 0xC3 else 0xC2] (cRecord b) := by
  refine ⟨[[0xB1, 0x71, 0x91, if b then 0xC3 else 0xC2]], ?_, rfl, by cases b <;> rfl⟩
  intro c hc
  simp at hc
  subst hc
  simp

theorem sends_record (b : Bool) : Sends [Spec.record [.bool b], Spec.success []] (cRecord b ++ sSuccess.flatten) := by
  refine ⟨_, cRecord b, sSuccess.flatten, rfl, cRecord_framed b, ?_, sends_success⟩
  exact ⟨[0xB1], _, .inl ⟨by simp, rfl⟩, ⟨_, [], ⟨[0x91], _, .inl ⟨by simp, rfl⟩, ⟨_, [], rfl, rfl, rfl⟩, rfl⟩, rfl, rfl⟩, rfl⟩

theorem cServer_reply {s : Session} {ph' : Phase} {t : PS} {ts : List PS} (h : Reply s.phase t ts ph') :
    ∃ ts, TReply (machine cExec 0) s t ts (cAnswer s t).1 ∧ Sends ts (cAnswer s t).2 := by
  by_cases hp : s.phase = .streaming true ∧ ∃ fs, t = .struct 0x3F fs
  · obtain ⟨hs, fs, rfl⟩ := hp
    have e : cAnswer s (.struct 0x3F fs) = if s.running.1 = ascii "X" then ({ s with phase := .failed }, sFailure.flatten)
        else ({ s with phase := .ready, ledger := s.ledger.complete s.running.1 s.running.2 }, cRecord (cState s.ledger == 0) ++ sSuccess.flatten) := by
      unfold cAnswer
      rw [hs]
      rfl
    rw [e]
    split
    · rename_i hx
      refine ⟨_, TReply.pullFailure s true fs [] [] hs (fun h => by cases h) (fun _ => ?_), sends_failure⟩
      show (cExec _ _).2 = _
      unfold cExec Ledger.stmt
      rw [if_pos hx]
    · rename_i hx
      refine ⟨_, TReply.pull s true fs [[.bool (cState s.ledger == 0)]] [] hs (fun h => by cases h) (fun _ => ?_), sends_record _⟩
      show (cExec (cState s.ledger) _).2 = _
      unfold cExec Ledger.stmt
      rw [if_neg hx]
  · have e : cAnswer s t = tAnswer s t := by
      unfold cAnswer
      split
      · rename_i h1
        exact absurd ⟨h1, _, rfl⟩ hp
      · rfl
    rw [e]
    refine tServer_reply (fun l fs b => ?_) (fun h1 fs h2 => absurd ⟨h1, fs, h2⟩ hp) h
    show (cExec _ _).2 = _
    unfold cExec
    rw [if_pos rfl]

/-- The server follows the protocol, and gives what the database says. -/
theorem cServer_serves (v : UInt8) : TServes (machine cExec 0) (cServer v) id where
  reply w ws t hc hd hl := by
    obtain ⟨ts, ph, hl⟩ := hl
    obtain ⟨ts', h1, h2⟩ := cServer_reply (s := w) hl
    have hn : w.phase ≠ .new := reply_not_new hl
    have e : (cServer v).onSend w ws = ⟨(cAnswer w t).1, true, [(cAnswer w t).2], .broken⟩ := by
      simp only [cServer, if_neg hn, if_neg (show w.phase ≠ .defunct from hd), requestOf_carries hc]
    rw [e]
    exact ⟨rfl, ts', h1, by simpa using h2⟩
  silent w ws h := by
    have hw : w.phase = .defunct := h
    have hn : w.phase ≠ .new := by rw [hw]; simp
    have e : (cServer v).onSend w ws = ⟨w, true, [], .broken⟩ := by
      simp only [cServer, if_neg hn, if_pos hw]
    rw [e]
    exact ⟨rfl, rfl⟩
  greet w pre _ _ := ⟨rfl, rfl, rfl⟩

theorem cServer_understood (env : Env) (ver : Ver) (v : UInt8) : Understood env ver (cServer v) := by
  intro w ws ts h
  by_cases hp : w.phase = .streaming true ∧ w.running.1 ≠ ascii "X" ∧ ∃ fs, requestOf ws = some (.struct 0x3F fs)
  · obtain ⟨h1, h2, fs, h3⟩ := hp
    have e : ((cServer v).onSend w ws).segs.flatten = cRecord (cState w.ledger == 0) ++ sSuccess.flatten := by
      have h0 : w.phase ≠ .new := by rw [h1]; simp
      have h4 : w.phase ≠ .defunct := by rw [h1]; simp
      have h5 : cAnswer w (.struct 0x3F fs) = ({ w with phase := .ready, ledger := w.ledger.complete w.running.1 w.running.2 }, cRecord (cState w.ledger == 0) ++ sSuccess.flatten) := by
        unfold cAnswer
        rw [h1]
        exact if_neg h2
      simp only [cServer, if_neg h0, if_neg h4, h3, h5, List.flatten_cons, List.flatten_nil, List.append_nil]
    rw [e] at h ⊢
    rw [sends_unique h (sends_record _)]
    refine ⟨⟨_, cRecord (cState w.ledger == 0), sSuccess.flatten, by simp, cRecord_framed _, ?_, ⟨[0xB1, 0x70, 0xA0], sSuccess.flatten, [], by simp, ⟨[[0xB1, 0x70, 0xA0]], ?_, rfl, rfl⟩, ?_, rfl⟩⟩,
      [recordV [.bool (cState w.ledger == 0)], successV []], rfl, rfl, trivial⟩
    · exact ⟨[0xB1], _, .inl ⟨by simp, rfl⟩, ⟨_, [], ⟨[0x91], _, .inl ⟨by simp, rfl⟩, ⟨_, [], rfl, rfl, rfl⟩, rfl⟩, rfl, rfl⟩, rfl⟩
    · intro c hc; simp at hc; subst hc; simp
    · exact ⟨[0xB1], [0xA0], .inl ⟨by simp, rfl⟩, ⟨[0xA0], [], ⟨[0xA0], [], .inl ⟨by simp, rfl⟩, rfl, rfl⟩, rfl, rfl⟩, rfl⟩
  · by_cases hx : w.phase = .streaming true ∧ ∃ fs, requestOf ws = some (.struct 0x3F fs)
    · obtain ⟨h1, fs, h3⟩ := hx
      have h2 : w.running.1 = ascii "X" := Decidable.not_not.mp fun h2 => hp ⟨h1, h2, fs, h3⟩
      have e : ((cServer v).onSend w ws).segs.flatten = sFailure.flatten := by
        have h0 : w.phase ≠ .new := by rw [h1]; simp
        have h4 : w.phase ≠ .defunct := by rw [h1]; simp
        have h5 : cAnswer w (.struct 0x3F fs) = ({ w with phase := .failed }, sFailure.flatten) := by
          unfold cAnswer
          rw [h1]
          exact if_pos h2
        simp only [cServer, if_neg h0, if_neg h4, h3, h5, List.flatten_cons, List.flatten_nil, List.append_nil]
      rw [e] at h ⊢
      rw [sends_unique h sends_failure]
      refine ⟨⟨[0xB1, 0x7F, 0xA0], sFailure.flatten, [], by simp, ⟨[[0xB1, 0x7F, 0xA0]], ?_, rfl, rfl⟩, ?_, rfl⟩, [failureV []], rfl, trivial⟩
      · intro c hc; simp at hc; subst hc; simp
      · exact ⟨[0xB1], [0xA0], .inl ⟨by simp, rfl⟩, ⟨[0xA0], [], ⟨[0xA0], [], .inl ⟨by simp, rfl⟩, rfl, rfl⟩, rfl, rfl⟩, rfl⟩
    · have e : ((cServer v).onSend w ws).segs.flatten = ((tServer v).onSend w ws).segs.flatten := by
        simp only [cServer, tServer]
        split
        · rfl
        · split
          · rfl
          · cases hq : requestOf ws with
            | none => rfl
            | some t =>
              have : cAnswer w t = tAnswer w t := by
                unfold cAnswer
                split
                · rename_i h1
                  exact absurd ⟨h1, _, hq⟩ hx
                · rfl
              simp only [this]
      rw [e] at h ⊢
      exact tServer_understood env ver v w ws ts h

/-- A connection to the concrete server. -/
def cOpened (v : UInt8) : CRes Unit × Conn Session := createBoltConn env0 (cServer v) 2 [0x75] [0x70] ⟨.new, ([], []), ⟨none, []⟩⟩

/-- The statement of a transaction, asked for its rows. -/
def askTx (h : Nat) (q : String) : Op := .txQuery h (ascii q) [] []

theorem askTx_fine (ver : Ver) (h : Nat) {q : String} (hq : (ascii q).length ≤ 8) : (askTx h q).Fine env0 ver 8 :=
  ⟨.map [], by omega, by omega, hq, by simp, by cases ver <;> rfl, by simp [PS.Fits, PS.FitsWith, FitsEntries], by simp [Val.All, AllEntries, strAtMost]⟩

instance {σ : Type} (env : Env) (W : World σ) (f : Op → List PS) (fuel : Nat) : (ops : List Op) → (b : Book) → (c : Conn σ) → Decidable (Through env W f fuel ops b c)
  | [], _, _ => .isTrue trivial
  | op :: ops, b, c => by
    have d1 : Decidable (∀ h, throughOf op = some h → b.tx.map (·.1) = some h) :=
      match hop : throughOf op with
      | none => .isTrue (by simp)
      | some h => decidable_of_iff (b.tx.map (·.1) = some h) (by simp)
    have d2 := instDecidableThrough env W f fuel ops (b.after f op (okOf (step env W fuel op c).1)) (step env W fuel op c).2
    exact decidable_of_iff ((∀ h, throughOf op = some h → b.tx.map (·.1) = some h) ∧ Through env W f fuel ops (b.after f op (okOf (step env W fuel op c).1)) (step env W fuel op c).2) Iff.rfl

/-- The truth value that a statement returned in its only row, if so. -/
def told (r : CRes (Option (List (List Val)) × Entries)) : Option Bool :=
  match r with
  | .ok (some [[.bool b]], _) => some b
  | _ => none

/-- The full statement is false: after the statement "A" of a transaction, "X" fails in it, and the driver's reset drops the transaction at the server.  The next
statement of the transaction succeeds, but does not see "A". -/
theorem C105_refuted : ¬ C105_statement := by
  intro h
  have hk : (cOpened 4).1.kind = 0 := by decide +kernel
  have hr : told (resultOf env0 (cServer 4) (1 + 1) (askTx 0 "Y") (run env0 (cServer 4) (1 + 1) [.begin_ [], inTx 0 "A", inTx 0 "X"] (cOpened 4).2)) = some true := by decide +kernel
  have := h Session env0 (machine cExec 0) (cServer 4) id 1 [0x75] [0x70] ⟨.new, ([], []), ⟨none, []⟩⟩ (cOpened 4).2 [.begin_ [], inTx 0 "A", inTx 0 "X"] (askTx 0 "Y") (ascii "Y")
    (cServer_serves 4) (by simp) (by simp) (CRes.kind_ok hk) (by
      intro op ho
      simp only [List.cons_append, List.nil_append, List.mem_cons, List.not_mem_nil, or_false] at ho
      rcases ho with rfl | rfl | rfl | rfl
      · exact Nat.zero_le _
      · exact inTx_fine _ 0 (by decide)
      · exact inTx_fine _ 0 (by decide)
      · exact askTx_fine _ 0 (by decide)) (by
      intro op ho q hq
      simp only [List.cons_append, List.nil_append, List.mem_cons, List.not_mem_nil, or_false] at ho
      rcases ho with rfl | rfl | rfl | rfl
      · cases hq
      · cases hq; decide
      · cases hq; decide
      · cases hq; decide) (by decide +kernel) rfl
  generalize resultOf env0 (cServer 4) (1 + 1) (askTx 0 "Y") (run env0 (cServer 4) (1 + 1) [.begin_ [], inTx 0 "A", inTx 0 "X"] (cOpened 4).2) = r at *
  have hb : cState ((booked env0 (cServer 4) (fieldsOf env0 (cOpened 4).2.proto (cOpened 4).2.mode) (1 + 1) [.begin_ [], inTx 0 "A", inTx 0 "X"] .new (cOpened 4).2).ledger
    (id (cOpened 4).2.world).ledger.lasting) = 1 := by decide +kernel
  match r, hr with
  | .ok (some [[.bool b]], md), hr =>
    cases hr
    obtain ⟨recs, m, h1, rows, md', h2, _, h3⟩ := this _ rfl
    replace h1 : (cExec (cState _) _).2 = _ := h1
    rw [hb] at h1
    cases h1
    cases h3
    cases h2.1

/-- The hypotheses of `C105_result_partial` and `C105_machine_partial` are met, for protocol versions 1 and 4: after a failure outside of transactions and a
transaction that was rolled back, the first statement of a transaction is the first one for the database, and the second one is not. -/
def someAsked : List Op := [.query (ascii "X") [] [], .begin_ [], inTx 0 "A", .rollback 0, .begin_ []]

example : Undisturbed env0 (cServer 4) (fieldsOf env0 (cOpened 4).2.proto (cOpened 4).2.mode) 2 (someAsked ++ [askTx 1 "B"] ++ [askTx 1 "C"]) .new (cOpened 4).2 ∧
    Undisturbed env0 (cServer 1) (fieldsOf env0 (cOpened 1).2.proto (cOpened 1).2.mode) 2 (someAsked ++ [askTx 1 "B"] ++ [askTx 1 "C"]) .new (cOpened 1).2 := by decide +kernel
example : told (resultOf env0 (cServer 4) 2 (askTx 1 "B") (run env0 (cServer 4) 2 someAsked (cOpened 4).2)) = some true ∧
    told (resultOf env0 (cServer 1) 2 (askTx 1 "C") (run env0 (cServer 1) 2 (someAsked ++ [askTx 1 "B"]) (cOpened 1).2)) = some false := by decide +kernel
example : ∀ o ∈ someAsked ++ [askTx 1 "B"] ++ [askTx 1 "C"], o.Fine env0 (cOpened 4).2.proto.codec 8 := by
  intro op ho
  simp only [someAsked, List.cons_append, List.nil_append, List.mem_cons, List.not_mem_nil, or_false] at ho
  rcases ho with rfl | rfl | rfl | rfl | rfl | rfl | rfl
  · exact askTx_fine _ 0 (q := "X") (by decide)
  · exact Nat.zero_le _
  · exact inTx_fine _ 0 (by decide)
  · exact trivial
  · exact Nat.zero_le _
  · exact askTx_fine _ 1 (by decide)
  · exact askTx_fine _ 1 (by decide)

end Verif
