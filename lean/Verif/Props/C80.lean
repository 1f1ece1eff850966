/-
C80  Transactions are atomic: what is permanent at the server is exactly what the caller committed.
-/
import Verif.Proofs.Ledger
namespace Verif
open Spec

/-- The caller uses a transaction correctly and the server reports no failure in it: statements run through a transaction only while it is the open one, and no
call but the last is answered by a FAILURE while a transaction is open. -/
def Undisturbed {σ : Type} (env : Env) (W : World σ) (f : Op → List PS) (fuel : Nat) : List Op → Book → Conn σ → Prop
  | [], _, _ => True
  | op :: ops, b, c =>
    let r := step env W fuel op c
    (∀ h, throughOf op = some h → b.tx.map (·.1) = some h) ∧
    (ops ≠ [] → b.tx ≠ none → failures r.2.trace = failures c.trace) ∧
    Undisturbed env W f fuel ops (b.after f op (okOf r.1)) r.2

/-- The statements of a history are not themselves BEGIN, COMMIT or ROLLBACK. -/
def PlainCall (ops : List Op) : Prop := ∀ op ∈ ops, ∀ q, statementOf op = some q → q ∉ controlVerbs

/-- Full statement: for every server that follows the protocol, and every history of calls, the statements that are permanent at the server are those that succeeded
outside of transactions and those of committed transactions, in order, each with its text, its parameters and its metadata. -/
def C80_statement : Prop := ∀ (σ : Type) (env : Env) (W : World σ) (sess : σ → Session) (fuel : Nat) (user password : Bytes) (w : σ) (c : Conn σ) (ops : List Op),
  TFollows W sess → user.length ≤ 65535 → password.length ≤ 65535 → createBoltConn env W (fuel + 1) user password w = (.ok (), c) →
  (∀ op ∈ ops, op.Fine env c.proto.codec 8) → PlainCall ops →
  (sess (run env W (fuel + 1) ops c).world).ledger.lasting =
    (sess c.world).ledger.lasting ++ (booked env W (fieldsOf env c.proto c.mode) (fuel + 1) ops .new c).lasting

section
variable {σ : Type} (env : Env) {W : World σ} {sess : σ → Session} {D : Database} (hT : TServes D W sess) {lo : Nat} (hlo : 8 ≤ lo)

/-- A new connection has no transaction, on either side. -/
theorem create_ledger (hT : TServes D W sess) {fuel : Nat} {user password : Bytes} (hu : user.length ≤ 65535) (hpw : password.length ≤ 65535) {w : σ} {c : Conn σ}
    (h : createBoltConn env W fuel user password w = (.ok (), c)) (hU : Understood env c.proto.codec W) (hlo : 8 ≤ lo) (hlo' : lo ≤ 65535) :
    Alive (sess := sess) lo c ∧ (ledgerOf sess c).tx = none ∧ c.cur = none ∧ c.txs = [] := by
  have hinv := create_inv env W h
  have hd : (W.dial w).2 = true := by
    cases hx : (W.dial w).2 with
    | true => rfl
    | false => obtain ⟨⟨e, he⟩, _⟩ := C28_dial_fails env W fuel user password w hx; rw [h] at he; cases he
  rcases handshake_cases env W fuel user password w hd with ⟨n, p, segs', h1, h2, h3, h4⟩ | ⟨_, ⟨e, he⟩, _⟩
  · rw [h4] at h
    obtain ⟨g1, g3, g2⟩ := hT.greet w preamble rfl rfl
    obtain ⟨_, _, hfl⟩ := readOnce_some (by omega) h3
    have hnil : segs'.flatten = [] := by
      have := congrArg List.length hfl
      rw [show (firstAnswer W w).segs.flatten.length = 4 from g2] at this
      rw [List.length_append] at this
      exact List.length_eq_zero_iff.mp (by simp only [List.length_cons, List.length_nil] at this; omega)
    have hpr : c.proto = p := by
      have := ((sameProto env W).sendInit env W fuel (p.initMessage clientID (buildAuthTokenBasic user password)) (afterHandshake W w segs' p)).1
      rw [h] at this; exact this
    have hat : AtS env sess (sess (afterHandshake W w segs' p).world) [] (afterHandshake W w segs' p) := ⟨rfl, rfl, hnil⟩
    have hph : (sess (afterHandshake W w segs' p).world).phase = .connected := g1
    obtain ⟨e1, b, e2, e3⟩ := init_sent env p hu hpw
    have hc : ∃ fs, Carries (.struct 0x01 fs) (encodeMsg env p.codec 65535 (p.initMessage clientID (buildAuthTokenBasic user password))).1 := by
      cases p
      · obtain ⟨es, _, h⟩ := e3; exact ⟨_, b, e2, h⟩
      · obtain ⟨es, _, h⟩ := e3; exact ⟨_, b, e2, h⟩
      · obtain ⟨es, _, h⟩ := e3; exact ⟨_, b, e2, h⟩
      · obtain ⟨es, _, h⟩ := e3; exact ⟨_, b, e2, h⟩
    obtain ⟨fs, hc⟩ := hc
    rw [hpr] at hU
    obtain ⟨s1, ts, vs, s', r1, m1, a1, a2, a3⟩ := send_t env hT (c := afterHandshake W w segs' p) hU hat e1 hc (by rw [hph]; simp) ⟨_, _, by rw [hph]; exact Reply.init fs []⟩
    unfold sendInit at h
    rw [CM.bind_ok s1] at h
    have hr : (∃ m, ts = [Spec.success m] ∧ s' = { sess (afterHandshake W w segs' p).world with phase := .ready }) ∨ (∃ m, ts = [Spec.failure m]) := by
      generalize ht : PS.struct 0x01 fs = t at r1
      cases r1 <;> simp_all <;> first | exact ⟨_, rfl⟩ | exact .inl ⟨_, rfl⟩
    rcases hr with ⟨m, rfl, rfl⟩ | ⟨m, rfl⟩
    · obtain ⟨md, rfl⟩ := means_one_success env m1
      obtain ⟨g, k1, k2⟩ := consume_reads env (reset := reset env W fuel) a1 (by rfl) a3
      rw [CM.bind_ok (show consume env W fuel _ = _ from k1)] at h
      replace h : (CRes.ok (), _) = (CRes.ok (), c) := h
      cases h
      refine ⟨⟨hinv, hlo', Nat.le_refl _, a1, ?_, k2⟩, ?_, rfl, rfl⟩
      · show (sess (Conn.sent env W _ _).world).phase = _
        rw [a2]
      · show (sess (Conn.sent env W _ _).world).ledger.tx = _
        rw [a2]; exact g3
    · obtain ⟨md, rfl⟩ := means_one_failure env m1
      obtain ⟨g, k2, k1⟩ := consume_failure env (reset := reset env W fuel) a1 a3
      rw [failTail_bind (show consume env W fuel _ = failTail (reset env W fuel) md _ from k1), failTail_apply] at h
      match hx : reset env W fuel ((Conn.sent env W (afterHandshake W w segs' p) (p.initMessage clientID (buildAuthTokenBasic user password))).got [failureV md] g) with
      | (.ok _, _) => rw [hx] at h; cases h
      | (.err _, _) => rw [hx] at h; cases h
      | (.panic, _) => rw [hx] at h; cases h
      | (.fuel, _) => rw [hx] at h; cases h
  · rw [h] at he; cases he

/-- The book agrees with the server. -/
structure Agree (p : Proto) (m : AccessMode) (lo : Nat) (L : List Stmt) (b : Book) (c : Conn σ) : Prop where
  inv : c.core.Inv
  mode : c.mode = m
  idle : Idle env (fun w => (sess w).phase) p lo c
  lasting : (ledgerOf sess c).lasting = L ++ b.lasting
  rest : Dead (fun w => (sess w).phase) c ∨ (b.begun = c.txs.length ∧ c.cur = b.tx.map (·.1) ∧ (ledgerOf sess c).tx = b.tx.map (·.2))

theorem okOf_false {α : Type} {r : CRes α} (h : ∀ a, r ≠ .ok a) : okOf r = false := by
  cases r with
  | ok a => exact absurd rfl (h a)
  | err _ => rfl
  | panic => rfl
  | fuel => rfl

theorem Book.after_false (f : Op → List PS) (b : Book) (op : Op) : b.after f op false = b := by cases op <;> rfl

theorem Book.onConn_tx {b : Book} {q : Bytes} {fs : List PS} : (b.onConn q fs).begun = b.begun ∧ (b.onConn q fs).tx.map (·.1) = b.tx.map (·.1) := by
  unfold Book.onConn
  split <;> simp_all

/-- The server's ledger and the book after a statement. -/
theorem complete_book {b : Book} {l : Ledger} {L : List Stmt} {q : Bytes} {fs : List PS} (hq : q ∉ controlVerbs) (h1 : l.lasting = L ++ b.lasting) (h2 : l.tx = b.tx.map (·.2)) :
    (l.complete q fs).lasting = L ++ (b.onConn q fs).lasting ∧ (l.complete q fs).tx = (b.onConn q fs).tx.map (·.2) := by
  have h3 : q ≠ ascii "BEGIN" := fun h => hq (by simp [h, controlVerbs])
  have h4 : q ≠ ascii "COMMIT" := fun h => hq (by simp [h, controlVerbs])
  have h5 : q ≠ ascii "ROLLBACK" := fun h => hq (by simp [h, controlVerbs])
  unfold Ledger.complete Book.onConn Ledger.stmt
  rw [if_neg h3, if_neg h4, if_neg h5]
  rcases b with ⟨tx, n, bl⟩
  cases tx with
  | none =>
    simp only [Option.map] at h2
    rw [h2]
    exact ⟨by simp [h1], rfl⟩
  | some x =>
    simp only [Option.map] at h2
    rw [h2]
    exact ⟨h1, rfl⟩

theorem onTx_onConn {b : Book} {h : Nat} {q : Bytes} {fs : List PS} (hb : b.tx.map (·.1) = some h) : b.onTx h q fs = b.onConn q fs := by
  rcases b with ⟨tx, n, bl⟩
  cases tx with
  | none => cases hb
  | some x =>
    obtain ⟨h', work⟩ := x
    simp only [Option.map, Option.some.injEq] at hb
    simp [Book.onTx, Book.onConn, hb]

/-- After the end of the session no statement and no Commit succeeds. -/
theorem dead_quiet (hT : TServes D W sess) (fuel : Nat) {op : Op} {c : Conn σ} (hop : (statementOf op).isSome ∨ ∃ h, op = .commit h) (hd : Dead (fun w => (sess w).phase) c) :
    ∀ a, (step env W (fuel + 1) op c).1 ≠ .ok a := by
  have hst : ∀ {α : Type} (q : Bytes) (ps : Entries) (db : Bytes) (inTx : Bool) (f : List (List Val) × Entries → CM σ α) (a : Unit),
      (CM.void (checkDb db >>= fun _ => runQuery env W (fuel + 1) q ps db inTx >>= f) c).1 ≠ .ok a := by
    intro α q ps db inTx f a hx
    have hx' := Prod.ext (x := CM.void (checkDb db >>= fun _ => runQuery env W (fuel + 1) q ps db inTx >>= f) c) (y := (.ok a, _)) hx rfl
    obtain ⟨_, c1, h1, _⟩ := CM.bind_eq_ok.mp hx'
    obtain ⟨_, c2, h2, h3⟩ := CM.bind_eq_ok.mp h1
    obtain ⟨_, c3, h4, h5⟩ := CM.bind_eq_ok.mp h3
    have := checkDb_snd db c
    rw [h2] at this
    rw [show c2 = c from this] at h4
    exact dead_runQuery env hT (fuel + 1) q ps db inTx hd _ (by rw [h4])
  have hst' : ∀ (q : Bytes) (ps : Entries) (db : Bytes) (inTx : Bool) (a : Unit), (CM.void (checkDb db >>= fun _ => runQuery env W (fuel + 1) q ps db inTx) c).1 ≠ .ok a := by
    intro q ps db inTx a hx
    have hx' := Prod.ext (x := CM.void (checkDb db >>= fun _ => runQuery env W (fuel + 1) q ps db inTx) c) (y := (.ok a, _)) hx rfl
    obtain ⟨_, c1, h1, _⟩ := CM.bind_eq_ok.mp hx'
    obtain ⟨_, c2, h2, h3⟩ := CM.bind_eq_ok.mp h1
    have := checkDb_snd db c
    rw [h2] at this
    rw [show c2 = c from this] at h3
    exact dead_runQuery env hT (fuel + 1) q ps db inTx hd _ (by rw [h3])
  cases op with
  | query q ps db => exact hst' q ps db false
  | exec q ps db => exact hst q ps db false _
  | txQuery h q ps db => exact hst' q ps db true
  | txExec h q ps => exact hst q ps [] false _
  | txExecDb h q ps db => exact hst q ps db true _
  | commit h => exact dead_commit env hT (fuel + 1) h hd
  | begin_ db => rcases hop with h | ⟨h, e⟩ <;> contradiction
  | rollback h => rcases hop with h | ⟨h, e⟩ <;> contradiction
  | close => rcases hop with h | ⟨h, e⟩ <;> contradiction
  | makeIdle => rcases hop with h | ⟨h, e⟩ <;> contradiction
  | validateOpen => rcases hop with h | ⟨h, e⟩ <;> contradiction
  | setChunkSize n => rcases hop with h | ⟨h, e⟩ <;> contradiction

include hT hlo

/-- One call keeps book and server in agreement, unless a failure is reported inside a transaction; even then what is permanent agrees. -/
theorem step_agree (fuel : Nat) {op : Op} {p : Proto} {m : AccessMode} {L : List Stmt} {b : Book} {c : Conn σ} (hU : Understood env p.codec W) (hop : op.Fine env p.codec lo)
    (hpl : ∀ q, statementOf op = some q → q ∉ controlVerbs) (hth : ∀ h, throughOf op = some h → b.tx.map (·.1) = some h) (ha : Agree (sess := sess) env p m lo L b c) :
    let r := step env W (fuel + 1) op c
    Agree (sess := sess) env p m lo L (b.after (fieldsOf env p m) op (okOf r.1)) r.2 ∨
      (b.tx ≠ none ∧ failures r.2.trace ≠ failures c.trace ∧ (ledgerOf sess r.2).lasting = L ++ (b.after (fieldsOf env p m) op (okOf r.1)).lasting) := by
  dsimp only
  have hinv : (step env W (fuel + 1) op c).2.core.Inv := Keeps.step env W (fuel + 1) op c ha.inv
  have hidle := (step_kept env hT.follows p hlo hU fuel hop ha.idle).1
  have hp := ha.idle.1
  have hmode : (step env W (fuel + 1) op c).2.mode = m := ((sameProto env W).step env W (fuel + 1) op c).2.trans ha.mode
  rcases Spec.idle_alive env ha.idle ha.inv with hd | hal
  · obtain ⟨d1, d2, _⟩ := (dead_ledger env hT).step env W (fuel + 1) op c hd
    refine .inl ⟨hinv, hmode, hidle, ?_, .inl d1⟩
    rw [d2, ha.lasting]
    have hl : ∀ ok, (ok = true → statementOf op = none ∧ ∀ h, op ≠ .commit h) → (b.after (fieldsOf env p m) op ok).lasting = b.lasting := by
      intro ok hok
      cases ok with
      | false => rw [Book.after_false]
      | true =>
        obtain ⟨k1, k2⟩ := hok rfl
        cases op with
        | query q ps db => cases k1
        | exec q ps db => cases k1
        | txQuery h q ps db => cases k1
        | txExec h q ps => cases k1
        | txExecDb h q ps db => cases k1
        | commit h => exact absurd rfl (k2 h)
        | begin_ db => rfl
        | rollback h => rfl
        | close => rfl
        | makeIdle => rfl
        | validateOpen => rfl
        | setChunkSize n => rfl
    rw [hl]
    intro hok
    have no : (∀ a, (step env W (fuel + 1) op c).1 ≠ .ok a) → False := fun h => by rw [okOf_false h] at hok; cases hok
    by_cases hq : (statementOf op).isSome ∨ ∃ h, op = .commit h
    · exact (no (dead_quiet env hT fuel hq hd)).elim
    · refine ⟨Option.not_isSome_iff_eq_none.mp fun h => hq (.inl h), fun h e => hq (.inr ⟨h, e⟩)⟩
  · obtain ⟨r1, r2, r3⟩ : b.begun = c.txs.length ∧ c.cur = b.tx.map (·.1) ∧ (ledgerOf sess c).tx = b.tx.map (·.2) := by
      rcases ha.rest with hd | h
      · rcases hd.1 with h | h
        · rw [hal.sock] at h; cases h
        · have := hal.ready; rw [show (sess c.world).phase = _ from h] at this; cases this
      · exact h
    have hsl := step_ledger env hT hlo fuel hal (by rw [hp]; exact hU) (by rw [hp]; exact hop)
    rw [hp, ha.mode] at hsl
    rcases hsl with ⟨he, hf⟩ | ⟨k1, k2, k3, k4, k5⟩
    · refine .inl ?_
      -- a statement
      have stmt : ∀ q, statementOf op = some q → (((step env W (fuel + 1) op c).1 = .ok () ∧ (step env W (fuel + 1) op c).2.core = c.core ∧
          ledgerOf sess (step env W (fuel + 1) op c).2 = (ledgerOf sess c).complete q (fieldsOf env p m op)) ∨ ((∀ a, (step env W (fuel + 1) op c).1 ≠ .ok a) ∧ (step env W (fuel + 1) op c).2 = c)) →
          b.after (fieldsOf env p m) op true = b.onConn q (fieldsOf env p m op) → Agree (sess := sess) env p m lo L (b.after (fieldsOf env p m) op (okOf (step env W (fuel + 1) op c).1)) (step env W (fuel + 1) op c).2 := by
        rintro q hq (⟨e1, e2, e3⟩ | ⟨e1, e2⟩) hb
        · obtain ⟨g1, g2⟩ := complete_book (fs := fieldsOf env p m op) (hpl q hq) ha.lasting r3
          obtain ⟨g3, g4⟩ := Book.onConn_tx (b := b) (q := q) (fs := fieldsOf env p m op)
          rw [e1, show okOf (CRes.ok ()) = true from rfl, hb]
          refine ⟨hinv, hmode, hidle, by rw [e3]; exact g1, .inr ⟨?_, ?_, by rw [e3]; exact g2⟩⟩
          · rw [g3, r1]; exact congrArg (fun k => List.length k.txs) e2.symm
          · rw [g4, ← r2]; exact congrArg Core.cur e2
        · rw [okOf_false e1, e2, Book.after_false]; exact ha
      have conn : ∀ h q fs, throughOf op = some h → b.onTx h q fs = b.onConn q fs := fun h q fs hh => onTx_onConn (hth h hh)
      have same : ((∀ a, (step env W (fuel + 1) op c).1 ≠ .ok a) ∧ (step env W (fuel + 1) op c).2 = c) →
          Agree (sess := sess) env p m lo L (b.after (fieldsOf env p m) op (okOf (step env W (fuel + 1) op c).1)) (step env W (fuel + 1) op c).2 := by
        rintro ⟨e1, e2⟩
        rw [okOf_false e1, e2, Book.after_false]; exact ha
      -- the end of a transaction without commit
      have dropped : ∀ h, (step env W (fuel + 1) op c).1 = .ok () → (step env W (fuel + 1) op c).2.core = c.core.endTx h →
          ledgerOf sess (step env W (fuel + 1) op c).2 = (ledgerOf sess c).drop → b.after (fieldsOf env p m) op true = { b with tx := none } →
          Agree (sess := sess) env p m lo L (b.after (fieldsOf env p m) op (okOf (step env W (fuel + 1) op c).1)) (step env W (fuel + 1) op c).2 := by
        intro h e1 e2 e3 hb
        rw [e1, show okOf (CRes.ok ()) = true from rfl, hb]
        refine ⟨hinv, hmode, hidle, by rw [e3]; exact ha.lasting, .inr ⟨?_, congrArg Core.cur e2, by rw [e3]; rfl⟩⟩
        have := congrArg (fun k => List.length k.txs) e2
        simp only [Core.endTx, List.length_set] at this
        exact r1.trans this.symm
      cases op with
      | query q ps db => obtain ⟨q', e, he⟩ := he; cases e; exact stmt q rfl he rfl
      | exec q ps db => obtain ⟨q', e, he⟩ := he; cases e; exact stmt q rfl he rfl
      | txQuery h q ps db => obtain ⟨q', e, he⟩ := he; cases e; exact stmt q rfl he (conn h q _ rfl)
      | txExec h q ps => obtain ⟨q', e, he⟩ := he; cases e; exact stmt q rfl he (conn h q _ rfl)
      | txExecDb h q ps db => obtain ⟨q', e, he⟩ := he; cases e; exact stmt q rfl he (conn h q _ rfl)
      | begin_ db =>
        rcases he with ⟨e1, e2, e3, e4, e5, e6⟩ | ⟨e1, e2, _⟩
        · rw [e3]
          refine ⟨hinv, hmode, hidle, by rw [e6]; exact ha.lasting, .inr ⟨?_, ?_, by rw [e6]; rfl⟩⟩
          · rw [e5, List.length_append, ← r1]; rfl
          · rw [e4, ← r1]; rfl
        · exact same ⟨e1, e2⟩
      | commit h =>
        rcases he with ⟨w, e1, e2, e3, e4, e5⟩ | ⟨e1, e2, _⟩
        · rw [e3]
          have hw : b.tx.map (·.2) = some w := r3 ▸ e1
          refine ⟨hinv, hmode, hidle, ?_, .inr ⟨?_, congrArg Core.cur e4, by rw [e5]; rfl⟩⟩
          · rw [e5]
            show _ ++ w.2 = L ++ (b.lasting ++ (b.tx.map (·.2.2)).getD [])
            rw [ha.lasting, List.append_assoc]
            cases hb : b.tx with
            | none => rw [hb] at hw; cases hw
            | some x => rw [hb] at hw; cases hw; rfl
          · have := congrArg (fun k => List.length k.txs) e4
            simp only [Core.endTx, List.length_set] at this
            exact r1.trans this.symm
        · exact same ⟨e1, e2⟩
      | rollback h =>
        rcases he with ⟨e1, e2, e3, e4, e5⟩ | ⟨e1, e2, _⟩
        · exact dropped h e3 e4 e5 rfl
        · exact same ⟨e1, e2⟩
      | makeIdle =>
        rcases he with ⟨h, e1, e2, e3, e4, e5⟩ | ⟨e1, e2⟩
        · exact dropped h e3 e4 e5 rfl
        · rw [e1]
          have hb : b.tx = none := by rw [r2] at e2; simpa using e2
          refine ⟨ha.inv, ha.mode, ha.idle, ha.lasting, .inr ⟨r1, ?_, ?_⟩⟩
          · rw [r2, hb]; rfl
          · rw [r3, hb]; rfl
      | close =>
        obtain ⟨e1, e2, e3⟩ := he
        refine ⟨hinv, hmode, hidle, ?_, .inl e2⟩
        rw [e3, ha.lasting]
        cases okOf (step env W (fuel + 1) .close c).1 <;> rfl
      | validateOpen =>
        obtain ⟨e1, e2, e3⟩ := he
        have : ∀ ok, b.after (fieldsOf env p m) .validateOpen ok = b := fun ok => by cases ok <;> rfl
        rw [this]
        exact ⟨hinv, hmode, hidle, by rw [e3]; exact ha.lasting, .inr ⟨by rw [e2]; exact r1, by rw [e1]; exact r2, by rw [e3]; exact r3⟩⟩
      | setChunkSize n =>
        obtain ⟨e1, e2, e3⟩ := he
        have : ∀ ok, b.after (fieldsOf env p m) (.setChunkSize n) ok = b := fun ok => by cases ok <;> rfl
        rw [this]
        exact ⟨hinv, hmode, hidle, by rw [e3]; exact ha.lasting, .inr ⟨by rw [e2]; exact r1, by rw [e1]; exact r2, by rw [e3]; exact r3⟩⟩
    · rw [okOf_false k1, Book.after_false]
      by_cases hb : b.tx = none
      · refine .inl ⟨hinv, hmode, hidle, by rw [k4]; exact ha.lasting, .inr ⟨by rw [k3]; exact r1, by rw [k2]; exact r2, ?_⟩⟩
        rw [k4, hb]; rfl
      · exact .inr ⟨hb, by omega, by rw [k4]; exact ha.lasting⟩

theorem run_agree (fuel : Nat) {p : Proto} {m : AccessMode} {L : List Stmt} (hU : Understood env p.codec W) : (ops : List Op) → (∀ op ∈ ops, op.Fine env p.codec lo) → PlainCall ops →
    (b : Book) → (c : Conn σ) → Agree (sess := sess) env p m lo L b c → Undisturbed env W (fieldsOf env p m) (fuel + 1) ops b c →
    (ledgerOf sess (run env W (fuel + 1) ops c)).lasting = L ++ (booked env W (fieldsOf env p m) (fuel + 1) ops b c).lasting
  | [], _, _, b, c, ha, _ => ha.lasting
  | op :: ops, hops, hpl, b, c, ha, ⟨hu1, hu2, hu3⟩ => by
    rcases step_agree env hT hlo fuel hU (hops op List.mem_cons_self) (hpl op List.mem_cons_self) hu1 ha with h | ⟨h1, h2, h3⟩
    · exact run_agree fuel hU ops (fun o ho => hops o (List.mem_cons_of_mem _ ho)) (fun o ho => hpl o (List.mem_cons_of_mem _ ho)) _ _ h hu3
    · cases ops with
      | nil => exact h3
      | cons o os => exact absurd (hu2 (by simp) h1) h2

/-- True if the server's answers can be decoded, the caller uses each transaction's own handle while it is open, and no failure is reported inside a transaction
before the last call.  Missing from the full statement: what follows a failure inside a transaction, and statements run through an ended transaction. -/
theorem C80_atomic_partial {fuel : Nat} {user password : Bytes} (hu : user.length ≤ 65535) (hpw : password.length ≤ 65535) {w : σ} {c : Conn σ}
    (h : createBoltConn env W (fuel + 1) user password w = (.ok (), c)) (hU : Understood env c.proto.codec W) (hlo' : lo ≤ 65535)
    {ops : List Op} (hops : ∀ op ∈ ops, op.Fine env c.proto.codec lo) (hpl : PlainCall ops) (hun : Undisturbed env W (fieldsOf env c.proto c.mode) (fuel + 1) ops .new c) :
    (sess (run env W (fuel + 1) ops c).world).ledger.lasting =
      (sess c.world).ledger.lasting ++ (booked env W (fieldsOf env c.proto c.mode) (fuel + 1) ops .new c).lasting := by
  obtain ⟨h1, h2, h3, h4⟩ := create_ledger env hT hu hpw h hU hlo hlo'
  refine run_agree env hT hlo fuel hU ops hops hpl .new c ⟨h1.inv, rfl, h1.idle env, by rw [show Book.new.lasting = [] from rfl, List.append_nil]; rfl, .inr ⟨by rw [h4]; rfl, h3, h2⟩⟩ hun

end
/-! ### A concrete server with transactions -/

instance (l : Ledger) (q : Bytes) : Decidable (l.Allows q) := by unfold Ledger.Allows; infer_instance

/-- A server that fails the statement "X" and statements that begin or end a transaction out of turn; every other statement succeeds without rows. -/
def tAnswer (s : Session) (t : PS) : Session × Bytes :=
  match s.phase, t with
  | .connected, .struct 0x01 _ => ({ s with phase := .ready }, sSuccess.flatten)
  | .ready, .struct 0x10 (.str q :: fs) =>
    if q = ascii "X" ∨ ¬ s.ledger.Allows q then ({ s with phase := .failed }, sFailure.flatten)
    else ({ s with phase := .streaming (q ∉ controlVerbs), running := (q, fs) }, sSuccess.flatten)
  | .ready, .struct 0x11 fs =>
    if s.ledger.Allows (ascii "BEGIN") then ({ s with ledger := s.ledger.complete (ascii "BEGIN") fs }, sSuccess.flatten) else ({ s with phase := .failed }, sFailure.flatten)
  | .ready, .struct 0x12 fs =>
    if s.ledger.Allows (ascii "COMMIT") then ({ s with ledger := s.ledger.complete (ascii "COMMIT") fs }, sSuccess.flatten) else ({ s with phase := .failed }, sFailure.flatten)
  | .ready, .struct 0x13 fs =>
    if s.ledger.Allows (ascii "ROLLBACK") then ({ s with ledger := s.ledger.complete (ascii "ROLLBACK") fs }, sSuccess.flatten) else ({ s with phase := .failed }, sFailure.flatten)
  | .streaming _, .struct 0x3F _ => ({ s with phase := .ready, ledger := s.ledger.complete s.running.1 s.running.2 }, sSuccess.flatten)
  | .connected, .struct 0x02 [] => ({ s with phase := .defunct, ledger := s.ledger.drop }, [])
  | _, .struct 0x0F [] => ({ s with phase := .ready, ledger := s.ledger.drop }, sSuccess.flatten)
  | _, .struct 0x02 [] => ({ s with phase := .defunct, ledger := s.ledger.drop }, [])
  | .failed, _ => (s, sIgnored.flatten)
  | _, _ => (s, [])

/-- The server, for connections of protocol version `v`. -/
def tServer (v : UInt8) : World Session where
  dial s := ({ s with phase := .new, ledger := s.ledger.drop }, true)
  onSend s ws :=
    if s.phase = .new then ⟨{ s with phase := .connected }, true, [[0, 0, 0, v]], .broken⟩
    else if s.phase = .defunct then ⟨s, true, [], .broken⟩
    else match requestOf ws with
      | some t => ⟨(tAnswer s t).1, true, [(tAnswer s t).2], .broken⟩
      | none => ⟨s, true, [], .broken⟩
  onClose _ := true
  probe _ := .other

theorem tServer_reply {D : Database} (hX : ∀ l fs b, D l ⟨ascii "X", fs, b⟩ (.failed [])) {s : Session} {ph' : Phase} {t : PS} {ts : List PS}
    (hR : s.phase = .streaming true → ∀ fs, t = .struct 0x3F fs → D s.ledger (s.ledger.stmt s.running.1 s.running.2) (.rows [] [])) (h : Reply s.phase t ts ph') :
    ∃ ts, TReply D s t ts (tAnswer s t).1 ∧ Sends ts (tAnswer s t).2 := by
  have ht : ∀ (sig : UInt8) (q : Bytes) fs, s.phase = .ready → (sig, q) ∈ txVerbs →
      tAnswer s (.struct sig fs) = (if s.ledger.Allows q then ({ s with ledger := s.ledger.complete q fs }, sSuccess.flatten) else ({ s with phase := .failed }, sFailure.flatten)) := by
    intro sig q fs hs hm
    simp only [txVerbs, List.mem_cons, Prod.mk.injEq, List.not_mem_nil, or_false] at hm
    rcases hm with ⟨rfl, rfl⟩ | ⟨rfl, rfl⟩ | ⟨rfl, rfl⟩ <;> (unfold tAnswer; rw [hs]; rfl)
  have htx : ∀ (sig : UInt8) fs, s.phase = .ready → sig ∈ [0x11, 0x12, 0x13] → ∃ ts, TReply D s (.struct sig fs) ts (tAnswer s (.struct sig fs)).1 ∧ Sends ts (tAnswer s (.struct sig fs)).2 := by
    intro sig fs hs hm
    have : ∃ q, (sig, q) ∈ txVerbs := by
      simp only [List.mem_cons, List.not_mem_nil, or_false] at hm
      rcases hm with rfl | rfl | rfl
      · exact ⟨ascii "BEGIN", by simp [txVerbs]⟩
      · exact ⟨ascii "COMMIT", by simp [txVerbs]⟩
      · exact ⟨ascii "ROLLBACK", by simp [txVerbs]⟩
    obtain ⟨q, hq⟩ := this
    rw [ht sig q fs hs hq]
    split
    · exact ⟨_, TReply.tx s sig q fs [] hs hq ‹_›, sends_success⟩
    · exact ⟨_, TReply.txFailure s sig q fs [] hs hq, sends_failure⟩
  have hrun : ∀ q fs, s.phase = .ready → ∃ ts, TReply D s (.struct 0x10 (.str q :: fs)) ts (tAnswer s (.struct 0x10 (.str q :: fs))).1 ∧ Sends ts (tAnswer s (.struct 0x10 (.str q :: fs))).2 := by
    intro q fs hs
    have e : tAnswer s (.struct 0x10 (.str q :: fs)) = (if q = ascii "X" ∨ ¬ s.ledger.Allows q then ({ s with phase := .failed }, sFailure.flatten)
        else ({ s with phase := .streaming (q ∉ controlVerbs), running := (q, fs) }, sSuccess.flatten)) := by unfold tAnswer; rw [hs]; rfl
    rw [e]
    split
    · rename_i hf
      refine ⟨_, TReply.runFailure s q fs [] hs (fun hc => ?_), sends_failure⟩
      rcases hf with rfl | hf
      · exact hX _ _ _
      · refine absurd ⟨fun h => ?_, fun h => ?_⟩ hf
        · exact absurd (by simp [h, controlVerbs]) hc
        · rcases h with h | h <;> exact absurd (by simp [h, controlVerbs]) hc
    · rename_i hn
      exact ⟨_, TReply.run s q fs [] hs (Decidable.not_not.mp fun h => hn (.inr h)), sends_success⟩
  have hreset : s.phase ≠ .new → s.phase ≠ .connected → s.phase ≠ .defunct → ∃ ts, TReply D s (.struct 0x0F []) ts (tAnswer s (.struct 0x0F [])).1 ∧ Sends ts (tAnswer s (.struct 0x0F [])).2 := by
    intro h0 h1 h2
    have e : tAnswer s (.struct 0x0F []) = ({ s with phase := .ready, ledger := s.ledger.drop }, sSuccess.flatten) := by
      unfold tAnswer
      cases s.phase <;> rfl
    rw [e]
    exact ⟨_, TReply.reset s [] h0 h1 h2, sends_success⟩
  have hpull : ∀ rows fs, s.phase = .streaming rows → (rows = true → D s.ledger (s.ledger.stmt s.running.1 s.running.2) (.rows [] [])) → ∃ ts, TReply D s (.struct 0x3F fs) ts (tAnswer s (.struct 0x3F fs)).1 ∧ Sends ts (tAnswer s (.struct 0x3F fs)).2 := by
    intro rows fs hs hR
    have e : tAnswer s (.struct 0x3F fs) = ({ s with phase := .ready, ledger := s.ledger.complete s.running.1 s.running.2 }, sSuccess.flatten) := by unfold tAnswer; rw [hs]; rfl
    rw [e]
    exact ⟨_, TReply.pull s rows fs [] [] hs (fun _ => rfl) hR, sends_success⟩
  have hinit : ∀ fs, s.phase = .connected → ∃ ts, TReply D s (.struct 0x01 fs) ts (tAnswer s (.struct 0x01 fs)).1 ∧ Sends ts (tAnswer s (.struct 0x01 fs)).2 := by
    intro fs hs
    have e : tAnswer s (.struct 0x01 fs) = ({ s with phase := .ready }, sSuccess.flatten) := by unfold tAnswer; rw [hs]; rfl
    rw [e]
    exact ⟨_, TReply.init s fs [] hs, sends_success⟩
  generalize hph : s.phase = ph at h
  cases h with
  | init fs m => exact hinit fs hph
  | initFailure fs m => exact hinit fs hph
  | run q fs m => exact hrun q fs hph
  | runFailure q fs m => exact hrun q fs hph
  | tx sig fs m hs => exact htx sig fs hph hs
  | txFailure sig fs m hs => exact htx sig fs hph hs
  | pull rows fs rs' m _ => exact hpull rows fs hph (fun hr => hR (by rw [hph, hr]) fs rfl)
  | pullFailure rows fs rs' m _ => exact hpull rows fs hph (fun hr => hR (by rw [hph, hr]) fs rfl)
  | ignored sig fs hs =>
    have h1 : sig ≠ 0x0F := fun h => hs (by simp [h])
    have h2 : sig ≠ 0x02 := fun h => hs (by simp [h])
    have : tAnswer s (.struct sig fs) = (s, sIgnored.flatten) := by
      unfold tAnswer
      rw [hph]
      split <;> simp_all
    rw [this]
    exact ⟨_, TReply.ignored s sig fs hph hs, sends_ignored⟩
  | reset ph m h0 h1 h2 => exact hreset (by rw [hph]; exact h0) (by rw [hph]; exact h1) (by rw [hph]; exact h2)
  | resetFailure ph m h0 h1 h2 => exact hreset (by rw [hph]; exact h0) (by rw [hph]; exact h1) (by rw [hph]; exact h2)
  | goodbye ph h0 h1 =>
    have e : tAnswer s (.struct 0x02 []) = ({ s with phase := .defunct, ledger := s.ledger.drop }, []) := by
      unfold tAnswer
      cases s.phase <;> rfl
    rw [e]
    exact ⟨_, TReply.goodbye s (by rw [hph]; exact h0) (by rw [hph]; exact h1), rfl⟩

/-- The server follows the protocol. -/
theorem tServer_follows (v : UInt8) : TFollows (tServer v) id where
  reply w ws t hc hd hl := by
    obtain ⟨ts, ph, hl⟩ := hl
    obtain ⟨ts', h1, h2⟩ := tServer_reply (D := anyDatabase) (fun _ _ _ => trivial) (s := w) (fun _ _ _ => trivial) hl
    have hn : w.phase ≠ .new := reply_not_new hl
    have e : (tServer v).onSend w ws = ⟨(tAnswer w t).1, true, [(tAnswer w t).2], .broken⟩ := by
      simp only [tServer, if_neg hn, if_neg (show w.phase ≠ .defunct from hd), requestOf_carries hc]
    rw [e]
    exact ⟨rfl, ts', h1, by simpa using h2⟩
  silent w ws h := by
    have hw : w.phase = .defunct := h
    have hn : w.phase ≠ .new := by rw [hw]; simp
    have e : (tServer v).onSend w ws = ⟨w, true, [], .broken⟩ := by
      simp only [tServer, if_neg hn, if_pos hw]
    rw [e]
    exact ⟨rfl, rfl⟩
  greet w pre _ _ := ⟨rfl, rfl, rfl⟩

theorem tServer_understood (env : Env) (ver : Ver) (v : UInt8) : Understood env ver (tServer v) := by
  have hs : Readable env ver sSuccess.flatten := by
    refine ⟨_, sends_success, ⟨[0xB1, 0x70, 0xA0], sSuccess.flatten, [], by simp, ⟨[[0xB1, 0x70, 0xA0]], ?_, rfl, rfl⟩, ?_, rfl⟩, [successV []], rfl, trivial⟩
    · intro c hc; simp at hc; subst hc; simp
    · exact ⟨[0xB1], [0xA0], .inl ⟨by simp, rfl⟩, ⟨[0xA0], [], ⟨[0xA0], [], .inl ⟨by simp, rfl⟩, rfl, rfl⟩, rfl, rfl⟩, rfl⟩
  have hf : Readable env ver sFailure.flatten := by
    refine ⟨_, sends_failure, ⟨[0xB1, 0x7F, 0xA0], sFailure.flatten, [], by simp, ⟨[[0xB1, 0x7F, 0xA0]], ?_, rfl, rfl⟩, ?_, rfl⟩, [failureV []], rfl, trivial⟩
    · intro c hc; simp at hc; subst hc; simp
    · exact ⟨[0xB1], [0xA0], .inl ⟨by simp, rfl⟩, ⟨[0xA0], [], ⟨[0xA0], [], .inl ⟨by simp, rfl⟩, rfl, rfl⟩, rfl, rfl⟩, rfl⟩
  have hi : Readable env ver sIgnored.flatten := by
    refine ⟨_, sends_ignored, ⟨[0xB0, 0x7E], sIgnored.flatten, [], by simp, ⟨[[0xB0, 0x7E]], ?_, rfl, rfl⟩, ?_, rfl⟩, [ignoredV], rfl, trivial⟩
    · intro c hc; simp at hc; subst hc; simp
    · exact ⟨[0xB0], [], .inl ⟨by simp, rfl⟩, rfl, rfl⟩
  have hn : Readable env ver [] := ⟨[], rfl, rfl, [], trivial⟩
  have key : ∀ {s ts}, Readable env ver s → Sends ts s → Answers ts s [] ∧ ∃ vs, Means env ver ts vs := by
    rintro s ts ⟨ts', g1, g2, g3⟩ h
    rw [sends_unique h g1]
    exact ⟨g2, g3⟩
  intro w ws ts h
  by_cases h1 : w.phase = .new
  · exfalso
    have e : (tServer v).onSend w ws = ⟨{ w with phase := .connected }, true, [[0, 0, 0, v]], .broken⟩ := by simp only [tServer, if_pos h1]
    rw [e] at h
    cases ts with
    | nil => cases h
    | cons t ts =>
      obtain ⟨p, f, s', k1, k2, k3, _⟩ := h
      obtain ⟨g, g1, _⟩ := readMsg_framed k2 .eof (segs := [[0, 0, 0, v]]) (rest := s') (by simpa using k1)
      have : readMsg .eof [[0, 0, 0, v]] = .ok [] [[0, v]] := by
        have h2 : readFull 2 2 [[0, 0, 0, v]] = ([0, 0], [[0, v]]) := rfl
        show readMsgF .eof 5 [] [[0, 0, 0, v]] = _
        unfold readMsgF
        rw [h2]
        dsimp only
        rw [if_neg (by simp), if_pos (by decide)]
      rw [this] at g1
      cases g1
      have := Enc_length_pos k3
      simp at this
  · by_cases h2 : w.phase = .defunct
    · have e : (tServer v).onSend w ws = ⟨w, true, [], .broken⟩ := by simp only [tServer, if_neg h1, if_pos h2]
      rw [e] at h ⊢
      exact key hn h
    · have e : (tServer v).onSend w ws = match requestOf ws with
          | some t => ⟨(tAnswer w t).1, true, [(tAnswer w t).2], .broken⟩
          | none => ⟨w, true, [], .broken⟩ := by simp only [tServer, if_neg h1, if_neg h2]
      rw [e] at h
      revert h
      cases hq : requestOf ws with
      | none => intro h; rw [e, hq]; exact key hn h
      | some t =>
        intro h
        rw [e, hq]
        refine key ?_ h
        simp only [List.flatten_cons, List.flatten_nil, List.append_nil]
        unfold tAnswer
        split
        all_goals first
          | exact hs
          | exact hn
          | exact hi
          | (split <;> first | exact hs | exact hf)

/-- A connection to the concrete server. -/
def tOpened (v : UInt8) : CRes Unit × Conn Session := createBoltConn env0 (tServer v) 2 [0x75] [0x70] ⟨.new, ([], []), ⟨none, []⟩⟩

/-- A statement run through transaction `h`. -/
def inTx (h : Nat) (q : String) : Op := .txExecDb h (ascii q) [] []

theorem inTx_fine (ver : Ver) (h : Nat) {q : String} (hq : (ascii q).length ≤ 8) : (inTx h q).Fine env0 ver 8 :=
  ⟨.map [], by omega, by omega, hq, by simp, by cases ver <;> rfl, by simp [PS.Fits, PS.FitsWith, FitsEntries], by simp [Val.All, AllEntries, strAtMost]⟩

/-- The full statement is false: after a failure in a transaction, the driver resets the connection, which ends the transaction at the server, but keeps the
handle open.  The next statement run through it is permanent at once; no Commit was made. -/
theorem C80_refuted : ¬ C80_statement := by
  intro h
  have hk : (tOpened 4).1.kind = 0 := by decide +kernel
  have := h Session env0 (tServer 4) id 1 [0x75] [0x70] ⟨.new, ([], []), ⟨none, []⟩⟩ (tOpened 4).2 [.begin_ [], inTx 0 "X", inTx 0 "Y"] (tServer_follows 4) (by simp) (by simp)
    (CRes.kind_ok hk) (by
      intro op ho
      simp only [List.mem_cons, List.not_mem_nil, or_false] at ho
      rcases ho with rfl | rfl | rfl
      · exact Nat.zero_le _
      · exact inTx_fine _ 0 (by decide)
      · exact inTx_fine _ 0 (by decide)) (by
      intro op ho q hq
      simp only [List.mem_cons, List.not_mem_nil, or_false] at ho
      rcases ho with rfl | rfl | rfl
      · cases hq
      · cases hq; decide
      · cases hq; decide)
  have e1 : (id (run env0 (tServer 4) (1 + 1) [.begin_ [], inTx 0 "X", inTx 0 "Y"] (tOpened 4).2).world).ledger.lasting.length = 1 := by decide +kernel
  have e2 : (id (tOpened 4).2.world).ledger.lasting.length = 0 := by decide +kernel
  have e3 : (booked env0 (tServer 4) (fieldsOf env0 (tOpened 4).2.proto (tOpened 4).2.mode) (1 + 1) [.begin_ [], inTx 0 "X", inTx 0 "Y"] .new (tOpened 4).2).lasting.length = 0 := by
    decide +kernel
  have e4 := congrArg List.length this
  rw [List.length_append] at e4
  omega

instance {σ : Type} (env : Env) (W : World σ) (f : Op → List PS) (fuel : Nat) : (ops : List Op) → (b : Book) → (c : Conn σ) → Decidable (Undisturbed env W f fuel ops b c)
  | [], _, _ => .isTrue trivial
  | op :: ops, b, c => by
    have d1 : Decidable (∀ h, throughOf op = some h → b.tx.map (·.1) = some h) :=
      match hop : throughOf op with
      | none => .isTrue (by simp)
      | some h => decidable_of_iff (b.tx.map (·.1) = some h) (by simp)
    have d2 := instDecidableUndisturbed env W f fuel ops (b.after f op (okOf (step env W fuel op c).1)) (step env W fuel op c).2
    exact decidable_of_iff ((∀ h, throughOf op = some h → b.tx.map (·.1) = some h) ∧ (ops ≠ [] → b.tx ≠ none → failures (step env W fuel op c).2.trace = failures c.trace) ∧
      Undisturbed env W f fuel ops (b.after f op (okOf (step env W fuel op c).1)) (step env W fuel op c).2) Iff.rfl

/-- The hypotheses of `C80_atomic_partial` are met, for protocol versions 1 and 4: a committed and a rolled-back transaction, statements outside, a failure
outside of a transaction, and a transaction that is lost with the connection. -/
def someHistory : List Op :=
  [someQuery, .begin_ [], inTx 0 "A", inTx 0 "B", .commit 0, .query (ascii "X") [] [], .begin_ [], inTx 1 "C", .rollback 1, .begin_ [], inTx 2 "D", .close, inTx 2 "E"]

example : Undisturbed env0 (tServer 4) (fieldsOf env0 (tOpened 4).2.proto (tOpened 4).2.mode) 2 (someHistory.take 12) .new (tOpened 4).2 ∧ Undisturbed env0 (tServer 1) (fieldsOf env0 (tOpened 1).2.proto (tOpened 1).2.mode) 2 (someHistory.take 12) .new (tOpened 1).2 := by
  decide +kernel
example : (booked env0 (tServer 4) (fieldsOf env0 (tOpened 4).2.proto (tOpened 4).2.mode) 2 (someHistory.take 12) .new (tOpened 4).2).lasting.map Stmt.text = [ascii "RETURN 1", ascii "A", ascii "B"] ∧
    ((run env0 (tServer 1) 2 (someHistory.take 12) (tOpened 1).2).world).ledger.lasting.map Stmt.text = [ascii "RETURN 1", ascii "A", ascii "B"] := by decide +kernel

end Verif
