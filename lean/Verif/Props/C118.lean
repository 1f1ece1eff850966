/-
C118  What the pool without routing hands on is as good as new.
-/
import Verif.Props.C68
import Verif.Props.C116
namespace Verif
open Spec

namespace Spec

/-- The calls that the users make are those of which the other claims speak: what they send can be framed in either version of the encoding, and no statement
begins or ends a transaction by its text. -/
def Orderly (env : Env) (lo : Nat) (ms : List DMove) : Prop :=
  ∀ r op, DMove.user r op ∈ ms → (∀ ver, op.Fine env ver lo) ∧ ∀ q, statementOf op = some q → q ∉ controlVerbs

/-- The name and the password in a connection string are not too long for the first message. -/
def Modest (semi : Bool) (connStr : Bytes) : Prop :=
  ∀ cfg, connectionConfig semi connStr = .ok cfg → cfg.user.length ≤ 65535 ∧ cfg.password.length ≤ 65535

/-- The account of somebody who gets a connection on which `n` transactions were begun before. -/
def Account.next (n : Nat) : Account := ⟨none, n, none, []⟩

end Spec

section
variable {σ : Type} (env : Env) {W : World σ} {sess : σ → Session} {D : Database} (hT : TServes D W sess) (semi : Bool) (fuel : Nat) (net : Net σ) {lo : Nat} (hlo : 8 ≤ lo)
  (hlo' : lo ≤ 65535) (hU : ∀ ver, Understood env ver W)

/-- The server agrees with some account. -/
def Tallied (sess : σ → Session) (lo : Nat) (c : Conn σ) : Prop := ∃ L a, Accounts (sess := sess) env c.proto c.mode lo L a c

/-- All connections agree with an account, and what is permanent stays as it is. -/
def OrderRel (sess : σ → Session) (semi : Bool) (lo : Nat) (s s' : DPool σ) : Prop :=
  s'.connStr = s.connStr ∧ (Modest semi s.connStr → (∀ (r : Nat) (c : Conn σ), s.conns[r]? = some c → Tallied env sess lo c) →
    (∀ (r : Nat) (c : Conn σ), s'.conns[r]? = some c → Tallied env sess lo c) ∧
      ∀ (r : Nat) (c : Conn σ), s.conns[r]? = some c → ∃ c' : Conn σ, s'.conns[r]? = some c' ∧ (sess c'.world).ledger.lasting = (sess c.world).ledger.lasting)

theorem OrderRel.log {s s' : DPool σ} (h : OrderRel env sess semi lo s s') (l : List DEv) : OrderRel env sess semi lo s { s' with log := l } := h

include hT hlo hU in
theorem order_step {op : Op} {c : Conn σ} (hop : ∀ ver, op.Fine env ver lo) (hpl : ∀ q, statementOf op = some q → q ∉ controlVerbs) (h : Tallied env sess lo c) :
    Tallied env sess lo (step env W (fuel + 1) op c).2 := by
  obtain ⟨L, a, ha⟩ := h
  have h1 := (sameProto env W).step env W (fuel + 1) op c
  have h2 := step_accounts env hT hlo fuel (hU _) (hop _) hpl ha
  refine ⟨L, a.after (fieldsOf env c.proto c.mode) op (okOf (step env W (fuel + 1) op c).1) (failures c.trace < failures (step env W (fuel + 1) op c).2.trace), ?_⟩
  rw [h1.1, h1.2]
  exact h2

include hT hlo hU in
/-- A call of the factory makes nothing permanent. -/
theorem order_quiet {op : Op} {c : Conn σ} (hop : op = .close ∨ op = .makeIdle ∨ op = .validateOpen) (h : Tallied env sess lo c) :
    Tallied env sess lo (step env W (fuel + 1) op c).2 ∧ (sess (step env W (fuel + 1) op c).2.world).ledger.lasting = (sess c.world).ledger.lasting := by
  have hf : ∀ ver, op.Fine env ver lo := by intro ver; rcases hop with rfl | rfl | rfl <;> exact trivial
  have hpl : ∀ q, statementOf op = some q → q ∉ controlVerbs := by intro q; rcases hop with rfl | rfl | rfl <;> intro h <;> cases h
  refine ⟨order_step env hT fuel hlo hU hf hpl h, ?_⟩
  obtain ⟨L, a, ha⟩ := h
  have h2 := (step_accounts env hT hlo fuel (hU _) (hf _) hpl ha).lasting
  refine h2.trans (Eq.trans ?_ ha.lasting.symm)
  congr 1
  unfold Account.after
  rcases hop with rfl | rfl | rfl <;> (split; rfl; split <;> rfl)

include hT hlo hU in
theorem orderRel_on {α : Type} {m : CM σ α} {op : Op} (hm : ∀ c, (m c).2 = (step env W (fuel + 1) op c).2) (hop : op = .close ∨ op = .makeIdle ∨ op = .validateOpen) (r : Nat) (s : DPool σ) :
    OrderRel env sess semi lo s (onConn r m s).2 := by
  unfold onConn
  cases hc : s.conns[r]? with
  | none => exact ⟨rfl, fun _ h => ⟨h, fun r c hc => ⟨c, hc, rfl⟩⟩⟩
  | some c =>
    refine ⟨rfl, fun _ h => ?_⟩
    dsimp only
    have hs := order_quiet env hT fuel hlo hU hop (h r c hc)
    rw [← hm] at hs
    have hlt := (List.getElem?_eq_some_iff.mp hc).1
    refine ⟨fun r' c' hc' => ?_, fun r' c' hc' => ?_⟩
    · by_cases hr : r = r'
      · subst hr
        rw [List.getElem?_set_self hlt] at hc'
        cases hc'
        exact hs.1
      · rw [List.getElem?_set_ne hr] at hc'
        exact h r' c' hc'
    · by_cases hr : r = r'
      · subst hr
        rw [hc] at hc'
        cases hc'
        exact ⟨_, List.getElem?_set_self hlt, hs.2⟩
      · exact ⟨c', by rw [List.getElem?_set_ne hr]; exact hc', rfl⟩

include hT hlo hU hlo' in
theorem orderRel : DRel env W semi (fuel + 1) net (OrderRel (σ := σ) env sess semi lo) where
  refl s := ⟨rfl, fun _ h => ⟨h, fun r c hc => ⟨c, hc, rfl⟩⟩⟩
  trans h1 h2 := by
    refine ⟨h2.1.trans h1.1, fun hm h => ?_⟩
    obtain ⟨g1, g2⟩ := h1.2 hm h
    obtain ⟨g3, g4⟩ := h2.2 (h1.1 ▸ hm) g1
    refine ⟨g3, fun r c hc => ?_⟩
    obtain ⟨c', hc', e'⟩ := g2 r c hc
    obtain ⟨c'', hc'', e''⟩ := g4 r c' hc'
    exact ⟨c'', hc'', e''.trans e'⟩
  dial s := by
    unfold dCreate
    cases hcr : createFrom env W semi (fuel + 1) net s.connStr s.dials with
    | error e => exact ⟨rfl, fun _ h => ⟨h, fun r c hc => ⟨c, hc, rfl⟩⟩⟩
    | ok res =>
      obtain ⟨res, cn⟩ := res
      cases res with
      | ok _ =>
        refine ⟨rfl, fun hm h => ⟨fun r c hc => ?_, fun r c hc => ?_⟩⟩
        · dsimp only at hc
          by_cases hr : r < s.conns.length
          · rw [List.getElem?_append_left hr] at hc
            exact h r c hc
          · rw [List.getElem?_append_right (by omega)] at hc
            cases hx : r - s.conns.length with
            | zero =>
              rw [hx] at hc; cases hc
              obtain ⟨cfg, e, h1, _, h3⟩ := createFrom_eq env W hcr
              obtain ⟨u, p⟩ := hm cfg h1
              exact ⟨_, _, create_accounts env hT hlo u p h3.symm (hU _) hlo'⟩
            | succ n => rw [hx] at hc; cases hc
        · exact ⟨c, by rw [List.getElem?_append_left (List.getElem?_eq_some_iff.mp hc).1]; exact hc, rfl⟩
      | err e => exact ⟨rfl, fun _ h => ⟨h, fun r c hc => ⟨c, hc, rfl⟩⟩⟩
      | panic => exact ⟨rfl, fun _ h => ⟨h, fun r c hc => ⟨c, hc, rfl⟩⟩⟩
      | fuel => exact ⟨rfl, fun _ h => ⟨h, fun r c hc => ⟨c, hc, rfl⟩⟩⟩
  probe r s := orderRel_on env hT semi fuel hlo hU (op := .validateOpen) (fun c => by show _ = (CM.void (validateOpen W) c).2; unfold CM.void; show _ = (CM.bind _ _ c).2; unfold CM.bind; split <;> rename_i hx <;> rw [hx] <;> rfl) (.inr (.inr rfl)) r s
  shut r s := orderRel_on env hT semi fuel hlo hU (op := .close) (fun c => rfl) (.inl rfl) r s
  idle r s := OrderRel.log env semi (orderRel_on env hT semi fuel hlo hU (op := .makeIdle) (fun c => rfl) (.inr (.inl rfl)) r s) _
  objs s l := ⟨rfl, fun _ h => ⟨h, fun r c hc => ⟨c, hc, rfl⟩⟩⟩

include hT hlo hU hlo' in
/-- Whatever the pool does, besides the calls of the users, makes nothing permanent. -/
theorem orderRel_move {m : DMove} (hm : ∀ r op, m ≠ .user r op) (s : DPool σ) : OrderRel env sess semi lo s (m.run env W semi (fuel + 1) net s) := by
  have P := orderRel env hT semi fuel net hlo hlo' hU
  cases m with
  | «open» calls answer =>
    show OrderRel env sess semi lo s (dOpen W (borrowed env W semi (fuel + 1) net calls answer) s).2
    unfold dOpen
    split
    · exact P.refl s
    · have h1 := P.library calls s
      unfold borrowed
      cases answer with
      | error e => exact h1
      | ok x =>
        cases x with
        | conn r =>
          dsimp only
          have h2 := P.trans h1 (P.probe r _)
          split <;> rename_i hx <;> rw [hx] at h2
          · exact h2.log env semi _
          all_goals exact h2
        | nilPointer => exact h1
        | nilObject => exact h1
        | foreign => exact h1
  | reclaim r calls answer =>
    cases r with
    | none => exact P.refl s
    | some r => exact P.trans ((P.refl s).log env semi _) (P.library calls _)
  | close calls =>
    show OrderRel env sess semi lo s (dClose (library env W semi (fuel + 1) net calls) s).2
    unfold dClose
    split
    · exact P.refl s
    · exact P.library calls s
  | evict calls => exact P.library calls s
  | user r op => exact absurd rfl (hm r op)

include hT hlo hU hlo' in
theorem order_run {ms : List DMove} {s : DPool σ} (ho : Orderly env lo ms) (hm : Modest semi s.connStr) (h : ∀ (r : Nat) (c : Conn σ), s.conns[r]? = some c → Tallied env sess lo c) :
    (dRun env W semi (fuel + 1) net ms s).connStr = s.connStr ∧ ∀ (r : Nat) (c : Conn σ), (dRun env W semi (fuel + 1) net ms s).conns[r]? = some c → Tallied env sess lo c := by
  unfold dRun
  induction ms generalizing s with
  | nil => exact ⟨rfl, h⟩
  | cons m ms ih =>
    have one : (m.run env W semi (fuel + 1) net s).connStr = s.connStr ∧ ∀ (r : Nat) (c : Conn σ), (m.run env W semi (fuel + 1) net s).conns[r]? = some c → Tallied env sess lo c := by
      by_cases hu : ∃ r op, m = .user r op
      · obtain ⟨r, op, rfl⟩ := hu
        obtain ⟨h1, h2⟩ := ho r op List.mem_cons_self
        show (onConn r (step env W (fuel + 1) op) s).2.connStr = _ ∧ ∀ (r' : Nat) (c : Conn σ), (onConn r (step env W (fuel + 1) op) s).2.conns[r']? = some c → _
        unfold onConn
        cases hc : s.conns[r]? with
        | none => exact ⟨rfl, h⟩
        | some c =>
          refine ⟨rfl, fun r' c' hc' => ?_⟩
          dsimp only at hc'
          by_cases hr : r = r'
          · subst hr
            rw [List.getElem?_set_self (List.getElem?_eq_some_iff.mp hc).1] at hc'
            cases hc'
            exact order_step env hT fuel hlo hU h1 h2 (h r c hc)
          · rw [List.getElem?_set_ne hr] at hc'
            exact h r' c' hc'
      · have k := orderRel_move env hT semi fuel net hlo hlo' hU (m := m) (fun r op e => hu ⟨r, op, e⟩) s
        exact ⟨k.1, (k.2 hm h).1⟩
    obtain ⟨e, g⟩ := ih (fun r op hx => ho r op (List.mem_cons_of_mem _ hx)) (one.1 ▸ hm) one.2
    exact ⟨e.trans one.1, g⟩

theorem AllProper.snoc (ms : List DMove) (s : DPool σ) (m : DMove) (h : AllProper env W semi fuel net s (ms ++ [m])) :
    AllProper env W semi fuel net s ms ∧ Proper env W semi fuel net (dRun env W semi fuel net ms s) m := by
  induction ms generalizing s with
  | nil => exact ⟨trivial, h.1⟩
  | cons m' ms ih =>
    obtain ⟨h1, h2⟩ := ih _ h.2
    exact ⟨⟨h.1, h1⟩, h2⟩

variable {connStr : Bytes} (hm : Modest semi connStr) {ms : List DMove} (hms : Orderly env lo ms)
include hT hlo hU hlo' hm hms

/-- A connection that `Open` returned agrees with the account of a new user. -/
theorem lent_accounts {calls : List FCall} {answer : Except Err PObj}
    (hp : AllProper env W semi (fuel + 1) net (newDriverPool connStr) (ms ++ [.open calls answer])) {r : Nat} {s : DPool σ}
    (ho : dOpen W (borrowed env W semi (fuel + 1) net calls answer) (dRun env W semi (fuel + 1) net ms (newDriverPool connStr)) = (.ok r, s)) :
    ∃ c, s.conns[r]? = some c ∧ c.cur = none ∧ Accounts (sess := sess) env c.proto c.mode lo (sess c.world).ledger.lasting (.next c.txs.length) c := by
  obtain ⟨c, hc, hn⟩ := C68_partial env W semi (fuel + 1) net hp ho
  obtain ⟨e0, h0⟩ := order_run env hT semi fuel net hlo hlo' hU (s := newDriverPool connStr) hms hm (fun r c hc => by cases hc)
  have k := orderRel_move env hT semi fuel net hlo hlo' hU (m := .open calls answer) (by simp) (dRun env W semi (fuel + 1) net ms (newDriverPool connStr))
  have k2 := (k.2 (e0 ▸ hm) h0).1
  have e1 : DMove.run env W semi (fuel + 1) net (.open calls answer) (dRun env W semi (fuel + 1) net ms (newDriverPool connStr)) = s := congrArg Prod.snd ho
  rw [e1] at k2
  obtain ⟨L, a, ha⟩ := k2 r c hc
  have hcur : c.cur = none := by
    cases hx : c.cur with
    | none => rfl
    | some h => exact absurd ((ha.inv.open_iff h).mpr hx) (hn h)
  refine ⟨c, hc, hcur, ha.inv, ha.mode, ha.idle, (List.append_nil _).symm, ha.rest.imp id fun ⟨_, r2, r3, r4⟩ => ⟨rfl, hcur, ?_, fun _ => rfl⟩⟩
  rw [r3]
  exact r4 (r2.symm.trans hcur)

/-- **C118**: a connection that `Open` returns, after any history of the pool, has nothing open or unread on either side, unless the session is over; and whatever
its new user does with it, the server then has what it had, together with what the calls of that user mean. -/
theorem C118 {calls : List FCall} {answer : Except Err PObj}
    (hp : AllProper env W semi (fuel + 1) net (newDriverPool connStr) (ms ++ [.open calls answer])) {r : Nat} {s : DPool σ}
    (ho : dOpen W (borrowed env W semi (fuel + 1) net calls answer) (dRun env W semi (fuel + 1) net ms (newDriverPool connStr)) = (.ok r, s)) :
    ∃ c, s.conns[r]? = some c ∧ (∀ h, ¬ c.isOpen h) ∧
      (Ongoing sess c → (sess c.world).phase = .ready ∧ (sess c.world).ledger.tx = none ∧ c.segs.flatten = []) ∧
      ∀ ops, (∀ op ∈ ops, op.Fine env c.proto.codec lo) → PlainCall ops →
        let a := account env W (fieldsOf env c.proto c.mode) (fuel + 1) ops (.next c.txs.length) c
        let s' := sess (run env W (fuel + 1) ops c).world
        s'.ledger.lasting = (sess c.world).ledger.lasting ++ a.lasting ∧
          (Ongoing sess (run env W (fuel + 1) ops c) → s'.ledger = a.ledger (sess c.world).ledger.lasting) := by
  obtain ⟨c, hc, hcur, ha⟩ := lent_accounts env hT semi fuel net hlo hlo' hU hm hms hp ho
  refine ⟨c, hc, fun h hx => ?_, fun hg => ?_, fun ops h1 h2 => ?_⟩
  · have := (ha.inv.open_iff h).mp hx
    rw [show Core.cur _ = none from hcur] at this
    cases this
  · have hal := not_dead env ha.idle ha.inv hg
    exact ⟨hal.ready, by rw [ledger_accounts env ha hg]; rfl, hal.nil⟩
  · have hb := run_accounts env hT hlo fuel (hU _) ops h1 h2 _ _ ha
    exact ⟨hb.lasting, ledger_accounts env hb⟩

/-- What a statement of the new user gives: what the database says after the permanent statements and those of the new user. -/
theorem C118_result {calls : List FCall} {answer : Except Err PObj}
    (hp : AllProper env W semi (fuel + 1) net (newDriverPool connStr) (ms ++ [.open calls answer])) {r : Nat} {s : DPool σ}
    (ho : dOpen W (borrowed env W semi (fuel + 1) net calls answer) (dRun env W semi (fuel + 1) net ms (newDriverPool connStr)) = (.ok r, s)) :
    ∃ c, s.conns[r]? = some c ∧ ∀ ops op q, (∀ o ∈ ops ++ [op], o.Fine env c.proto.codec lo) → PlainCall (ops ++ [op]) → statementOf op = some q →
      let c' := run env W (fuel + 1) ops c
      let res := resultOf env W (fuel + 1) op c'
      let l := (account env W (fieldsOf env c.proto c.mode) (fuel + 1) ops (.next c.txs.length) c).ledger (sess c.world).ledger.lasting
      (¬ Ongoing sess c' ∧ ∀ x, res ≠ .ok x) ∨ (c.proto ≠ .v4 ∧ dbOf op ≠ [] ∧ ∃ e, res = .err e) ∨
        ∃ o, D l (l.stmt q (fieldsOf env c.proto c.mode op)) o ∧ Conveys env c.proto.codec (withRows op) o res := by
  obtain ⟨c, hc, _, ha⟩ := lent_accounts env hT semi fuel net hlo hlo' hU hm hms hp ho
  refine ⟨c, hc, fun ops op q h1 h2 hq => ?_⟩
  have hb := run_accounts env hT hlo fuel (hU _) ops (fun o ho => h1 o (by simp [ho])) (fun o ho => h2 o (by simp [ho])) _ _ ha
  exact result_accounts env hT hlo fuel (hU _) (h1 op (by simp)) (h2 op (by simp)) hq hb

/-- Whatever the pool itself does with its connections makes nothing permanent and takes nothing back, whether the history is proper or not. -/
theorem C118_quiet {m : DMove} (hu : ∀ r op, m ≠ .user r op) {r : Nat} {c : Conn σ}
    (hc : (dRun env W semi (fuel + 1) net ms (newDriverPool connStr)).conns[r]? = some c) :
    ∃ c', (dRun env W semi (fuel + 1) net (ms ++ [m]) (newDriverPool connStr)).conns[r]? = some c' ∧ (sess c'.world).ledger.lasting = (sess c.world).ledger.lasting := by
  obtain ⟨e0, h0⟩ := order_run env hT semi fuel net hlo hlo' hU (s := newDriverPool connStr) hms hm (fun r c hc => by cases hc)
  have k := orderRel_move env hT semi fuel net hlo hlo' hU hu (dRun env W semi (fuel + 1) net ms (newDriverPool connStr))
  obtain ⟨c', hc', e⟩ := (k.2 (e0 ▸ hm) h0).2 r c hc
  refine ⟨c', ?_, e⟩
  unfold dRun at hc' ⊢
  rw [List.foldl_append]
  exact hc'

end
/-! ### A concrete pool -/

/-- All servers that can be reached are new ones of version 4. -/
def C118.net : Net Session := noFiles fun _ _ => ⟨.new, ([], []), ⟨none, []⟩⟩

/-- A user commits a transaction with A, begins another one with B, and gives the connection back. -/
def C118.history : List DMove := [.open [.make] (.ok (.conn 0)), .user 0 (.begin_ []), .user 0 (inTx 0 "A"), .user 0 (.commit 0), .user 0 (.begin_ []), .user 0 (inTx 1 "B"),
  .reclaim (some 0) [.passivate 0] none]

/-- The next user gets the same connection. -/
def C118.again : CRes Nat × DPool Session := dOpen (cServer 4) (borrowed env0 (cServer 4) false (1 + 1) C118.net [.validate 0, .activate 0] (.ok (.conn 0)))
  (dRun env0 (cServer 4) false (1 + 1) C118.net C118.history (newDriverPool (ascii "bolt://u:p@host:7687")))

theorem C118.orderly : Orderly env0 8 C118.history := by
  intro r op hm
  simp only [C118.history, List.mem_cons, List.not_mem_nil, or_false, reduceCtorEq, false_or, DMove.user.injEq] at hm
  rcases hm with ⟨_, rfl⟩ | ⟨_, rfl⟩ | ⟨_, rfl⟩ | ⟨_, rfl⟩ | ⟨_, rfl⟩
  · exact ⟨fun _ => Nat.zero_le _, fun q hq => by cases hq⟩
  · exact ⟨fun ver => inTx_fine _ 0 (by decide), fun q hq => by cases hq; decide⟩
  · exact ⟨fun _ => trivial, fun q hq => by cases hq⟩
  · exact ⟨fun _ => Nat.zero_le _, fun q hq => by cases hq⟩
  · exact ⟨fun ver => inTx_fine _ 1 (by decide), fun q hq => by cases hq; decide⟩

/-- Whether name and password are short. -/
def C118.short : Except Err Config → Bool
  | .ok cfg => decide (cfg.user.length ≤ 65535 ∧ cfg.password.length ≤ 65535)
  | .error _ => true

theorem C118.modest : Modest false (ascii "bolt://u:p@host:7687") := by
  have h : C118.short (connectionConfig false (ascii "bolt://u:p@host:7687")) = true := by decide +kernel
  intro cfg hc
  rw [hc] at h
  exact of_decide_eq_true h

theorem C118.proper : AllProper env0 (cServer 4) false (1 + 1) C118.net (newDriverPool (ascii "bolt://u:p@host:7687")) (C118.history ++ [.open [.validate 0, .activate 0] (.ok (.conn 0))]) :=
  ⟨fun _ => by decide +kernel, by show custody _ 0 = _; decide +kernel, by show custody _ 0 = _; decide +kernel, by show custody _ 0 = _; decide +kernel, by show custody _ 0 = _; decide +kernel,
    by show custody _ 0 = _; decide +kernel, by show custody _ 0 = _; decide +kernel, fun _ => by decide +kernel, trivial⟩

/-- The number of the connection that was returned. -/
def C118.number : CRes Nat → Option Nat
  | .ok r => some r
  | _ => none

theorem C118.first : C118.again.1 = .ok 0 := by
  have h : C118.number C118.again.1 = some 0 := by decide +kernel
  generalize C118.again.1 = x at h
  cases x <;> cases h
  rfl

/-- It meets the hypotheses of `C118`: A is permanent, B is lost, and the transaction of the next user starts with nothing. -/
example : ∃ c, C118.again.2.conns[0]? = some c ∧ (Ongoing id c → (id c.world).ledger.tx = none) := by
  have e : ∀ x : CRes Nat × DPool Session, x.1 = .ok 0 → x = (.ok 0, x.2) := fun x h => Prod.ext h rfl
  obtain ⟨c, h1, _, h3, _⟩ := C118 env0 (cServer_serves 4) false 1 C118.net (lo := 8) (by decide) (by decide) (fun ver => cServer_understood env0 ver 4) C118.modest C118.orderly
    (calls := [.validate 0, .activate 0]) (answer := .ok (.conn 0)) (r := 0) (s := C118.again.2) C118.proper (e _ C118.first)
  exact ⟨c, h1, fun hg => (h3 hg).2.1⟩

example : C118.again.2.conns.map (fun c => (c.closed, decide (c.world.phase = .ready), c.txs, c.world.ledger.lasting.map (·.text))) = [(false, true, [true, true], [ascii "A"])] := by decide +kernel

end Verif
