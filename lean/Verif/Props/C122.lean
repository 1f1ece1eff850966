/-
C122  The pool without routing over a network on which connections are lost.
-/
import Verif.Props.C121
import Verif.Proofs.PoolKeeps
namespace Verif
open Spec

namespace Spec

/-- The network of a pool on which connections are lost: the connection made by attempt number `n` transmits `(fate n).1` messages, and is then lost as `(fate n).2` says. -/
def lossyNet {σ : Type} (net : Net σ) (fate : Nat → Nat × Loss) : Net (Lossy σ) := ⟨net.files, fun n e => ⟨net.reach n e, .up (fate n).1, (fate n).2⟩⟩

/-- The connection is neither lost nor closed, and the server has not ended the session. -/
def Working {σ : Type} (sess : σ → Session) (d : Conn (Lossy σ)) : Prop :=
  d.world.line.isUp = true ∧ d.closed = false ∧ (sess d.world.now).phase ≠ .defunct

end Spec

section
variable {σ : Type} (env : Env) {W : World σ} {sess : σ → Session} {D : Database} (hT : TServes D W sess) (hD : Durable W sess) (semi : Bool) (fuel : Nat) (net : Net σ) (fate : Nat → Nat × Loss)
  {lo : Nat} (hlo : 8 ≤ lo) (hlo' : lo ≤ 65535) (hU : ∀ ver, Understood env ver W)

/-- Lost, or in agreement with an account. -/
def Endures (W : World σ) (sess : σ → Session) (lo : Nat) (d : Conn (Lossy σ)) : Prop :=
  (d.world.line.isUp = true ∧ ∃ c, Both W sess c d c ∧ Tallied env sess lo c) ∨ Severed d

theorem Severed.down {d : Conn (Lossy σ)} (h : Severed d) : d.world.line.isUp = false := by
  obtain ⟨k, hk, _⟩ := h
  rw [hk]; rfl

/-- What a connection that is not lost has, the server has. -/
theorem Both.now {c0 c : Conn σ} {d : Conn (Lossy σ)} (hb : Both W sess c0 d c) (hu : d.world.line.isUp = true) : d.world.now = c.world ∧ d.segs = c.segs := by
  rcases hb.differ with k | k
  · exact ⟨k.2.1, k.2.2.1⟩
  · rw [hu] at k; cases k.1

include hT hD hlo hU in
theorem endures_step {op : Op} {d : Conn (Lossy σ)} (hop : ∀ ver, op.Fine env ver lo) (hpl : ∀ q, statementOf op = some q → q ∉ controlVerbs) (h : Endures env W sess lo d) :
    Endures env W sess lo (step env (lossy W) (fuel + 1) op d).2 ∧
      ((op = .close ∨ op = .makeIdle ∨ op = .validateOpen) → lastingOf sess (step env (lossy W) (fuel + 1) op d).2.world.now = lastingOf sess d.world.now) := by
  rcases h with ⟨hu, c, hb, L, a, ha⟩ | h
  · rcases lossy_run env hT hD hlo fuel (hU _) [op] (fun o ho => by simp at ho; rw [ho]; exact hop _) (fun o ho => by simp at ho; rw [ho]; exact hpl) a d c hu hb ha with ⟨k1, c', k2, k3⟩ | ⟨k1, doubt, k2, k3⟩
    · have hp : c'.proto = c.proto ∧ c'.mode = c.mode := by
        have g := (sameProto env (lossy W)).step env (lossy W) (fuel + 1) op d
        exact ⟨k2.proto.symm.trans (g.1.trans hb.proto), k2.mode.symm.trans (g.2.trans hb.mode)⟩
      refine ⟨.inl ⟨k1, c', k2, L, account env (lossy W) (fieldsOf env c.proto c.mode) (fuel + 1) [op] a d, ?_⟩, fun hq => ?_⟩
      · rw [hp.1, hp.2]; exact k3
      · show lastingOf sess (run env (lossy W) (fuel + 1) [op] d).world.now = _
        rw [(k2.now k1).1, (hb.now hu).1]
        refine (show lastingOf sess c'.world = _ from k3.lasting).trans (Eq.trans ?_ ha.lasting.symm)
        congr 1
        show ((a.after _ op _ _)).lasting = _
        unfold Account.after
        rcases hq with rfl | rfl | rfl <;> (split; rfl; split <;> rfl)
    · refine ⟨.inr k1, fun hq => ?_⟩
      show lastingOf sess (run env (lossy W) (fuel + 1) [op] d).world.now = _
      have e1 : (account env (lossy W) (fieldsOf env c.proto c.mode) (fuel + 1) [op] a d).lasting = a.lasting := by
        show (a.after _ op _ _).lasting = _
        unfold Account.after
        rcases hq with rfl | rfl | rfl <;> (split; rfl; split <;> rfl)
      have e2 : doubt = [] := by
        cases hd : doubt with
        | nil => rfl
        | cons x xs =>
          obtain ⟨before, o, after, g1, _, _, _, g5⟩ := k3 (by rw [hd]; simp)
          have ho : o = op := by
            have : o ∈ [op] := by rw [g1]; simp
            simpa using this
          have : inDoubt (fieldsOf env c.proto c.mode) (account env (lossy W) (fieldsOf env c.proto c.mode) (fuel + 1) before a d) o = [] := by
            rw [ho]
            rcases hq with rfl | rfl | rfl <;> rfl
          rw [← hd, g5, this]
      rw [k2, e1, e2, (hb.now hu).1, List.append_nil]
      exact ha.lasting.symm
  · obtain ⟨g1, g2⟩ := (deaf_prim env W).step env (lossy W) (fuel + 1) op d h
    exact ⟨.inr g1, fun _ => by rw [g2]⟩

include hT hD hlo hU hlo' in
theorem endures_keeps : DKeeps env (lossy W) (fuel + 1) (lossyNet net fate) lo (Endures env W sess lo) (fun d d' => lastingOf sess d'.world.now = lastingOf sess d.world.now) where
  refl _ := rfl
  trans h1 h2 := h2.trans h1
  made hu hp h := by
    obtain ⟨c, ⟨c0, hb⟩, ha⟩ := create_lossy env hT hD hlo hu hp h (hU _) hlo'
    rename_i d
    cases hup : d.world.line.isUp with
    | true =>
      refine .inl ⟨hup, c, hb.again hup, lastingOf sess c.world, .new, ?_⟩
      rw [← hb.proto, ← hb.mode]
      exact ha
    | false => exact .inr (hb.deaf hup (Accounts.nil env ha)).1
  quiet hop h := by
    rename_i op d
    have hf : ∀ ver, op.Fine env ver lo := by intro ver; rcases hop with rfl | rfl | rfl <;> exact trivial
    have hpl : ∀ q, statementOf op = some q → q ∉ controlVerbs := by intro q; rcases hop with rfl | rfl | rfl <;> intro h <;> cases h
    obtain ⟨g1, g2⟩ := endures_step env hT hD fuel hlo hU hf hpl h
    exact ⟨g1, g2 hop⟩
  user h1 h2 h := (endures_step env hT hD fuel hlo hU h1 h2 h).1

/-- No open transaction; and lost, or in agreement with the account of a new user. -/
def Renewed (W : World σ) (sess : σ → Session) (lo : Nat) (d : Conn (Lossy σ)) : Prop :=
  (∀ h, ¬ d.isOpen h) ∧ (Severed d ∨ (d.world.line.isUp = true ∧ ∃ c, Both W sess c d c ∧
    Accounts (sess := sess) env d.proto d.mode lo (lastingOf sess d.world.now) (.next d.txs.length) c))

theorem Endures.renewed {d : Conn (Lossy σ)} (h : Endures env W sess lo d) (hn : ∀ h, ¬ d.isOpen h) : Renewed env W sess lo d := by
  refine ⟨hn, ?_⟩
  rcases h with ⟨hu, c, hb, L, a, ha⟩ | h
  · refine .inr ⟨hu, c, hb, ?_⟩
    have hcur : c.cur = none := by
      cases hx : c.cur with
      | none => rfl
      | some h => exact absurd (by show d.txs[h]? = _; rw [hb.txs]; exact (ha.inv.open_iff h).mpr hx) (hn h)
    rw [hb.proto, hb.mode, hb.txs, (hb.now hu).1]
    refine ⟨ha.inv, ha.mode, ha.idle, (List.append_nil _).symm, ha.rest.imp id fun ⟨_, r2, r3, r4⟩ => ⟨rfl, hcur, ?_, fun _ => rfl⟩⟩
    rw [r3]
    exact r4 (r2.symm.trans hcur)
  · exact .inl h

/-- If it works, nothing is open or unread at the server. -/
theorem Renewed.clean {d : Conn (Lossy σ)} (h : Renewed env W sess lo d) (hw : Working sess d) :
    (sess d.world.now).phase = .ready ∧ (sess d.world.now).ledger.tx = none ∧ d.segs.flatten = [] := by
  obtain ⟨w1, w2, w3⟩ := hw
  rcases h.2 with hd | ⟨hu, c, hb, ha⟩
  · rw [hd.down] at w1; cases w1
  · obtain ⟨e1, e2⟩ := hb.now hu
    rw [e1] at w3 ⊢
    have hg : Ongoing sess c := ⟨by rw [← hb.closed]; exact w2, w3⟩
    have hal := not_dead env ha.idle ha.inv hg
    exact ⟨hal.ready, by rw [ledger_accounts env ha hg]; rfl, by rw [e2]; exact hal.nil⟩

include hT hD hlo hU in
/-- What the calls of the new user change. -/
theorem Renewed.changes {d : Conn (Lossy σ)} (h : Renewed env W sess lo d) (ops : List Op) (h1 : ∀ op ∈ ops, op.Fine env d.proto.codec lo) (h2 : PlainCall ops) :
    let f := fieldsOf env d.proto d.mode
    let at_ := fun os => run env (lossy W) (fuel + 1) os d
    let said := fun os => account env (lossy W) f (fuel + 1) os (.next d.txs.length) d
    (∃ doubt, (sess (at_ ops).world.now).ledger.lasting = (sess d.world.now).ledger.lasting ++ (said ops).lasting ++ doubt ∧
      (doubt ≠ [] → ∃ before op after, ops = before ++ op :: after ∧ (at_ before).world.line.isUp = true ∧ (at_ (before ++ [op])).world.line.isUp = false ∧
        (∃ e, (step env (lossy W) (fuel + 1) op (at_ before)).1 = .err e) ∧ doubt = inDoubt f (said before) op)) ∧
    (Working sess (at_ ops) → (sess (at_ ops).world.now).ledger = (said ops).ledger (sess d.world.now).ledger.lasting) := by
  dsimp only
  rcases h.2 with hd | ⟨hu, c, hb, ha⟩
  · obtain ⟨g1, g2, g3⟩ := account_deaf env (W := W) (f := fieldsOf env d.proto d.mode) (fuel := fuel + 1) (ops := ops) (a := .next d.txs.length) hd
    refine ⟨⟨[], by rw [g1, g3]; simp [Account.next], fun h => absurd rfl h⟩, fun hw => ?_⟩
    have := g2.down
    rw [hw.1] at this; cases this
  · rcases lossy_run env hT hD hlo fuel (hU _) ops h1 h2 _ d c hu hb ha with ⟨k1, c', k2, k3⟩ | ⟨k1, doubt, k2, k3⟩
    · obtain ⟨e1, _⟩ := k2.now k1
      refine ⟨⟨[], ?_, fun h => absurd rfl h⟩, fun hw => ?_⟩
      · rw [List.append_nil, e1]
        exact k3.lasting
      · have w3 := hw.2.2
        rw [e1] at w3 ⊢
        exact ledger_accounts env k3 ⟨by rw [← k2.closed]; exact hw.2.1, w3⟩
    · refine ⟨⟨doubt, k2, k3⟩, fun hw => ?_⟩
      have := k1.down
      rw [hw.1] at this; cases this

include hT hD hlo hU in
/-- Once it is lost, nothing changes any more. -/
theorem Renewed.lost {d : Conn (Lossy σ)} (h : Renewed env W sess lo d) (ops : List Op) (h1 : ∀ op ∈ ops, op.Fine env d.proto.codec lo) (h2 : PlainCall ops) :
    let d' := run env (lossy W) (fuel + 1) ops d
    d'.world.line.isUp = false → ∀ ops', let d'' := run env (lossy W) (fuel + 1) ops' d'
      d''.world.now = d'.world.now ∧ ∀ op, needsServer op → ∀ x, (step env (lossy W) (fuel + 1) op d'').1 ≠ .ok x := by
  dsimp only
  intro hup ops'
  have key : Severed (run env (lossy W) (fuel + 1) ops d) := by
    rcases h.2 with hd | ⟨hu, c, hb, ha⟩
    · exact (account_deaf env (W := W) (f := fun _ => []) (a := .new) hd).2.1
    · rcases lossy_run env hT hD hlo fuel (hU _) ops h1 h2 _ d c hu hb ha with ⟨k1, _⟩ | ⟨k, _⟩
      · rw [hup] at k1; cases k1
      · exact k
  obtain ⟨_, g2, g3⟩ := account_deaf env (W := W) (f := fun _ => []) (fuel := fuel + 1) (ops := ops') (a := .new) key
  exact ⟨g3, fun op hop x => deaf_quiet env W (fuel + 1) hop g2 x⟩

include hT hD hlo hU in
/-- What a statement of the new user gives. -/
theorem Renewed.result {d : Conn (Lossy σ)} (h : Renewed env W sess lo d) (ops : List Op) (op : Op) (q : Bytes) (h1 : ∀ o ∈ ops ++ [op], o.Fine env d.proto.codec lo)
    (h2 : PlainCall (ops ++ [op])) (hq : statementOf op = some q) :
    let lg := (account env (lossy W) (fieldsOf env d.proto d.mode) (fuel + 1) ops (.next d.txs.length) d).ledger (sess d.world.now).ledger.lasting
    ∀ x, resultOf env (lossy W) (fuel + 1) op (run env (lossy W) (fuel + 1) ops d) = .ok x →
      ∃ o, D lg (lg.stmt q (fieldsOf env d.proto d.mode op)) o ∧ Conveys env d.proto.codec (withRows op) o (.ok x) := by
  dsimp only
  intro x hx
  have severed : ¬ Severed (run env (lossy W) (fuel + 1) ops d) := fun hs =>
    deaf_quiet env W (fuel + 1) (op := op) (by cases op <;> first | trivial | cases hq) hs () (resultOf_ok_step env hx)
  rcases h.2 with hd | ⟨hu, c, hb, ha⟩
  · exact absurd (account_deaf env (W := W) (f := fun _ => []) (a := .new) hd).2.1 severed
  · rcases lossy_run env hT hD hlo fuel (hU _) ops (fun o ho => h1 o (by simp [ho])) (fun o ho => h2 o (by simp [ho])) _ d c hu hb ha with ⟨k1, c', k2, k3⟩ | ⟨k, _⟩
    · have hr := result_accounts env hT hlo fuel (hU _) (h1 op (by simp)) (h2 op (by simp)) hq k3
      rw [loses_result env hD k2 hx] at hr
      rcases hr with ⟨_, k⟩ | ⟨_, _, e, k⟩ | h
      · exact absurd rfl (k x)
      · cases k
      · exact h
    · exact absurd k severed

variable {connStr : Bytes} (hm : Modest semi connStr) {ms : List DMove} (hms : Orderly env lo ms)
include hT hD hlo hU hlo' hm hms

/-- A connection that `Open` returned is lost, or agrees with the account of a new user. -/
theorem lent_endures {calls : List FCall} {answer : Except Err PObj}
    (hp : AllProper env (lossy W) semi (fuel + 1) (lossyNet net fate) (newDriverPool connStr) (ms ++ [.open calls answer])) {r : Nat} {s : DPool (Lossy σ)}
    (ho : dOpen (lossy W) (borrowed env (lossy W) semi (fuel + 1) (lossyNet net fate) calls answer) (dRun env (lossy W) semi (fuel + 1) (lossyNet net fate) ms (newDriverPool connStr)) = (.ok r, s)) :
    ∃ d, s.conns[r]? = some d ∧ Renewed env W sess lo d := by
  have K := endures_keeps env hT hD fuel net fate hlo hlo' hU
  obtain ⟨d, hc, hn⟩ := C68_partial env (lossy W) semi (fuel + 1) (lossyNet net fate) hp ho
  obtain ⟨e0, h0⟩ := keep_run (semi := semi) K (s := newDriverPool connStr) hms hm (fun r c hc => by cases hc)
  have k := keepRel_move (semi := semi) K (m := .open calls answer) (by simp) (dRun env (lossy W) semi (fuel + 1) (lossyNet net fate) ms (newDriverPool connStr))
  have k2 := (k.2 (e0 ▸ hm) h0).1
  have e1 : DMove.run env (lossy W) semi (fuel + 1) (lossyNet net fate) (.open calls answer) (dRun env (lossy W) semi (fuel + 1) (lossyNet net fate) ms (newDriverPool connStr)) = s := congrArg Prod.snd ho
  rw [e1] at k2
  exact ⟨d, hc, (k2 r d hc).renewed env hn⟩

/-- C122.  Connections can be lost at any moment, each at its own and in its own manner.  A connection that `Open` returns, after any history of the pool, has no open
transaction; if it is `Working`, nothing is open or unread at the server either.  Whatever its new user does with it, the server then has what it had, together with what the
calls of that user mean, and with the effect of the one call in which the connection was lost, or nothing of it; if it still works, it has exactly the transaction and the
statements of the account. -/
theorem C122 {calls : List FCall} {answer : Except Err PObj}
    (hp : AllProper env (lossy W) semi (fuel + 1) (lossyNet net fate) (newDriverPool connStr) (ms ++ [.open calls answer])) {r : Nat} {s : DPool (Lossy σ)}
    (ho : dOpen (lossy W) (borrowed env (lossy W) semi (fuel + 1) (lossyNet net fate) calls answer) (dRun env (lossy W) semi (fuel + 1) (lossyNet net fate) ms (newDriverPool connStr)) = (.ok r, s)) :
    ∃ d, s.conns[r]? = some d ∧ (∀ h, ¬ d.isOpen h) ∧
      (Working sess d → (sess d.world.now).phase = .ready ∧ (sess d.world.now).ledger.tx = none ∧ d.segs.flatten = []) ∧
      ∀ ops, (∀ op ∈ ops, op.Fine env d.proto.codec lo) → PlainCall ops →
        let f := fieldsOf env d.proto d.mode
        let at_ := fun os => run env (lossy W) (fuel + 1) os d
        let said := fun os => account env (lossy W) f (fuel + 1) os (.next d.txs.length) d
        (∃ doubt, (sess (at_ ops).world.now).ledger.lasting = (sess d.world.now).ledger.lasting ++ (said ops).lasting ++ doubt ∧
          (doubt ≠ [] → ∃ before op after, ops = before ++ op :: after ∧ (at_ before).world.line.isUp = true ∧ (at_ (before ++ [op])).world.line.isUp = false ∧
            (∃ e, (step env (lossy W) (fuel + 1) op (at_ before)).1 = .err e) ∧ doubt = inDoubt f (said before) op)) ∧
        (Working sess (at_ ops) → (sess (at_ ops).world.now).ledger = (said ops).ledger (sess d.world.now).ledger.lasting) := by
  obtain ⟨d, hc, hd⟩ := lent_endures env hT hD semi fuel net fate hlo hlo' hU hm hms hp ho
  exact ⟨d, hc, hd.1, hd.clean env, hd.changes env hT hD fuel hlo hU⟩

/-- A connection that `Open` returns may be lost already, and it may be lost later: then nothing that is called on it changes anything at the server, and every call that
needs the server fails. -/
theorem C122_lost {calls : List FCall} {answer : Except Err PObj}
    (hp : AllProper env (lossy W) semi (fuel + 1) (lossyNet net fate) (newDriverPool connStr) (ms ++ [.open calls answer])) {r : Nat} {s : DPool (Lossy σ)}
    (ho : dOpen (lossy W) (borrowed env (lossy W) semi (fuel + 1) (lossyNet net fate) calls answer) (dRun env (lossy W) semi (fuel + 1) (lossyNet net fate) ms (newDriverPool connStr)) = (.ok r, s)) :
    ∃ d, s.conns[r]? = some d ∧ ∀ ops, (∀ op ∈ ops, op.Fine env d.proto.codec lo) → PlainCall ops →
      let d' := run env (lossy W) (fuel + 1) ops d
      d'.world.line.isUp = false → ∀ ops', let d'' := run env (lossy W) (fuel + 1) ops' d'
        d''.world.now = d'.world.now ∧ ∀ op, needsServer op → ∀ x, (step env (lossy W) (fuel + 1) op d'').1 ≠ .ok x := by
  obtain ⟨d, hc, hd⟩ := lent_endures env hT hD semi fuel net fate hlo hlo' hU hm hms hp ho
  exact ⟨d, hc, hd.lost env hT hD fuel hlo hU⟩

/-- A statement that gives a result to the new user gives what the database says after what was permanent and the statements of that user. -/
theorem C122_result {calls : List FCall} {answer : Except Err PObj}
    (hp : AllProper env (lossy W) semi (fuel + 1) (lossyNet net fate) (newDriverPool connStr) (ms ++ [.open calls answer])) {r : Nat} {s : DPool (Lossy σ)}
    (ho : dOpen (lossy W) (borrowed env (lossy W) semi (fuel + 1) (lossyNet net fate) calls answer) (dRun env (lossy W) semi (fuel + 1) (lossyNet net fate) ms (newDriverPool connStr)) = (.ok r, s)) :
    ∃ d, s.conns[r]? = some d ∧ ∀ ops op q, (∀ o ∈ ops ++ [op], o.Fine env d.proto.codec lo) → PlainCall (ops ++ [op]) → statementOf op = some q →
      let lg := (account env (lossy W) (fieldsOf env d.proto d.mode) (fuel + 1) ops (.next d.txs.length) d).ledger (sess d.world.now).ledger.lasting
      ∀ x, resultOf env (lossy W) (fuel + 1) op (run env (lossy W) (fuel + 1) ops d) = .ok x →
        ∃ o, D lg (lg.stmt q (fieldsOf env d.proto d.mode op)) o ∧ Conveys env d.proto.codec (withRows op) o (.ok x) := by
  obtain ⟨d, hc, hd⟩ := lent_endures env hT hD semi fuel net fate hlo hlo' hU hm hms hp ho
  exact ⟨d, hc, hd.result env hT hD fuel hlo hU⟩

/-- Whatever the pool itself does with its connections, lost or not, makes nothing permanent and takes nothing back. -/
theorem C122_quiet {m : DMove} (hu : ∀ r op, m ≠ .user r op) {r : Nat} {d : Conn (Lossy σ)}
    (hc : (dRun env (lossy W) semi (fuel + 1) (lossyNet net fate) ms (newDriverPool connStr)).conns[r]? = some d) :
    ∃ d', (dRun env (lossy W) semi (fuel + 1) (lossyNet net fate) (ms ++ [m]) (newDriverPool connStr)).conns[r]? = some d' ∧
      (sess d'.world.now).ledger.lasting = (sess d.world.now).ledger.lasting := by
  have K := endures_keeps env hT hD fuel net fate hlo hlo' hU
  obtain ⟨e0, h0⟩ := keep_run (semi := semi) K (s := newDriverPool connStr) hms hm (fun r c hc => by cases hc)
  have k := keepRel_move (semi := semi) K hu (dRun env (lossy W) semi (fuel + 1) (lossyNet net fate) ms (newDriverPool connStr))
  obtain ⟨c', hc', e⟩ := (k.2 (e0 ▸ hm) h0).2 r d hc
  refine ⟨c', ?_, e⟩
  unfold dRun at hc' ⊢
  rw [List.foldl_append]
  exact hc'

end

/-! ### A concrete pool -/

/-- The first connection is lost after the sixth message, when everything was answered, and nobody notices; the second one with the commit of its transaction. -/
def C122.fate : Nat → Nat × Loss
  | 0 => (3, ⟨true, 1000, 5, .eof, false⟩)
  | _ => (5, ⟨true, 0, 1, .eof, false⟩)

def C122.pool : Net (Lossy Session) := lossyNet C118.net C122.fate

/-- A user runs a statement and gives the connection back; it is lost before the next user gets it. -/
def C122.history : List DMove := [.open [.make] (.ok (.conn 0)), .user 0 (.exec (ascii "A") [] []), .reclaim (some 0) [.passivate 0] none]

/-- The next user gets the lost connection. -/
def C122.again : CRes Nat × DPool (Lossy Session) := dOpen (lossy (cServer 4)) (borrowed env0 (lossy (cServer 4)) false (1 + 1) C122.pool [.validate 0, .activate 0] (.ok (.conn 0)))
  (dRun env0 (lossy (cServer 4)) false (1 + 1) C122.pool C122.history (newDriverPool (ascii "bolt://u:p@host:7687")))

theorem C122.orderly : Orderly env0 8 C122.history := by
  intro r op hm
  simp only [C122.history, List.mem_cons, List.not_mem_nil, or_false, reduceCtorEq, false_or, DMove.user.injEq] at hm
  obtain ⟨_, rfl⟩ := hm
  exact ⟨fun ver => ⟨.map [], by omega, by omega, by decide, by simp, by cases ver <;> rfl, by simp [PS.Fits, PS.FitsWith, FitsEntries], by simp [Val.All, AllEntries, strAtMost]⟩,
    fun q hq => by cases hq; decide⟩

theorem C122.proper : AllProper env0 (lossy (cServer 4)) false (1 + 1) C122.pool (newDriverPool (ascii "bolt://u:p@host:7687")) (C122.history ++ [.open [.validate 0, .activate 0] (.ok (.conn 0))]) :=
  ⟨fun _ => by decide +kernel, by show custody _ 0 = _; decide +kernel, by show custody _ 0 = _; decide +kernel, fun _ => by decide +kernel, trivial⟩

theorem C122.first : C122.again.1 = .ok 0 := by
  have h : C118.number C122.again.1 = some 0 := by decide +kernel
  generalize C122.again.1 = x at h
  cases x <;> cases h
  rfl

/-- The connection is lost, the driver does not know it, and the statement of the first user is permanent. -/
example : C122.again.2.conns.map (fun d => (d.closed, d.world.line.isUp, d.world.now.ledger.lasting.map (·.text))) = [(false, false, [ascii "A"])] := by decide +kernel

/-- It meets the hypotheses of `C122_lost`: whatever the new user does changes nothing. -/
example (ops' : List Op) : ∃ d, C122.again.2.conns[0]? = some d ∧ (d.world.line.isUp = false → (run env0 (lossy (cServer 4)) (1 + 1) ops' d).world.now = d.world.now) := by
  have e : ∀ x : CRes Nat × DPool (Lossy Session), x.1 = .ok 0 → x = (.ok 0, x.2) := fun x h => Prod.ext h rfl
  obtain ⟨d, h1, h2⟩ := C122_lost env0 (cServer_serves 4) (cServer_durable 4) false 1 C118.net C122.fate (lo := 8) (by decide) (by decide) (fun ver => cServer_understood env0 ver 4) C118.modest C122.orderly
    (calls := [.validate 0, .activate 0]) (answer := .ok (.conn 0)) (r := 0) (s := C122.again.2) C122.proper (e _ C122.first)
  exact ⟨d, h1, fun hd => (h2 [] (by simp) (by intro op ho; cases ho) hd ops').1⟩

/-- It meets the hypotheses of `C122`. -/
example : ∃ d, C122.again.2.conns[0]? = some d ∧ ∀ h, ¬ d.isOpen h := by
  have e : ∀ x : CRes Nat × DPool (Lossy Session), x.1 = .ok 0 → x = (.ok 0, x.2) := fun x h => Prod.ext h rfl
  obtain ⟨d, h1, h2, _⟩ := C122 env0 (cServer_serves 4) (cServer_durable 4) false 1 C118.net C122.fate (lo := 8) (by decide) (by decide) (fun ver => cServer_understood env0 ver 4) C118.modest C122.orderly
    (calls := [.validate 0, .activate 0]) (answer := .ok (.conn 0)) (r := 0) (s := C122.again.2) C122.proper (e _ C122.first)
  exact ⟨d, h1, h2⟩

/-- Two connections: the second user has a connection of their own, which is lost with a Commit; the first one goes on. -/
def C122.two : List DMove := [.open [.make] (.ok (.conn 0)), .open [.make] (.ok (.conn 1)), .user 1 (.begin_ []), .user 1 (inTx 0 "B"), .user 1 (.commit 0), .user 0 (.exec (ascii "A") [] [])]

example : (dRun env0 (lossy (cServer 4)) false (1 + 1) C122.pool C122.two (newDriverPool (ascii "bolt://u:p@host:7687"))).conns.map (fun d => (d.world.line.isUp, d.cur, d.world.now.ledger.lasting.map (·.text))) =
    [(false, none, [ascii "A"]), (false, some 0, [ascii "B"])] := by decide +kernel

end Verif
