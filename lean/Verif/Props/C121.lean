/-
C121  What calls have done to the database when the connection can be lost at any moment.
-/
import Verif.Props.C116
import Verif.Props.C37
import Verif.Proofs.Lossy
namespace Verif
open Spec

namespace Spec

/-- The statements of which the caller cannot know whether they are permanent, if the connection was lost during this call: a statement outside of a transaction, or
the statements of the transaction to be committed. -/
def inDoubt (f : Op → List PS) (a : Account) (op : Op) : List Stmt :=
  match statementOf op, op with
  | some q, _ => if a.work.isNone then [⟨q, f op, none⟩] else []
  | none, .commit h => if a.held = some h then (a.work.map (·.2)).getD [] else []
  | none, _ => []

end Spec

section
variable {σ : Type} (env : Env) {W : World σ} {sess : σ → Session} {D : Database} (hT : TServes D W sess) (hD : Durable W sess) {lo : Nat} (hlo : 8 ≤ lo)

include hD in
theorem feed_grows (w : σ) : (wss : List (List Bytes)) → ∃ more, lastingOf sess (feed W w wss).1 = lastingOf sess w ++ more
  | [] => ⟨[], by simp [feed]⟩
  | ws :: wss => by
    obtain ⟨m1, h1⟩ := hD.grows w ws
    obtain ⟨m2, h2⟩ := feed_grows (W.onSend w ws).st wss
    exact ⟨m1 ++ m2, by
      show lastingOf sess (feed W (W.onSend w ws).st wss).1 = _
      rw [h2, show lastingOf sess (W.onSend w ws).st = _ from h1, List.append_assoc]⟩

include hD in
/-- What is permanent at some moment of a call is between what was before and what is after it. -/
theorem Mid.between {c c' : Conn σ} {now : σ} (h : Mid W c now c') : ∃ y z, lastingOf sess now = lastingOf sess c.world ++ y ∧ lastingOf sess c'.world = lastingOf sess now ++ z := by
  obtain ⟨evs, a, b, h1, h2, h3, h4⟩ := h
  obtain ⟨y, hy⟩ := feed_grows hD c.world a
  obtain ⟨z, hz⟩ := feed_grows hD (feed W c.world a).1 b
  refine ⟨y, z, by rw [h3]; exact hy, ?_⟩
  rw [h4, h3, h2, feed_append]
  exact hz

/-- The account of a call makes nothing permanent but what is in doubt during it. -/
theorem Account.after_lasting (f : Op → List PS) (a : Account) (op : Op) (ok failed : Bool) :
    (a.after f op ok failed).lasting = a.lasting ∨ (ok = true ∧ failed = false ∧ ((∃ h, op = .commit h ∧ (a.after f op ok failed).lasting = a.lasting ++ (a.work.map (·.2)).getD []) ∨
      (∃ q, statementOf op = some q ∧ a.work = none ∧ (a.after f op ok failed).lasting = a.lasting ++ [⟨q, f op, none⟩]))) := by
  unfold Account.after
  cases failed with
  | true => exact .inl rfl
  | false =>
    cases ok with
    | false => exact .inl rfl
    | true =>
      have stmt : ∀ q, statementOf op = some q → (a.statement q (f op)).lasting = a.lasting ∨ (a.work = none ∧ (a.statement q (f op)).lasting = a.lasting ++ [⟨q, f op, none⟩]) := by
        intro q _
        unfold Account.statement
        split
        · exact .inl rfl
        · rename_i hw; exact .inr ⟨hw, rfl⟩
      simp only [Bool.false_eq_true, if_false, if_true, true_and]
      cases op with
      | query q ps db => exact (stmt q rfl).imp id fun h => .inr ⟨q, rfl, h⟩
      | exec q ps db => exact (stmt q rfl).imp id fun h => .inr ⟨q, rfl, h⟩
      | txQuery h q ps db => exact (stmt q rfl).imp id fun h => .inr ⟨q, rfl, h⟩
      | txExec h q ps => exact (stmt q rfl).imp id fun h => .inr ⟨q, rfl, h⟩
      | txExecDb h q ps db => exact (stmt q rfl).imp id fun h => .inr ⟨q, rfl, h⟩
      | commit h => exact .inr (.inl ⟨h, rfl, rfl⟩)
      | begin_ db => exact .inl rfl
      | rollback h => exact .inl rfl
      | close => exact .inl rfl
      | makeIdle => exact .inl rfl
      | validateOpen => exact .inl rfl
      | setChunkSize n => exact .inl rfl

include hT hlo in
/-- A Commit that succeeds makes its statements permanent with one message: at no moment of the call a part of them is. -/
theorem commit_atomic {fuel h : Nat} {p : Proto} {c c' : Conn σ} {now : σ} (hi : Idle env (fun w => (sess w).phase) p lo c) (hinv : c.core.Inv)
    (hok : commit env W (fuel + 1) h c = (.ok (), c')) (hm : Mid W c now c') : lastingOf sess now = lastingOf sess c.world ∨ now = c'.world := by
  rcases Spec.idle_alive env hi hinv with hd | hal
  · exact absurd (by rw [hok]) (dead_commit env hT (fuel + 1) h hd ())
  obtain ⟨_, ⟨wss, rs, hx, hlen, hcar, _, _⟩, _⟩ := C37_commit_partial env W (by have := hal.low; omega) hal.high hok
  obtain ⟨evs, a, b, h1, h2, h3, h4⟩ := hm
  have hs : sents evs = wss := by
    have e : evs = wss.map .sent ++ rs.map .recv := by
      have := hx.trace
      rw [h1, List.append_assoc] at this
      exact List.append_cancel_left this
    rw [e, sents_append, sents_recv, List.append_nil]
    have : ∀ l : List (List Bytes), sents (l.map .sent) = l := by
      intro l
      induction l with
      | nil => rfl
      | cons w l ih => simp only [List.map_cons, sents, List.filterMap_cons]; exact congrArg _ ih
    exact this wss
  rw [hs] at h2
  match a, b, h2 with
  | [], _, _ => exact .inl (by rw [h3]; rfl)
  | x :: a, [], h2 =>
    refine .inr ?_
    rw [h3, h4, hs, h2, List.append_nil]
  | x :: a, y :: b, h2 =>
    have hl2 : 2 ≤ wss.length := by rw [h2]; simp; omega
    have key : c.proto = .v1 ∨ c.proto = .v2 := by
      cases hp : c.proto with
      | v1 => exact .inl rfl
      | v2 => exact .inr rfl
      | v3 => rw [hp] at hlen; have : wss.length = 1 := hlen; omega
      | v4 => rw [hp] at hlen; have : wss.length = 1 := hlen; omega
    have ht : commitTrees c.proto = [.struct 0x10 [.str (ascii "COMMIT"), .map []], pullTree c.proto] := by
      rcases key with hp | hp <;> rw [hp] <;> rfl
    rw [ht] at hlen hcar
    have ha : a = [] := by
      rw [h2] at hlen
      simp only [List.length_append, List.length_cons, List.length_nil] at hlen
      exact List.eq_nil_of_length_eq_zero (by omega)
    subst ha
    rw [h2] at hcar
    have hc := hcar (.struct 0x10 [.str (ascii "COMMIT"), .map []], x) (by simp)
    obtain ⟨_, ts, hr, _⟩ := hT.reply c.world x _ hc (by rw [hal.ready]; simp) ⟨_, _, by rw [hal.ready]; exact Reply.run (ascii "COMMIT") [.map []] []⟩
    refine .inl ?_
    rw [h3]
    show (sess (W.onSend c.world x).st).ledger.lasting = _
    generalize sess (W.onSend c.world x).st = s' at hr
    cases hr with
    | run => rfl
    | runFailure => rfl
    | tx => rename_i hq _; simp [txVerbs] at hq
    | txFailure => rfl
    | ignored _ _ _ hf => rfl

include hT hD hlo in
/-- What is permanent at some moment of a call: what was before it, and maybe what is in doubt. -/
theorem doubt_of_step (fuel : Nat) {op : Op} {p : Proto} {m : AccessMode} {L : List Stmt} {a : Account} {c : Conn σ} {now : σ} (hU : Understood env p.codec W) (hop : op.Fine env p.codec lo)
    (hpl : ∀ q, statementOf op = some q → q ∉ controlVerbs) (ha : Accounts (sess := sess) env p m lo L a c) (hm : Mid W c now (step env W (fuel + 1) op c).2) :
    ∃ doubt, lastingOf sess now = L ++ a.lasting ++ doubt ∧ (doubt ≠ [] → doubt = inDoubt (fieldsOf env p m) a op) := by
  have ha' := step_accounts env hT hlo fuel hU hop hpl ha
  dsimp only at ha'
  obtain ⟨y, z, hy, hz⟩ := hm.between hD
  have e0 : lastingOf sess c.world = L ++ a.lasting := ha.lasting
  have e1 : lastingOf sess (step env W (fuel + 1) op c).2.world = L ++ (a.after (fieldsOf env p m) op (okOf (step env W (fuel + 1) op c).1) (failures c.trace < failures (step env W (fuel + 1) op c).2.trace)).lasting := ha'.lasting
  refine ⟨y, by rw [hy, e0], fun hne => ?_⟩
  have e2 : (a.after (fieldsOf env p m) op (okOf (step env W (fuel + 1) op c).1) (failures c.trace < failures (step env W (fuel + 1) op c).2.trace)).lasting = a.lasting ++ (y ++ z) := by
    rw [hz, hy, e0, List.append_assoc, List.append_assoc] at e1
    exact (List.append_cancel_left e1).symm
  rcases Account.after_lasting (fieldsOf env p m) a op (okOf (step env W (fuel + 1) op c).1) (failures c.trace < failures (step env W (fuel + 1) op c).2.trace) with k | ⟨k1, k2, ⟨h, k3, k4⟩ | ⟨q, k3, k4, k5⟩⟩
  · rw [e2] at k
    have : y ++ z = [] := by
      have := congrArg List.length k
      simp only [List.length_append] at this
      exact List.eq_nil_of_length_eq_zero (by simp only [List.length_append]; omega)
    exact absurd (List.append_eq_nil_iff.mp this).1 hne
  · subst k3
    rw [e2] at k4
    have k5 := List.append_cancel_left k4
    have hok : commit env W (fuel + 1) h c = (.ok (), (step env W (fuel + 1) (.commit h) c).2) := by
      refine Prod.ext ?_ rfl
      show (step env W (fuel + 1) (.commit h) c).1 = _
      match hr : (step env W (fuel + 1) (.commit h) c).1 with
      | .ok () => rfl
      | .err e => rw [hr] at k1; cases k1
      | .panic => rw [hr] at k1; cases k1
      | .fuel => rw [hr] at k1; cases k1
    -- the driver holds this transaction
    have hheld : a.held = some h := by
      rcases Spec.idle_alive env ha.idle ha.inv with hd | hal
      · exact absurd (by rw [hok]) (dead_commit env hT (fuel + 1) h hd ())
      · obtain ⟨_, r2, _⟩ := ha.rest.resolve_left hal.not_dead
        have := (C37_commit_partial env W (by have := hal.low; omega) hal.high hok).1
        rw [← r2]
        exact (ha.inv.open_iff h).mp this
    have e3 : inDoubt (fieldsOf env p m) a (.commit h) = (a.work.map (·.2)).getD [] := by
      show (if a.held = some h then _ else _) = _
      rw [if_pos hheld]
    rw [e3, ← k5]
    rcases commit_atomic env hT hlo ha.idle ha.inv hok hm with g | g
    · rw [g] at hy
      have : y = [] := by
        have := congrArg List.length hy
        simp only [List.length_append] at this
        exact List.eq_nil_of_length_eq_zero (by omega)
      exact absurd this hne
    · rw [g] at hz
      have : z = [] := by
        have := congrArg List.length hz
        simp only [List.length_append] at this
        exact List.eq_nil_of_length_eq_zero (by omega)
      rw [this, List.append_nil]
  · rw [e2] at k5
    have k6 := List.append_cancel_left k5
    have e3 : inDoubt (fieldsOf env p m) a op = [⟨q, fieldsOf env p m op, none⟩] := by
      unfold inDoubt
      rw [k3]
      dsimp only
      rw [k4]
      rfl
    rw [e3]
    match y, z, k6 with
    | [], _, _ => exact absurd rfl hne
    | [s], [], k6 => simpa using k6
    | _ :: _ :: _, _, k6 => simp at k6
    | [_], _ :: _, k6 => simp at k6

theorem account_deaf {f : Op → List PS} {fuel : Nat} : {ops : List Op} → {a : Account} → {d : Conn (Lossy σ)} → Severed d →
    (account env (lossy W) f fuel ops a d).lasting = a.lasting ∧ Severed (run env (lossy W) fuel ops d) ∧ (run env (lossy W) fuel ops d).world.now = d.world.now
  | [], _, _, h => ⟨rfl, h, rfl⟩
  | op :: ops, a, d, h => by
    obtain ⟨k1, k2⟩ := (deaf_prim env W).step env (lossy W) fuel op d h
    obtain ⟨g1, g2, g3⟩ := account_deaf (f := f) (fuel := fuel) (ops := ops) (a := a.after f op (okOf (step env (lossy W) fuel op d).1) (failures d.trace < failures (step env (lossy W) fuel op d).2.trace)) k1
    refine ⟨?_, g2, g3.trans k2⟩
    show (account env (lossy W) f fuel ops (a.after f op (okOf (step env (lossy W) fuel op d).1) (failures d.trace < failures (step env (lossy W) fuel op d).2.trace)) (step env (lossy W) fuel op d).2).lasting = _
    rw [g1]
    rcases Account.after_lasting f a op (okOf (step env (lossy W) fuel op d).1) (failures d.trace < failures (step env (lossy W) fuel op d).2.trace) with k | ⟨k1, _, k3⟩
    · exact k
    · have hq : needsServer op := by
        rcases k3 with ⟨h, e, _⟩ | ⟨q, e, _⟩
        · rw [e]; trivial
        · cases op <;> first | trivial | cases e
      have := deaf_quiet env W fuel hq h
      rw [okOf_false this] at k1
      cases k1

/-- Nothing is unread between two calls. -/
theorem Accounts.nil {p : Proto} {m : AccessMode} {L : List Stmt} {a : Account} {c : Conn σ} (h : Accounts (sess := sess) env p m lo L a c) : c.segs.flatten = [] := by
  rcases h.idle.2 with hd | ⟨_, _, ha⟩
  · exact hd.2
  · exact ha.2.2

theorem Both.again {c0 c : Conn σ} {d : Conn (Lossy σ)} (hb : Both W sess c0 d c) (hu : d.world.line.isUp = true) : Both W sess c d c := by
  refine ⟨hb.proto, hb.version, hb.versionBytes, hb.mode, hb.chunkSize, hb.closed, hb.sock, hb.txs, hb.cur, hb.trace, ?_, hb.differ⟩
  rcases hb.differ with h | h
  · rw [h.2.1]; exact Mid.of_fed (Fed.refl W c)
  · rw [hu] at h; cases h.1

/-- After the loss, between two calls. -/
theorem Both.deaf {c0 c : Conn σ} {d : Conn (Lossy σ)} (hb : Both W sess c0 d c) (hu : d.world.line.isUp = false) (hn : c.segs.flatten = []) :
    Severed d ∧ lastingOf sess d.world.now = lastingOf sess c.world := by
  rcases hb.differ with h | ⟨h1, missing, h2, h3⟩
  · rw [hu] at h; cases h.1
  · rw [hn] at h2
    obtain ⟨n1, n2⟩ := List.append_eq_nil_iff.mp h2.symm
    refine ⟨?_, h3 n2⟩
    match hl : d.world.line with
    | .up n => rw [hl] at hu; cases hu
    | .down k => exact ⟨k, hl, .inr n1⟩

include hT hD hlo in
theorem lossy_run (fuel : Nat) {p : Proto} {m : AccessMode} {L : List Stmt} (hU : Understood env p.codec W) : (ops : List Op) → (∀ op ∈ ops, op.Fine env p.codec lo) → PlainCall ops →
    (a : Account) → (d : Conn (Lossy σ)) → (c : Conn σ) → d.world.line.isUp = true → Both W sess c d c → Accounts (sess := sess) env p m lo L a c →
    let f := fieldsOf env p m
    let d' := run env (lossy W) (fuel + 1) ops d
    let a' := account env (lossy W) f (fuel + 1) ops a d
    (d'.world.line.isUp = true ∧ ∃ c', Both W sess c' d' c' ∧ Accounts (sess := sess) env p m lo L a' c') ∨
    (Severed d' ∧ ∃ doubt, lastingOf sess d'.world.now = L ++ a'.lasting ++ doubt ∧ (doubt ≠ [] → ∃ before op after, ops = before ++ op :: after ∧
      (run env (lossy W) (fuel + 1) before d).world.line.isUp = true ∧ (run env (lossy W) (fuel + 1) (before ++ [op]) d).world.line.isUp = false ∧
      (∃ e, (step env (lossy W) (fuel + 1) op (run env (lossy W) (fuel + 1) before d)).1 = .err e) ∧
      doubt = inDoubt f (account env (lossy W) f (fuel + 1) before a d) op))
  | [], _, _, a, d, c, hu, hb, ha => .inl ⟨hu, c, hb, ha⟩
  | op :: ops, hops, hpl, a, d, c, hu, hb, ha => by
    dsimp only
    have hst := loses_step env hD (fuel + 1) op hb hu
    rcases hst with ⟨⟨e, he⟩, hdf, hm⟩ | ⟨h1, h2⟩
    · -- the call during which the connection was lost
      refine .inr ?_
      obtain ⟨g1, g2, g3⟩ := account_deaf env (f := fieldsOf env p m) (fuel := fuel + 1) (ops := ops)
        (a := a.after (fieldsOf env p m) op (okOf (step env (lossy W) (fuel + 1) op d).1) (failures d.trace < failures (step env (lossy W) (fuel + 1) op d).2.trace)) hdf
      refine ⟨g2, ?_⟩
      obtain ⟨doubt, k1, k2⟩ := doubt_of_step env hT hD hlo fuel hU (hops op List.mem_cons_self) (hpl op List.mem_cons_self) ha hm
      have e1 : (a.after (fieldsOf env p m) op (okOf (step env (lossy W) (fuel + 1) op d).1) (failures d.trace < failures (step env (lossy W) (fuel + 1) op d).2.trace)).lasting = a.lasting := by
        rcases Account.after_lasting (fieldsOf env p m) a op (okOf (step env (lossy W) (fuel + 1) op d).1) (failures d.trace < failures (step env (lossy W) (fuel + 1) op d).2.trace) with k | ⟨k, _⟩
        · exact k
        · rw [he] at k; cases k
      refine ⟨doubt, ?_, fun hne => ⟨[], op, ops, rfl, hu, ?_, ⟨e, he⟩, k2 hne⟩⟩
      · show lastingOf sess (run env (lossy W) (fuel + 1) ops (step env (lossy W) (fuel + 1) op d).2).world.now =
          L ++ (account env (lossy W) (fieldsOf env p m) (fuel + 1) ops (a.after (fieldsOf env p m) op (okOf (step env (lossy W) (fuel + 1) op d).1) (failures d.trace < failures (step env (lossy W) (fuel + 1) op d).2.trace)) (step env (lossy W) (fuel + 1) op d).2).lasting ++ doubt
        rw [g3, g1, e1]
        exact k1
      · obtain ⟨k, hk, _⟩ := hdf
        show (step env (lossy W) (fuel + 1) op d).2.world.line.isUp = false
        rw [hk]; rfl
    · have ha' := step_accounts env hT hlo fuel hU (hops op List.mem_cons_self) (hpl op List.mem_cons_self) ha
      dsimp only at ha'
      have e1 : a.after (fieldsOf env p m) op (okOf (step env (lossy W) (fuel + 1) op d).1) (failures d.trace < failures (step env (lossy W) (fuel + 1) op d).2.trace) =
          a.after (fieldsOf env p m) op (okOf (step env W (fuel + 1) op c).1) (failures c.trace < failures (step env W (fuel + 1) op c).2.trace) := by
        rw [h1, h2.trace, hb.trace]
      rw [← e1] at ha'
      cases hu1 : (step env (lossy W) (fuel + 1) op d).2.world.line.isUp with
      | true =>
        rcases lossy_run fuel hU ops (fun o ho => hops o (List.mem_cons_of_mem _ ho)) (fun o ho => hpl o (List.mem_cons_of_mem _ ho)) _ _ _ hu1 (h2.again hu1) ha' with h | ⟨k1, doubt, k2, k3⟩
        · exact .inl h
        · refine .inr ⟨k1, doubt, k2, fun hne => ?_⟩
          obtain ⟨before, o, after, j1, j2, j3, j4, j5⟩ := k3 hne
          exact ⟨op :: before, o, after, by rw [j1]; rfl, j2, j3, j4, j5⟩
      | false =>
        obtain ⟨k1, k2⟩ := h2.deaf hu1 (Accounts.nil env ha')
        obtain ⟨g1, g2, g3⟩ := account_deaf env (f := fieldsOf env p m) (fuel := fuel + 1) (ops := ops)
          (a := a.after (fieldsOf env p m) op (okOf (step env (lossy W) (fuel + 1) op d).1) (failures d.trace < failures (step env (lossy W) (fuel + 1) op d).2.trace)) k1
        refine .inr ⟨g2, [], ?_, fun hne => absurd rfl hne⟩
        show lastingOf sess (run env (lossy W) (fuel + 1) ops (step env (lossy W) (fuel + 1) op d).2).world.now =
          L ++ (account env (lossy W) (fieldsOf env p m) (fuel + 1) ops (a.after (fieldsOf env p m) op (okOf (step env (lossy W) (fuel + 1) op d).1) (failures d.trace < failures (step env (lossy W) (fuel + 1) op d).2.trace)) (step env (lossy W) (fuel + 1) op d).2).lasting ++ []
        rw [g3, g1, List.append_nil, k2]
        exact ha'.lasting

include hT hD hlo in
theorem create_lossy {fuel n : Nat} {user password : Bytes} (hu : user.length ≤ 65535) (hpw : password.length ≤ 65535) {w : σ} {l : Loss} {d : Conn (Lossy σ)}
    (h : createBoltConn env (lossy W) (fuel + 1) user password ⟨w, .up n, l⟩ = (.ok (), d)) (hU : Understood env d.proto.codec W) (hlo' : lo ≤ 65535) :
    ∃ c, (∃ c0, Both W sess c0 d c) ∧ Accounts (sess := sess) env d.proto d.mode lo (lastingOf sess c.world) .new c := by
  obtain ⟨c0, c, h1, h2⟩ := create_both env hD h
  rw [h2.proto] at hU
  have := create_accounts env hT hlo hu hpw h1 hU hlo'
  rw [← h2.proto, ← h2.mode] at this
  exact ⟨c, ⟨c0, h2⟩, this⟩

/-- Lost is lost. -/
theorem down_prim : Prim env (lossy W) (fun (d d' : Conn (Lossy σ)) => d.world.line.isUp = false → d'.world.line.isUp = false) where
  refl _ h := h
  trans h1 h2 h := h2 (h1 h)
  send v d h := by
    obtain ⟨k, h1⟩ : ∃ k, d.world.line = .down k := by
      match hl : d.world.line with
      | .up n => rw [hl] at h; cases h
      | .down k => exact ⟨k, rfl⟩
    have key : ∀ ws, ((lossy W).onSend d.world ws).st.line.isUp = false := by
      intro ws
      rw [lossy_down W h1]
      rfl
    unfold sendMessage writeAll
    dsimp only
    split
    · split <;> exact h
    · split
      · exact h
      · split
        · split <;> exact key _
        · exact key _
  recv d h := by rw [(receive_shrinks env d).1]; exact h
  endTx _ _ h := h
  sock d h := by
    unfold closeSock
    dsimp only
    split <;> exact h
  addTx _ h := h
  probe d h := by
    unfold validateOpen
    split
    · exact h
    · split
      · exact h
      · exact h
      · split <;> exact h
  chunk _ _ h := h

theorem up_before {fuel : Nat} {ops : List Op} {d : Conn (Lossy σ)} (h : (run env (lossy W) fuel ops d).world.line.isUp = true) : d.world.line.isUp = true := by
  induction ops generalizing d with
  | nil => exact h
  | cons op ops ih =>
    have h1 := ih (d := (step env (lossy W) fuel op d).2) h
    cases hu : d.world.line.isUp with
    | true => rfl
    | false =>
      have := (down_prim env).step env (lossy W) fuel op d hu
      rw [h1] at this; cases this

theorem void_ok {τ α : Type} {m : CM τ α} {c : Conn τ} {x : α} (h : (m c).1 = .ok x) : (CM.void m c).1 = .ok () := by
  obtain ⟨c', e⟩ : ∃ c', m c = (.ok x, c') := ⟨_, Prod.ext h rfl⟩
  show (match m c with | (.ok _, c') => ((.ok (), c') : CRes Unit × Conn τ) | (.err e, c') => (.err e, c') | (.panic, c') => (.panic, c') | (.fuel, c') => (.fuel, c')).1 = _
  rw [e]

theorem mapResult_ok {α β : Type} {g : α → β} {r : CRes α} {x : β} (h : mapResult g r = .ok x) : ∃ y, r = .ok y := by
  cases r with
  | ok y => exact ⟨y, rfl⟩
  | err => cases h
  | panic => cases h
  | fuel => cases h

theorem resultOf_ok_step {τ : Type} {W : World τ} {fuel : Nat} {op : Op} {c : Conn τ} {x} (h : resultOf env W fuel op c = .ok x) : (step env W fuel op c).1 = .ok () := by
  cases op <;> first | cases h; done | (obtain ⟨y, hy⟩ := mapResult_ok h; exact void_ok hy)

theorem LossAt.ok {α : Type} {c0 : Conn σ} {r : CRes α × Conn (Lossy σ)} {s : CRes α × Conn σ} {x : α} (h : LossAt W sess c0 r s) (hx : r.1 = .ok x) : r.1 = s.1 := by
  rcases h with ⟨⟨e, he⟩, _⟩ | h
  · rw [hx] at he; cases he
  · exact h.1

include hD in
theorem loses_result {fuel : Nat} {op : Op} {c : Conn σ} {d : Conn (Lossy σ)} (hb : Both W sess c d c) {x} (h : resultOf env (lossy W) fuel op d = .ok x) :
    resultOf env W fuel op c = .ok x := by
  rw [← h]
  cases op with
  | query q ps db => obtain ⟨y, hy⟩ := mapResult_ok h; exact congrArg (mapResult _) (((loses_queryWithDb env hD fuel q ps db).at_ c d c hb).ok hy).symm
  | exec q ps db => obtain ⟨y, hy⟩ := mapResult_ok h; exact congrArg (mapResult _) (((loses_execWithDb env hD fuel q ps db).at_ c d c hb).ok hy).symm
  | txQuery k q ps db => obtain ⟨y, hy⟩ := mapResult_ok h; exact congrArg (mapResult _) (((loses_txQueryWithDb env hD fuel k q ps db).at_ c d c hb).ok hy).symm
  | txExec k q ps => obtain ⟨y, hy⟩ := mapResult_ok h; exact congrArg (mapResult _) (((loses_txExec env hD fuel k q ps).at_ c d c hb).ok hy).symm
  | txExecDb k q ps db => obtain ⟨y, hy⟩ := mapResult_ok h; exact congrArg (mapResult _) (((loses_txExecWithDb env hD fuel k q ps db).at_ c d c hb).ok hy).symm
  | _ => cases h

include hT hD hlo

/-- C121.  Whatever the server (`TServes`, with results given by `D`) was sent, it keeps; and what it made permanent it keeps (`Durable`).  The connection to it can be lost
at any one moment (`lossy W` from `⟨w, .up n, l⟩`: `n` more writes go well; of the write after them the server may or may not learn, the writer may or may not, and any first
part of the answer may still come).  Then after any calls, what is permanent at the server is what the calls that succeeded and what the driver was told (`account`) say
plus `doubt`, where `doubt` is empty but for one case: the call during which the connection was lost returned an error, and `doubt` is all of its statements
— its own, outside of a transaction, or all of those of the transaction, for Commit. -/
theorem C121 {fuel n : Nat} {user password : Bytes} (hu : user.length ≤ 65535) (hpw : password.length ≤ 65535) {w : σ} {l : Loss} {d : Conn (Lossy σ)}
    (h : createBoltConn env (lossy W) (fuel + 1) user password ⟨w, .up n, l⟩ = (.ok (), d)) (hU : Understood env d.proto.codec W) (hlo' : lo ≤ 65535) {ops : List Op}
    (hops : ∀ op ∈ ops, op.Fine env d.proto.codec lo) (hpl : PlainCall ops) :
    let f := fieldsOf env d.proto d.mode
    let at_ := fun os => run env (lossy W) (fuel + 1) os d
    let said := fun os => account env (lossy W) f (fuel + 1) os .new d
    ∃ doubt, (sess (at_ ops).world.now).ledger.lasting = (sess d.world.now).ledger.lasting ++ (said ops).lasting ++ doubt ∧
      (doubt ≠ [] → ∃ before op after, ops = before ++ op :: after ∧ (at_ before).world.line.isUp = true ∧ (at_ (before ++ [op])).world.line.isUp = false ∧
        (∃ e, (step env (lossy W) (fuel + 1) op (at_ before)).1 = .err e) ∧ doubt = inDoubt f (said before) op) := by
  dsimp only
  obtain ⟨c, ⟨c0, hb⟩, ha⟩ := create_lossy env hT hD hlo hu hpw h hU hlo'
  cases hup : d.world.line.isUp with
  | true =>
    have e := (hb.again hup)
    have e0 : lastingOf sess d.world.now = lastingOf sess c.world := by
      rcases hb.differ with k | k
      · rw [k.2.1]
      · rw [hup] at k; cases k.1
    rcases lossy_run env hT hD hlo fuel hU ops hops hpl _ d c hup e ha with ⟨k1, c', k2, k3⟩ | ⟨_, doubt, k2, k3⟩
    · refine ⟨[], ?_, fun hne => absurd rfl hne⟩
      have e1 : lastingOf sess (run env (lossy W) (fuel + 1) ops d).world.now = lastingOf sess c'.world := by
        rcases k2.differ with k | k
        · rw [k.2.1]
        · rw [k1] at k; cases k.1
      rw [List.append_nil]
      show lastingOf sess (run env (lossy W) (fuel + 1) ops d).world.now = lastingOf sess d.world.now ++ _
      rw [e1, e0]
      exact k3.lasting
    · refine ⟨doubt, ?_, k3⟩
      show lastingOf sess (run env (lossy W) (fuel + 1) ops d).world.now = lastingOf sess d.world.now ++ _ ++ _
      rw [e0]
      exact k2
  | false =>
    obtain ⟨k1, _⟩ := hb.deaf hup (Accounts.nil env ha)
    obtain ⟨g1, _, g3⟩ := account_deaf env (f := fieldsOf env d.proto d.mode) (fuel := fuel + 1) (ops := ops) (a := .new) k1
    exact ⟨[], by rw [g1, g3]; simp [Account.new], fun hne => absurd rfl hne⟩

/-- As long as the connection is not lost, and neither closed nor given up by the server, the server has exactly the transaction and the permanent statements of the account. -/
theorem C121_up {fuel n : Nat} {user password : Bytes} (hu : user.length ≤ 65535) (hpw : password.length ≤ 65535) {w : σ} {l : Loss} {d : Conn (Lossy σ)}
    (h : createBoltConn env (lossy W) (fuel + 1) user password ⟨w, .up n, l⟩ = (.ok (), d)) (hU : Understood env d.proto.codec W) (hlo' : lo ≤ 65535) {ops : List Op}
    (hops : ∀ op ∈ ops, op.Fine env d.proto.codec lo) (hpl : PlainCall ops) :
    let d' := run env (lossy W) (fuel + 1) ops d
    d'.world.line.isUp = true → d'.closed = false → (sess d'.world.now).phase ≠ .defunct →
    (sess d'.world.now).ledger = (account env (lossy W) (fieldsOf env d.proto d.mode) (fuel + 1) ops .new d).ledger (sess d.world.now).ledger.lasting := by
  dsimp only
  intro hup hcl hph
  obtain ⟨c, ⟨c0, hb⟩, ha⟩ := create_lossy env hT hD hlo hu hpw h hU hlo'
  have hd := up_before env (ops := ops) hup
  have e0 : lastingOf sess d.world.now = lastingOf sess c.world := by
    rcases hb.differ with k | k
    · rw [k.2.1]
    · rw [hd] at k; cases k.1
  rcases lossy_run env hT hD hlo fuel hU ops hops hpl _ d c hd (hb.again hd) ha with ⟨k1, c', k2, k3⟩ | ⟨⟨k, hk, _⟩, _⟩
  · have e1 : (run env (lossy W) (fuel + 1) ops d).world.now = c'.world := by
      rcases k2.differ with k | k
      · exact k.2.1
      · rw [k1] at k; cases k.1
    rw [e1] at hph
    have := ledger_accounts env k3 ⟨by rw [← k2.closed]; exact hcl, hph⟩
    rw [e1, this]
    show _ = (account _ _ _ _ _ _ _).ledger (lastingOf sess d.world.now)
    rw [e0]
  · rw [hk] at hup; cases hup

/-- Once the connection is lost, no call changes anything at the server, and every call that needs it fails. -/
theorem C121_lost {fuel n : Nat} {user password : Bytes} (hu : user.length ≤ 65535) (hpw : password.length ≤ 65535) {w : σ} {l : Loss} {d : Conn (Lossy σ)}
    (h : createBoltConn env (lossy W) (fuel + 1) user password ⟨w, .up n, l⟩ = (.ok (), d)) (hU : Understood env d.proto.codec W) (hlo' : lo ≤ 65535) {ops : List Op}
    (hops : ∀ op ∈ ops, op.Fine env d.proto.codec lo) (hpl : PlainCall ops) :
    let d' := run env (lossy W) (fuel + 1) ops d
    d'.world.line.isUp = false → ∀ ops', let d'' := run env (lossy W) (fuel + 1) ops' d'
      d''.world.now = d'.world.now ∧ ∀ op, needsServer op → ∀ x, (step env (lossy W) (fuel + 1) op d'').1 ≠ .ok x := by
  dsimp only
  intro hup ops'
  have key : Severed (run env (lossy W) (fuel + 1) ops d) := by
    obtain ⟨c, ⟨c0, hb⟩, ha⟩ := create_lossy env hT hD hlo hu hpw h hU hlo'
    cases hd : d.world.line.isUp with
    | true =>
      rcases lossy_run env hT hD hlo fuel hU ops hops hpl _ d c hd (hb.again hd) ha with ⟨k1, _⟩ | ⟨k, _⟩
      · rw [hup] at k1; cases k1
      · exact k
    | false => exact (account_deaf env (f := fun _ => []) (a := .new) (hb.deaf hd (Accounts.nil env ha)).1).2.1
  obtain ⟨_, g2, g3⟩ := account_deaf env (f := fun _ => []) (fuel := fuel + 1) (ops := ops') (a := .new) key
  exact ⟨g3, fun op hop x => deaf_quiet env W (fuel + 1) hop g2 x⟩

/-- Whatever is lost when, a statement that gives a result gives what the database says after the statements of the account. -/
theorem C121_result {fuel n : Nat} {user password : Bytes} (hu : user.length ≤ 65535) (hpw : password.length ≤ 65535) {w : σ} {l : Loss} {d : Conn (Lossy σ)}
    (h : createBoltConn env (lossy W) (fuel + 1) user password ⟨w, .up n, l⟩ = (.ok (), d)) (hU : Understood env d.proto.codec W) (hlo' : lo ≤ 65535) {ops : List Op}
    (hops : ∀ op ∈ ops, op.Fine env d.proto.codec lo) (hpl : PlainCall ops) {op : Op} {q : Bytes} (hop : op.Fine env d.proto.codec lo) (hq : statementOf op = some q) (hv : q ∉ controlVerbs) :
    let d' := run env (lossy W) (fuel + 1) ops d
    let lg := (account env (lossy W) (fieldsOf env d.proto d.mode) (fuel + 1) ops .new d).ledger (sess d.world.now).ledger.lasting
    ∀ x, resultOf env (lossy W) (fuel + 1) op d' = .ok x →
      ∃ o, D lg (lg.stmt q (fieldsOf env d.proto d.mode op)) o ∧ Conveys env d.proto.codec (withRows op) o (.ok x) := by
  dsimp only
  intro x hx
  obtain ⟨c, ⟨c0, hb⟩, ha⟩ := create_lossy env hT hD hlo hu hpw h hU hlo'
  -- the call does not succeed once the connection is lost
  have hup : (run env (lossy W) (fuel + 1) ops d).world.line.isUp = true := by
    cases hd : (run env (lossy W) (fuel + 1) ops d).world.line.isUp with
    | true => rfl
    | false =>
      have := (C121_lost env hT hD hlo hu hpw h hU hlo' hops hpl hd []).2 op (by cases op <;> first | trivial | cases hq) ()
      exact absurd (resultOf_ok_step env hx) this
  have hd := up_before env (ops := ops) hup
  have e0 : lastingOf sess d.world.now = lastingOf sess c.world := by
    rcases hb.differ with k | k
    · rw [k.2.1]
    · rw [hd] at k; cases k.1
  rcases lossy_run env hT hD hlo fuel hU ops hops hpl _ d c hd (hb.again hd) ha with ⟨k1, c', k2, k3⟩ | ⟨⟨k, hk, _⟩, _⟩
  · have hr := result_accounts env hT hlo fuel hU hop (fun q' hq' => by rw [hq] at hq'; cases hq'; exact hv) hq k3
    rw [loses_result env hD k2 hx] at hr
    rcases hr with ⟨_, k⟩ | ⟨_, _, e, k⟩ | ⟨o, g1, g2⟩
    · exact absurd rfl (k x)
    · cases k
    · refine ⟨o, ?_, g2⟩
      show D (Account.ledger _ (lastingOf sess d.world.now)) (Ledger.stmt (Account.ledger _ (lastingOf sess d.world.now)) _ _) _
      rw [e0]
      exact g1
  · rw [hk] at hup; cases hup

end

/-! ### Losses of a concrete server -/

theorem complete_grows (l : Ledger) (q : Bytes) (fs : List PS) : ∃ more, (l.complete q fs).lasting = l.lasting ++ more := by
  unfold Ledger.complete
  split
  · exact ⟨[], by simp⟩
  · split
    · exact ⟨_, rfl⟩
    · split
      · exact ⟨[], by simp⟩
      · split
        · exact ⟨[], by simp⟩
        · exact ⟨_, rfl⟩

theorem tAnswer_grows (s : Session) (t : PS) : (∃ more, (tAnswer s t).1.ledger.lasting = s.ledger.lasting ++ more) ∧ ((tAnswer s t).2 = [] → (tAnswer s t).1.ledger.lasting = s.ledger.lasting) := by
  have no : ∀ {p : Prop}, sSuccess.flatten = [] → p := fun h => by cases h
  have same : ∃ more, s.ledger.lasting = s.ledger.lasting ++ more := ⟨[], by simp⟩
  unfold tAnswer
  split <;> first
    | exact ⟨same, fun _ => rfl⟩
    | exact ⟨complete_grows _ _ _, no⟩
    | (split <;> first | exact ⟨same, fun _ => rfl⟩ | exact ⟨complete_grows _ _ _, no⟩)

theorem cServer_durable (v : UInt8) : Durable (cServer v) id := by
  have key : ∀ s t, (∃ more, (cAnswer s t).1.ledger.lasting = s.ledger.lasting ++ more) ∧ ((cAnswer s t).2 = [] → (cAnswer s t).1.ledger.lasting = s.ledger.lasting) := by
    intro s t
    unfold cAnswer
    split
    · split
      · exact ⟨⟨[], by simp⟩, fun _ => rfl⟩
      · exact ⟨complete_grows _ _ _, fun h => by simp [cRecord] at h⟩
    · exact tAnswer_grows s _
  refine ⟨fun w ws => ?_, fun _ => rfl, fun w ws => ?_, fun w ws h => ?_⟩
  · unfold cServer
    dsimp only
    split
    · rfl
    · split
      · rfl
      · split <;> rfl
  · unfold cServer
    dsimp only [id]
    split
    · exact ⟨[], by simp⟩
    · split
      · exact ⟨[], by simp⟩
      · split
        · exact (key w _).1
        · exact ⟨[], by simp⟩
  · unfold cServer at h ⊢
    dsimp only [id] at h ⊢
    split
    · rfl
    · rename_i h1
      rw [if_neg h1] at h
      split
      · rfl
      · rename_i h2
        rw [if_neg h2] at h
        split
        · rename_i t ht
          rw [ht] at h
          exact (key w t).2 (by simpa using h)
        · rfl

/-- The connection is lost with a message; nothing more is heard.  The message arrives at the server or not. -/
def lostWith (arrives : Bool) : Loss := ⟨arrives, 0, 1, .eof, false⟩

/-- A connection to the server of `C105`, lost with the message after the `n`-th. -/
def lOpened (v : UInt8) (l : Loss) (n : Nat) : CRes Unit × Conn (Lossy Session) := createBoltConn env0 (lossy (cServer v)) (1 + 1) [0x75] [0x70] ⟨⟨.new, ([], []), ⟨none, []⟩⟩, .up n, l⟩

/-- A transaction, and a statement after it. -/
def lCalls : List Op := [.begin_ [], inTx 0 "A", inTx 0 "B", .commit 0, .exec (ascii "C") [] []]

/-- The results of calls. -/
def callKinds {σ : Type} (W : World σ) : List Op → Conn σ → List Nat
  | [], _ => []
  | op :: ops, c => (step env0 W (1 + 1) op c).1.kind :: callKinds W ops (step env0 W (1 + 1) op c).2

/-- What the server has after the calls: permanent statements. -/
def lLasting (v : UInt8) (l : Loss) (n : Nat) (ops : List Op) : List Bytes := (run env0 (lossy (cServer v)) (1 + 1) ops (lOpened v l n).2).world.now.ledger.lasting.map (·.text)

/-- What the driver wrote, and how many messages it read. -/
def lWritten (v : UInt8) (l : Loss) (n : Nat) (ops : List Op) : List (List Bytes) × Nat :=
  let t := (run env0 (lossy (cServer v)) (1 + 1) ops (lOpened v l n).2).trace
  (sents t, t.length)

/-- The doubt is real: a connection is lost with the COMMIT, and whether it arrived cannot be seen by the driver — the calls give the same, and the driver has written and
read the same.  Either all statements of the transaction are permanent, or none is. -/
theorem C121_doubt : callKinds (lossy (cServer 4)) lCalls (lOpened 4 (lostWith true) 7).2 = callKinds (lossy (cServer 4)) lCalls (lOpened 4 (lostWith false) 7).2 ∧
    lWritten 4 (lostWith true) 7 lCalls = lWritten 4 (lostWith false) 7 lCalls ∧
    lLasting 4 (lostWith true) 7 lCalls = [ascii "A", ascii "B"] ∧ lLasting 4 (lostWith false) 7 lCalls = [] := by
  refine ⟨by decide +kernel, by decide +kernel, by decide +kernel, by decide +kernel⟩

/-- Commit, and the call after it, fail. -/
example : callKinds (lossy (cServer 4)) lCalls (lOpened 4 (lostWith true) 7).2 = [0, 0, 0, 1, 1] := by decide +kernel

/-- The same with protocol version 1, where the COMMIT is a statement of which a SUCCESS may be heard that does not yet mean anything: the connection is lost with the
message that runs it, or with the one that fetches its result. -/
example : (lLasting 1 ⟨true, 100, 9, .eof, false⟩ 8 lCalls, lLasting 1 ⟨true, 0, 9, .eof, false⟩ 9 lCalls) = ([], [ascii "A", ascii "B"]) ∧
    callKinds (lossy (cServer 1)) lCalls (lOpened 1 ⟨true, 100, 9, .eof, false⟩ 8).2 = [0, 0, 0, 1, 1] ∧
    callKinds (lossy (cServer 1)) lCalls (lOpened 1 ⟨true, 0, 9, .eof, false⟩ 9).2 = [0, 0, 0, 1, 1] := by
  refine ⟨by decide +kernel, by decide +kernel, by decide +kernel⟩

theorem lCalls_fine (ver : Ver) : ∀ op ∈ lCalls, op.Fine env0 ver 8 := by
  intro op ho
  simp only [lCalls, List.mem_cons, List.not_mem_nil, or_false] at ho
  rcases ho with rfl | rfl | rfl | rfl | rfl
  · exact Nat.zero_le _
  · exact inTx_fine _ 0 (by decide)
  · exact inTx_fine _ 0 (by decide)
  · exact trivial
  · exact ⟨.map [], by omega, by omega, by decide, by simp, by cases ver <;> rfl, by simp [PS.Fits, PS.FitsWith, FitsEntries], by simp [Val.All, AllEntries, strAtMost]⟩

theorem lCalls_plain : PlainCall lCalls := by
  intro op ho q hq
  simp only [lCalls, List.mem_cons, List.not_mem_nil, or_false] at ho
  rcases ho with rfl | rfl | rfl | rfl | rfl <;> cases hq <;> decide

/-- The connections opened with `lostWith`. -/
theorem lost_opened {n : Nat} (hk : (lOpened 4 (lostWith true) n).1.kind = 0) :
    createBoltConn env0 (lossy (cServer 4)) (1 + 1) [0x75] [0x70] ⟨⟨.new, ([], []), ⟨none, []⟩⟩, .up n, lostWith true⟩ = (.ok (), (lOpened 4 (lostWith true) n).2) := CRes.kind_ok hk

theorem lost_case {l : Loss} {n : Nat} {d : Conn (Lossy Session)} (h : createBoltConn env0 (lossy (cServer 4)) (1 + 1) [0x75] [0x70] ⟨⟨.new, ([], []), ⟨none, []⟩⟩, .up n, l⟩ = (.ok (), d))
    (e1 : d.world.now.ledger.lasting.map (·.text) = []) (e2 : (account env0 (lossy (cServer 4)) (fieldsOf env0 d.proto d.mode) (1 + 1) lCalls .new d).lasting.map (·.text) = [])
    (e3 : (run env0 (lossy (cServer 4)) (1 + 1) lCalls d).world.now.ledger.lasting.map (·.text) = [ascii "A", ascii "B"]) :
    ∃ before op after, lCalls = before ++ op :: after ∧
      (inDoubt (fieldsOf env0 d.proto d.mode) (account env0 (lossy (cServer 4)) (fieldsOf env0 d.proto d.mode) (1 + 1) before .new d) op).map (·.text) = [ascii "A", ascii "B"] := by
  obtain ⟨doubt, h1, h2⟩ := C121 env0 (cServer_serves 4) (cServer_durable 4) (lo := 8) (by decide) (by decide) (by decide) h (cServer_understood env0 _ 4) (by decide) (lCalls_fine _) lCalls_plain
  have e := congrArg (List.map (·.text)) h1
  rw [List.map_append, List.map_append] at e
  have e' : doubt.map (·.text) = [ascii "A", ascii "B"] := by
    rw [← e3]
    refine Eq.trans ?_ e.symm
    rw [e2, show (id d.world.now).ledger.lasting.map (·.text) = [] from e1]
    rfl
  obtain ⟨before, op, after, g1, _, _, _, g5⟩ := h2 (fun hd => by rw [hd] at e'; cases e')
  exact ⟨before, op, after, g1, by rw [← g5]; exact e'⟩

/-- It meets the hypotheses of `C121`; here the doubt is not empty. -/
example : ∃ before op after, lCalls = before ++ op :: after ∧
      (inDoubt (fieldsOf env0 (lOpened 4 (lostWith true) 7).2.proto (lOpened 4 (lostWith true) 7).2.mode)
        (account env0 (lossy (cServer 4)) (fieldsOf env0 (lOpened 4 (lostWith true) 7).2.proto (lOpened 4 (lostWith true) 7).2.mode) (1 + 1) before .new (lOpened 4 (lostWith true) 7).2) op).map (·.text) =
      [ascii "A", ascii "B"] :=
  lost_case (lost_opened (by decide +kernel)) (by decide +kernel) (by decide +kernel) (by decide +kernel)

/-- It meets the hypotheses of `C121_lost`: nothing that comes after the loss changes anything. -/
example (ops' : List Op) : (run env0 (lossy (cServer 4)) (1 + 1) ops' (run env0 (lossy (cServer 4)) (1 + 1) lCalls (lOpened 4 (lostWith true) 7).2)).world.now =
    (run env0 (lossy (cServer 4)) (1 + 1) lCalls (lOpened 4 (lostWith true) 7).2).world.now := by
  have hk : (lOpened 4 (lostWith true) 7).1.kind = 0 := by decide +kernel
  have h1 : (run env0 (lossy (cServer 4)) (1 + 1) lCalls (lOpened 4 (lostWith true) 7).2).world.line.isUp = false := by decide +kernel
  have h := lost_opened hk
  generalize (lOpened 4 (lostWith true) 7).2 = d at *
  exact (C121_lost env0 (cServer_serves 4) (cServer_durable 4) (lo := 8) (by decide) (by decide) (by decide) h (cServer_understood env0 _ 4) (by decide) (lCalls_fine _) lCalls_plain h1 ops').1

/-- It meets the hypotheses of `C121_up`: lost only after the last of the calls. -/
example : (run env0 (lossy (cServer 4)) (1 + 1) lCalls (lOpened 4 (lostWith true) 10).2).world.now.ledger =
    (account env0 (lossy (cServer 4)) (fieldsOf env0 (lOpened 4 (lostWith true) 10).2.proto (lOpened 4 (lostWith true) 10).2.mode) (1 + 1) lCalls .new (lOpened 4 (lostWith true) 10).2).ledger
      (lOpened 4 (lostWith true) 10).2.world.now.ledger.lasting := by
  have hk : (lOpened 4 (lostWith true) 10).1.kind = 0 := by decide +kernel
  have h1 : (run env0 (lossy (cServer 4)) (1 + 1) lCalls (lOpened 4 (lostWith true) 10).2).world.line.isUp = true := by decide +kernel
  have h2 : (run env0 (lossy (cServer 4)) (1 + 1) lCalls (lOpened 4 (lostWith true) 10).2).closed = false := by decide +kernel
  have h3 : (run env0 (lossy (cServer 4)) (1 + 1) lCalls (lOpened 4 (lostWith true) 10).2).world.now.phase ≠ .defunct := by decide +kernel
  have h := lost_opened hk
  generalize (lOpened 4 (lostWith true) 10).2 = d at *
  exact C121_up env0 (cServer_serves 4) (cServer_durable 4) (lo := 8) (by decide) (by decide) (by decide) h (cServer_understood env0 _ 4) (by decide) (lCalls_fine _) lCalls_plain h1 h2 h3

/-- It meets the hypotheses of `C121_result`: the third statement, in the transaction, is not the first one. -/
example : ∃ x, resultOf env0 (lossy (cServer 4)) (1 + 1) (askTx 0 "D") (run env0 (lossy (cServer 4)) (1 + 1) (lCalls.take 3) (lOpened 4 (lostWith true) 9).2) = .ok x := by
  have : (resultOf env0 (lossy (cServer 4)) (1 + 1) (askTx 0 "D") (run env0 (lossy (cServer 4)) (1 + 1) (lCalls.take 3) (lOpened 4 (lostWith true) 9).2)).kind = 0 := by decide +kernel
  generalize resultOf env0 (lossy (cServer 4)) (1 + 1) (askTx 0 "D") (run env0 (lossy (cServer 4)) (1 + 1) (lCalls.take 3) (lOpened 4 (lostWith true) 9).2) = r at this
  cases r with
  | ok x => exact ⟨x, rfl⟩
  | err => cases this
  | panic => cases this
  | fuel => cases this

end Verif
