/-
C131  From the options of a client with a pool to the results of the statements of the pool's users.
-/
import Verif.Props.C115
import Verif.Props.C118
import Verif.Props.C120
import Verif.Props.C95
namespace Verif
open Spec

namespace Spec

/-- Every attempt to connect to the endpoint `e` meets a server that accepts these credentials, whatever protocol version it chooses; its version number arrives in one
piece. -/
def Welcomes {σ : Type} (env : Env) (W : World σ) (net : Net σ) (e : Endpoint) (user password : Bytes) : Prop :=
  ∀ i, ∃ n p more rest more' segs, AcceptsSession env W user password (net.reach i e) n p more rest ∧ (firstAnswer W (net.reach i e)).segs = ([0, 0, 0, n] ++ more') :: segs

/-- The user who has just been given connection `c`, over which other users have had statements run before, makes the calls `ops` and then runs the statement `op`,
while the session is not over: the statement gives what the database says, in the state that the permanent statements and the statements of this user have left it in. -/
def Serves {σ δ : Type} (env : Env) (W : World σ) (sess : σ → Session) (exec : δ → Stmt → δ × Outcome) (start : δ) (fuel : Nat) (c : Conn σ) (ops : List Op) (op : Op) (q : Bytes) : Prop :=
  let a := account env W (fieldsOf env c.proto c.mode) fuel ops (.next c.txs.length) c
  let before := (sess c.world).ledger.lasting ++ a.lasting ++ (a.work.map (·.2)).getD []
  let state := before.foldl (fun d s => (exec d s).1) start
  Ongoing sess (run env W fuel ops c) →
    Conveys env c.proto.codec (withRows op) (exec state ⟨q, fieldsOf env c.proto c.mode op, a.work.map (·.1)⟩).2 (resultOf env W fuel op (run env W fuel ops c))

end Spec

/-- Full statement: a client is made from host, port and credentials, and a pool from the client.  At that address there is a server that accepts these credentials.  Then
users can open connections: whatever was done before, as long as the pool is not closed, `Open` returns a connection if the library makes a new one; and every
statement run over a connection that `Open` returned gives what the database says. -/
def C131_statement : Prop := ∀ (σ ω δ : Type) (env : Env) (W : World σ) (exec : δ → Stmt → δ × Outcome) (start : δ) (sess : σ → Session) (PW : PWorld ω) (w : ω) (size : Int) (semi : Bool) (opts : List (Option ClientOpt))
  (cl : Client) (net : Net σ) (fuel lo : Nat), TServes (machine exec start) W sess → (∀ ver, Understood env ver W) → (∀ w, W.probe w ≠ .eof) → 8 ≤ lo → lo ≤ 65535 → ¬ GivesString opts →
  newClient semi opts = .ok cl → cl.routing = false → PlainHost cl.host → cl.user.length ≤ 65535 → cl.password.length ≤ 65535 →
  Welcomes env W net (tcpTo cl.host cl.port.toNat) cl.user cl.password →
  ∃ pool, cl.newDriverPool PW semi size w = .ok (.plain pool, none) ∧
    ∀ ms, Orderly env lo ms → let s := dRun env W semi (fuel + 1) net ms pool
      (s.closed = false → (dOpen W (borrowed env W semi (fuel + 1) net [.make] (.ok (.conn s.conns.length))) s).1 = .ok s.conns.length) ∧
      ∀ calls answer r s', AllProper env W semi (fuel + 1) net pool (ms ++ [.open calls answer]) → dOpen W (borrowed env W semi (fuel + 1) net calls answer) s = (.ok r, s') →
        ∃ c, s'.conns[r]? = some c ∧ ∀ ops op q, (∀ o ∈ ops ++ [op], o.Fine env c.proto.codec lo) → PlainCall (ops ++ [op]) → statementOf op = some q →
          (c.proto = .v4 ∨ dbOf op = []) → Serves env W sess exec start (fuel + 1) c ops op q

namespace C131

section
variable {σ : Type} (env : Env) (W : World σ) (semi : Bool) (fuel : Nat) (net : Net σ) {P : Conn σ → Prop} {R : Conn σ → Conn σ → Prop}

/-- The pool makes its connections from this string, and all of them have the property `P`. -/
def AllHave (P : Conn σ → Prop) (str : Bytes) (s : DPool σ) : Prop := s.connStr = str ∧ ∀ c ∈ s.conns, P c

theorem have_onConn (hR : ∀ c c', R c c' → P c → P c') {str : Bytes} {α : Type} {m : CM σ α} (hm : Steps R m) (r : Nat) (s : DPool σ) (h : AllHave P str s) :
    AllHave P str (onConn r m s).2 := by
  unfold onConn
  split
  · exact h
  · rename_i c hc
    refine ⟨h.1, fun c' hc' => ?_⟩
    rcases List.mem_or_eq_of_mem_set hc' with h' | rfl
    · exact h.2 c' h'
    · exact hR _ _ (hm c) (h.2 c (List.mem_of_getElem? hc))

variable (hprim : Prim env W R) (hR : ∀ c c', R c c' → P c → P c') {str : Bytes} (hc : ∀ n c, createFrom env W semi fuel net str n = .ok (.ok (), c) → P c)
include hprim hR hc

theorem have_rel : DRel env W semi fuel net (fun (s s' : DPool σ) => AllHave P str s → AllHave P str s') where
  refl _ h := h
  trans h1 h2 h := h2 (h1 h)
  dial s h := by
    unfold dCreate
    rw [h.1]
    split
    · exact ⟨rfl, h.2⟩
    · rename_i c hd
      refine ⟨rfl, fun c' hc' => ?_⟩
      rcases List.mem_append.1 hc' with h' | h'
      · exact h.2 c' h'
      · rw [List.mem_singleton.1 h']
        exact hc _ _ hd
    · exact ⟨rfl, h.2⟩
    · exact ⟨rfl, h.2⟩
    · exact ⟨rfl, h.2⟩
  probe r s := have_onConn hR hprim.probe r s
  shut r s := have_onConn hR (hprim.close env W fuel) r s
  idle r s h := have_onConn hR (hprim.makeIdle env W fuel) r s h
  objs _ _ h := h

theorem have_move (m : DMove) (s : DPool σ) (h : AllHave P str s) : AllHave P str (m.run env W semi fuel net s) := by
  have K := have_rel env W semi fuel net hprim hR hc
  cases m with
  | «open» calls answer =>
    show AllHave _ _ (dOpen W _ s).2
    unfold dOpen
    split
    · exact h
    · have hl := K.library calls s h
      unfold borrowed
      cases answer with
      | error e => exact hl
      | ok x =>
        cases x with
        | conn r =>
          have h2 := K.probe r _ hl
          dsimp only
          split <;> rename_i hy <;> rw [hy] at h2 <;> exact h2
        | _ => exact hl
  | reclaim r calls answer =>
    cases r with
    | none => exact h
    | some r => exact K.library calls _ ⟨h.1, h.2⟩
  | close calls =>
    show AllHave _ _ (dClose _ s).2
    unfold dClose
    split
    · exact h
    · exact ⟨(K.library calls s h).1, (K.library calls s h).2⟩
  | evict calls => exact K.library calls s h
  | user r op => exact have_onConn hR (hprim.step env W fuel op) r s h

theorem have_run (ms : List DMove) (s : DPool σ) (h : AllHave P str s) : AllHave P str (dRun env W semi fuel net ms s) := by
  unfold dRun
  induction ms generalizing s with
  | nil => exact h
  | cons m ms ih => exact ih _ (have_move env W semi fuel net hprim hR hc m s h)

end
end C131

section
variable {σ ω δ : Type} (env : Env) {W : World σ} {sess : σ → Session} {semi : Bool} {opts : List (Option ClientOpt)} {cl : Client} (hcl : PlainClient semi opts cl) (hr : cl.routing = false)
  (net : Net σ) (fuel : Nat)

include hr in
/-- The pool that a client without routing makes. -/
theorem pool_eq (PW : PWorld ω) (size : Int) (w : ω) : cl.newDriverPool PW semi size w = .ok (.plain (newDriverPool (σ := σ) cl.connStr), none) := by
  unfold Client.newDriverPool
  rw [if_neg (by simp [hr])]

include hcl

theorem client_config : connectionConfig semi cl.connStr = .ok ⟨cl.host ++ 0x3A :: Url.decimal cl.port.toNat, cl.user, cl.password, 60 * 1000000000, 65535, false, [], [], [], false⟩ :=
  plain_parse hcl.noString hcl.made hcl.host hcl.user hcl.password fun _ => hcl.paths

theorem client_create (i : Nat) : createFrom env W semi fuel net cl.connStr i = .ok (createBoltConn env W fuel cl.user cl.password (net.reach i (tcpTo cl.host cl.port.toNat))) := by
  rw [C89.tcpTo_eq]
  exact C89.createFrom_tcp env W semi fuel net (client_config hcl) rfl i

theorem client_modest : Modest semi cl.connStr := fun cfg h => by
  rw [client_config hcl] at h
  cases h
  exact hcl.short

/-- **C131**, opening: if credentials and file names have no characters with a meaning in connection strings, a connection can be opened after any history of the pool, as
long as it is not closed; it is new, in the version the server chose, made by one attempt to connect to the configured address.  Missing from the full statement: the
other credentials. -/
theorem C131_open_partial (hw : Welcomes env W net (tcpTo cl.host cl.port.toNat) cl.user cl.password) (hpr : ∀ w, W.probe w ≠ .eof) (ms : List DMove) :
    let s := dRun env W semi fuel net ms (newDriverPool cl.connStr)
    s.closed = false → ∃ s' c n p more rest, dOpen W (borrowed env W semi fuel net [.make] (.ok (.conn s.conns.length))) s = (.ok s.conns.length, s') ∧
      s'.conns = s.conns ++ [c] ∧ AcceptsSession env W cl.user cl.password (net.reach s.dials (tcpTo cl.host cl.port.toNat)) n p more rest ∧ c.proto = p ∧
      c.cur = none ∧ c.closed = false ∧ Introduced cl.user cl.password c.trace ∧ s'.dials = s.dials + 1 := by
  intro s hs
  have hstr : s.connStr = cl.connStr := (C89.allIn_run env W semi fuel net (fun n r hr => C89.connects_attempt (C89.client_connects env W fuel hcl) net n r hr) ms (newDriverPool cl.connStr)
    ⟨rfl, fun _ h => absurd h List.not_mem_nil⟩).1
  obtain ⟨n, p, more, rest, more', segs, h1, h2⟩ := hw s.dials
  obtain ⟨c, h3, h4⟩ := C110_partial env W fuel hcl.short.1 hcl.short.2 h1 h2
  have hcr : createFrom env W semi fuel net s.connStr s.dials = .ok (.ok (), c) := by rw [hstr, client_create env hcl, h3]
  have hmk : makeObject env W semi fuel net s = (.ok s.objs.length, { s with dials := s.dials + 1, conns := s.conns ++ [c], objs := s.objs ++ [.conn s.conns.length] }) := by
    unfold makeObject dCreate
    rw [hcr]
  have hv : (validateOpen W c).1 = .ok true := by
    unfold validateOpen
    rw [if_neg (by simp [h4.open_])]
    cases hp : W.probe c.world with
    | eof => exact absurd hp (hpr _)
    | other => rfl
    | data => dsimp only; split <;> rfl
  have hin : Introduced cl.user cl.password c.trace := by
    have := C89.attempt env W fuel hcl.short.1 hcl.short.2 (net.reach s.dials (tcpTo cl.host cl.port.toNat))
    rw [h3] at this
    exact C89.introduced_of_ok this
  have hno : (validateOpen W c).2.cur = none ∧ (validateOpen W c).2.closed = false := by
    refine ⟨Eq.trans ?_ h4.idle, Eq.trans ?_ h4.open_⟩ <;>
    · unfold validateOpen
      split
      · rfl
      · split
        · rfl
        · rfl
        · split <;> rfl
  have hon : onConn s.conns.length (validateOpen W) { s with dials := s.dials + 1, conns := s.conns ++ [c], objs := s.objs ++ [.conn s.conns.length] } =
      (.ok true, { s with dials := s.dials + 1, conns := s.conns ++ [(validateOpen W c).2], objs := s.objs ++ [.conn s.conns.length] }) := by
    unfold onConn
    dsimp only
    rw [List.getElem?_append_right (Nat.le_refl _)]
    simp only [Nat.sub_self, List.getElem?_cons_zero, hv]
    rw [List.set_append_right _ _ (Nat.le_refl _)]
    simp
  refine ⟨{ s with dials := s.dials + 1, conns := s.conns ++ [(validateOpen W c).2], objs := s.objs ++ [.conn s.conns.length], log := s.log ++ [.opened s.conns.length] },
    (validateOpen W c).2, n, p, more, rest, ?_, rfl, h1, ?_, hno.1, hno.2, ?_, rfl⟩
  · unfold dOpen borrowed
    rw [if_neg (by simp [hs])]
    have hl : library env W semi fuel net [.make] s = { s with dials := s.dials + 1, conns := s.conns ++ [c], objs := s.objs ++ [.conn s.conns.length] } := by
      show (makeObject env W semi fuel net s).2 = _
      rw [hmk]
    rw [hl]
    dsimp only
    rw [hon]
  · exact (((sameProto env W).probe) c).1.trans h4.proto
  · exact C89.introduced_mono hin ((grows env W).probe c)

variable {exec : δ → Stmt → δ × Outcome} {start : δ} (hT : TServes (machine exec start) W sess) {lo : Nat} (hlo : 8 ≤ lo) (hlo' : lo ≤ 65535) (hU : ∀ ver, Understood env ver W)
  {place : σ → Endpoint} (hP : Placed W net place)
include hT hlo hlo' hU hP

/-- **C131**, using: every connection that `Open` returns, after any history of the pool, is one to the configured address, introduced with the configured credentials, and
without a transaction; and every statement of its new user gives what the database says.  (Users and library as in C118.) -/
theorem C131_partial {ms : List DMove} (hms : Orderly env lo ms) {calls : List FCall} {answer : Except Err PObj}
    (hp : AllProper env W semi (fuel + 1) net (newDriverPool cl.connStr) (ms ++ [.open calls answer])) {r : Nat} {s : DPool σ}
    (ho : dOpen W (borrowed env W semi (fuel + 1) net calls answer) (dRun env W semi (fuel + 1) net ms (newDriverPool cl.connStr)) = (.ok r, s)) :
    ∃ c, s.conns[r]? = some c ∧ place c.world = tcpTo cl.host cl.port.toNat ∧ Introduced cl.user cl.password c.trace ∧ (∀ h, ¬ c.isOpen h) ∧
      ∀ ops op q, (∀ o ∈ ops ++ [op], o.Fine env c.proto.codec lo) → PlainCall (ops ++ [op]) → statementOf op = some q → (c.proto = .v4 ∨ dbOf op = []) →
        Serves env W sess exec start (fuel + 1) c ops op q := by
  have hm := client_modest hcl
  obtain ⟨c, hc, hopen, _⟩ := C118 env hT semi fuel net hlo hlo' hU hm hms hp ho
  obtain ⟨c', hc', hres⟩ := C118_result env hT semi fuel net hlo hlo' hU hm hms hp ho
  rw [hc] at hc'
  cases hc'
  have e : dRun env W semi (fuel + 1) net (ms ++ [.open calls answer]) (newDriverPool cl.connStr) = s := by
    unfold dRun
    rw [List.foldl_append]
    exact congrArg Prod.snd ho
  refine ⟨c, hc, ?_, ?_, hopen, fun ops op q h1 h2 hq hdb hg => ?_⟩
  · have := (C131.have_run env W semi (fuel + 1) net (samePlace env hP) (P := fun c => place c.world = tcpTo cl.host cl.port.toNat) (str := cl.connStr) (fun _ _ h h' => h.trans h')
      (fun n c hn => by
        rw [client_create env hcl] at hn
        cases hk : createBoltConn env W (fuel + 1) cl.user cl.password (net.reach n (tcpTo cl.host cl.port.toNat)) with
        | mk r1 c1 =>
          rw [hk] at hn
          cases hn
          rw [create_place env hP hk, hP.reached]) (ms ++ [.open calls answer]) (newDriverPool cl.connStr) ⟨rfl, fun _ h => absurd h List.not_mem_nil⟩).2
    rw [e] at this
    exact this c (List.mem_of_getElem? hc)
  · have := C89_pool env W (fuel + 1) hcl net (ms ++ [.open calls answer])
    rw [e] at this
    exact this c (List.mem_of_getElem? hc)
  · rcases hres ops op q h1 h2 hq with ⟨k, _⟩ | ⟨k1, k2, _⟩ | ⟨o, k1, k2⟩
    · exact absurd hg k
    · rcases hdb with hdb | hdb
      · exact absurd hdb k1
      · exact absurd hdb k2
    · unfold machine at k1
      rw [← k1] at k2
      exact k2

end

/-! ### Concrete cases -/

/-- A network of servers like the one of C105; the state tells which one. -/
def C131.servers : World (Endpoint × Session) where
  dial s := ((s.1, ((cServer 4).dial s.2).1), true)
  onSend s ws := let o := (cServer 4).onSend s.2 ws; ⟨(s.1, o.st), o.ok, o.segs, o.fin⟩
  onClose _ := true
  probe _ := .other

theorem C131.serves : TServes (machine cExec 0) C131.servers (·.2) where
  reply w ws t hc hd hl := (cServer_serves 4).reply w.2 ws t hc hd hl
  silent w ws h := (cServer_serves 4).silent w.2 ws h
  greet w pre h1 h2 := (cServer_serves 4).greet w.2 pre h1 h2

theorem C131.understood (ver : Ver) : Understood env0 ver C131.servers := fun w ws ts h => cServer_understood env0 ver 4 w.2 ws ts h

/-- Every server can be reached. -/
def C131.net : Net (Endpoint × Session) := noFiles fun _ e => (e, ⟨.new, ([], []), ⟨none, []⟩⟩)

theorem C131.placed : Placed C131.servers C131.net (·.1) := ⟨fun _ _ => rfl, fun _ => rfl, fun _ _ => rfl⟩

theorem C131.welcomes (e : Endpoint) (user password : Bytes) : Welcomes env0 C131.servers C131.net e user password := fun i =>
  have h := cServer_accepts 4 (p := .v4) ⟨by decide, by decide, rfl⟩ user password ⟨.new, ([], []), ⟨none, []⟩⟩
  ⟨4, .v4, [], [], [], [], ⟨rfl, h.offer, h.taken, h.answer, h.init⟩, rfl⟩

/-- One user commits a transaction with A, begins another one with B, and gives the connection back. -/
def C131.history : List DMove := [.open [.make] (.ok (.conn 0)), .user 0 (.begin_ []), .user 0 (inTx 0 "A"), .user 0 (.commit 0), .user 0 (.begin_ []), .user 0 (inTx 1 "B"),
  .reclaim (some 0) [.passivate 0] none]

/-- The next user gets the same connection. -/
def C131.again : CRes Nat × DPool (Endpoint × Session) := dOpen C131.servers (borrowed env0 C131.servers true (1 + 1) C131.net [.validate 0, .activate 0] (.ok (.conn 0)))
  (dRun env0 C131.servers true (1 + 1) C131.net C131.history (newDriverPool (cClient "p!").connStr))

theorem C131.proper : AllProper env0 C131.servers true (1 + 1) C131.net (newDriverPool (cClient "p!").connStr) (C131.history ++ [.open [.validate 0, .activate 0] (.ok (.conn 0))]) :=
  ⟨fun _ => by decide +kernel, by show custody _ 0 = _; decide +kernel, by show custody _ 0 = _; decide +kernel, by show custody _ 0 = _; decide +kernel, by show custody _ 0 = _; decide +kernel,
    by show custody _ 0 = _; decide +kernel, by show custody _ 0 = _; decide +kernel, fun _ => by decide +kernel, trivial⟩

theorem C131.second : C131.again = (.ok 0, C131.again.2) := by
  have hn : C118.number C131.again.1 = some 0 := by decide +kernel
  have key : ∀ x : CRes Nat × DPool (Endpoint × Session), C118.number x.1 = some 0 → x = (.ok 0, x.2) := by
    intro x hx
    obtain ⟨x1, x2⟩ := x
    cases x1 <;> cases hx
    rfl
  exact key _ hn

/-- `C131_partial`: the second user's connection is one to the configured address; the statement A is permanent, B is not. -/
example : ∃ c, C131.again.2.conns[0]? = some c ∧ c.world.1 = tcpTo (ascii "h") 7687 ∧ Introduced (ascii "u") (ascii "p!") c.trace := by
  have ho := C131.second
  generalize C131.again.2 = s at ho ⊢
  unfold C131.again at ho
  obtain ⟨c, h1, h2, h3, _⟩ := C131_partial env0 cClient_plain C131.net 1 C131.serves (lo := 8) (by decide) (by decide) C131.understood C131.placed
    (ms := C131.history) C118.orderly C131.proper ho
  exact ⟨c, h1, h2, h3⟩

example : C131.again.2.conns.map (fun c => (c.closed, c.txs, c.world.2.ledger.lasting.map (·.text))) = [(false, [true, true], [ascii "A"])] := by decide +kernel

/-- `C131_open_partial`: a third user, while the second one still has that connection. -/
example : ∃ s' c, dOpen C131.servers (borrowed env0 C131.servers true 2 C131.net [.make] (.ok (.conn 1)))
      (dRun env0 C131.servers true 2 C131.net (C131.history ++ [.open [.validate 0, .activate 0] (.ok (.conn 0))]) (newDriverPool (cClient "p!").connStr)) = (.ok 1, s') ∧ s'.conns[1]? = some c ∧ c.proto = .v4 := by
  have hl : (dRun env0 C131.servers true 2 C131.net (C131.history ++ [.open [.validate 0, .activate 0] (.ok (.conn 0))]) (newDriverPool (cClient "p!").connStr)).conns.length = 1 := by decide +kernel
  have := C131_open_partial env0 cClient_plain C131.net 2 (C131.welcomes _ _ _) (by intro w; simp [C131.servers])
    (C131.history ++ [.open [.validate 0, .activate 0] (.ok (.conn 0))]) (by decide +kernel)
  rw [hl] at this
  obtain ⟨s', c, n, p, more, rest, h1, h2, h3, h4, _⟩ := this
  refine ⟨s', c, h1, by rw [h2, List.getElem?_append_right (by omega), hl]; rfl, ?_⟩
  rw [h4]
  have ha := h3.answer
  have hf : ∀ i e, (firstAnswer C131.servers (C131.net.reach i e)).segs.flatten = [0, 0, 0, 4] := fun _ _ => rfl
  rw [hf] at ha
  have hn : n = 4 := by
    have := congrArg (fun l : Bytes => l[3]?) ha
    simpa using this.symm
  subst hn
  have ho := h3.offer.2.2
  cases p <;> first | rfl | cases ho

/-- The full statement is false: with the password "a/b" the client and the pool are made, but no connection can be opened. -/
theorem C131_refuted : ¬ C131_statement := by
  intro h
  obtain ⟨pool, h1, h2⟩ := h Session Nat Nat env0 (cServer 4) cExec 0 id (Script.world { rows := fun _ => [] }) 0 5 true (cOpts "a/b") (cClient "a/b") cNet 1 8 (cServer_serves 4) (fun ver => cServer_understood env0 ver 4)
    (by intro w; simp [cServer]) (by decide) (by decide) (cOpts_noString _) (cClient_made _ _) rfl (by unfold PlainHost; decide) (by decide) (by decide)
    (fun i => ⟨4, .v4, [], [], [], [], cServer_accepts 4 ⟨by decide, by decide, rfl⟩ _ _ _, rfl⟩)
  rw [pool_eq rfl] at h1
  cases h1
  have h3 := (h2 [] (fun r op hm => by cases hm)).1 rfl
  exact absurd (congrArg CRes.isOk h3) (by decide +kernel)

end Verif
