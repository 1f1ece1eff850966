/-
C115  From the options of a client to the results of its statements: the whole way.
-/
import Verif.Props.C89
import Verif.Props.C105
import Verif.Props.C110
import Verif.Props.C116
namespace Verif
open Spec

namespace Spec

/-- What the caller of a fresh connection `c` to a database with a state is promised about the history `ops` followed by the statement `op`: the statement gives what
the database says, in the state that the statements that succeeded before have left it in (those of transactions that were not committed left out). -/
def Answered {σ δ : Type} (env : Env) (W : World σ) (sess : σ → Session) (exec : δ → Stmt → δ × Outcome) (start : δ) (fuel : Nat) (c : Conn σ) (ops : List Op) (op : Op) (q : Bytes) : Prop :=
  let b := booked env W (fieldsOf env c.proto c.mode) fuel ops .new c
  let before := (sess c.world).ledger.lasting ++ b.lasting ++ (b.tx.map (·.2.2)).getD []
  let state := before.foldl (fun d s => (exec d s).1) start
  Conveys env c.proto.codec (withRows op) (exec state ⟨q, fieldsOf env c.proto c.mode op, b.tx.map (·.2.1)⟩).2 (resultOf env W fuel op (run env W fuel ops c))

/-- And about the database afterwards: the permanent statements are those that were permanent before, and those that succeeded outside of transactions or in a
transaction that was committed. -/
def Remains {σ : Type} (env : Env) (W : World σ) (sess : σ → Session) (fuel : Nat) (c : Conn σ) (ops : List Op) : Prop :=
  (sess (run env W fuel ops c).world).ledger.lasting = (sess c.world).ledger.lasting ++ (booked env W (fieldsOf env c.proto c.mode) fuel ops .new c).lasting

end Spec

/-- Full statement: a client is made from host, port and credentials.  At that address there is a server that accepts these credentials, follows the protocol, and has a
database.  Then a connection can be opened, and every statement run over it gives what the database says. -/
def C115_statement : Prop := ∀ (σ δ : Type) (env : Env) (exec : δ → Stmt → δ × Outcome) (start : δ) (W : World σ) (sess : σ → Session) (semi : Bool) (opts : List (Option ClientOpt))
  (cl : Client) (net : Net σ) (i fuel : Nat) (n : UInt8) (p : Proto) (more rest : Bytes),
  TServes (machine exec start) W sess → ¬ GivesString opts → newClient semi opts = .ok cl → cl.routing = false → PlainHost cl.host →
  cl.user.length ≤ 65535 → cl.password.length ≤ 65535 → AcceptsSession env W cl.user cl.password (net.reach i (tcpTo cl.host cl.port.toNat)) n p more rest →
  ∃ c, cl.driverOpen env W semi (fuel + 1) net i = .ok (.ok (), c) ∧ c.proto = p ∧
    ∀ ops op q, (∀ o ∈ ops ++ [op], o.Fine env p.codec 8) → PlainCall (ops ++ [op]) → Through env W (fieldsOf env c.proto c.mode) (fuel + 1) (ops ++ [op]) .new c →
      statementOf op = some q → (∃ a, resultOf env W (fuel + 1) op (run env W (fuel + 1) ops c) = .ok a) → Answered env W sess exec start (fuel + 1) c ops op q

section
variable {σ δ : Type} (env : Env) {exec : δ → Stmt → δ × Outcome} {start : δ} {W : World σ} {sess : σ → Session} (hT : TServes (machine exec start) W sess)
  {semi : Bool} {opts : List (Option ClientOpt)} {cl : Client} (hcl : PlainClient semi opts cl) (hr : cl.routing = false)

include hcl hr in
/-- `Open` of a plain client dials the configured address and introduces itself with the configured credentials. -/
theorem driverOpen_eq (fuel : Nat) (net : Net σ) (i : Nat) : cl.driverOpen env W semi fuel net i =
    .ok (createBoltConn env W fuel cl.user cl.password (net.reach i (tcpTo cl.host cl.port.toNat))) := by
  have h := C89.createFrom_tcp env W semi fuel net (plain_parse hcl.noString hcl.made hcl.host hcl.user hcl.password fun _ => hcl.paths) rfl i
  rw [C89.tcpTo_eq]
  unfold Client.driverOpen Client.newDriver
  rw [if_neg (by simp [hr])]
  exact h

include hT hcl hr

/-- True if credentials and file names have no characters with a meaning in connection strings, the version number arrives in one piece, the server's answers can be
decoded, and no failure is reported inside a transaction before the last call.  Then also the failures are those of the database, as long as the session is not
over, and the database keeps what it should.  Missing from the full statement: the other credentials, a version number in pieces, and what follows a failure inside a
transaction. -/
theorem C115_partial {net : Net σ} {i : Nat} (fuel : Nat) {n : UInt8} {p : Proto} {more rest more' : Bytes} {segs : List Bytes}
    (ha : AcceptsSession env W cl.user cl.password (net.reach i (tcpTo cl.host cl.port.toNat)) n p more rest)
    (hs : (firstAnswer W (net.reach i (tcpTo cl.host cl.port.toNat))).segs = ([0, 0, 0, n] ++ more') :: segs) (hU : Understood env p.codec W) {lo : Nat} (hlo : 8 ≤ lo) (hlo' : lo ≤ 65535) :
    ∃ c, cl.driverOpen env W semi (fuel + 1) net i = .ok (.ok (), c) ∧ c.proto = p ∧
      (∀ ops op q, (∀ o ∈ ops ++ [op], o.Fine env p.codec lo) → PlainCall (ops ++ [op]) → Undisturbed env W (fieldsOf env c.proto c.mode) (fuel + 1) (ops ++ [op]) .new c →
        statementOf op = some q → (p = .v4 ∨ dbOf op = []) → (run env W (fuel + 1) ops c).closed = false → (sess (run env W (fuel + 1) ops c).world).phase ≠ .defunct →
        Answered env W sess exec start (fuel + 1) c ops op q) ∧
      ∀ ops, (∀ o ∈ ops, o.Fine env p.codec lo) → PlainCall ops → Undisturbed env W (fieldsOf env c.proto c.mode) (fuel + 1) ops .new c → Remains env W sess (fuel + 1) c ops := by
  obtain ⟨c, h1, h2⟩ := C110_partial env W (fuel + 1) hcl.short.1 hcl.short.2 ha hs
  refine ⟨c, by rw [driverOpen_eq env hcl hr, h1], h2.proto, fun ops op q hf hpl hun hq hdb hc hd => ?_, fun ops hf hpl hun => ?_⟩
  · have := h2.proto
    exact C105_machine_partial env hT hlo hcl.short.1 hcl.short.2 h1 (by rw [this]; exact hU) hlo' (by rw [this]; exact hf) hpl hun hq ⟨hc, hd⟩ (by rw [this]; exact hdb)
  · have := h2.proto
    exact C80_atomic_partial env hT hlo hcl.short.1 hcl.short.2 h1 (by rw [this]; exact hU) hlo' (by rw [this]; exact hf) hpl hun

/-- For every history, also after failures inside transactions: while the session is not over, a statement gives what the database says in the state described by the
account of C116. -/
theorem C115_account_partial {net : Net σ} {i : Nat} (fuel : Nat) {n : UInt8} {p : Proto} {more rest more' : Bytes} {segs : List Bytes}
    (ha : AcceptsSession env W cl.user cl.password (net.reach i (tcpTo cl.host cl.port.toNat)) n p more rest)
    (hs : (firstAnswer W (net.reach i (tcpTo cl.host cl.port.toNat))).segs = ([0, 0, 0, n] ++ more') :: segs) (hU : Understood env p.codec W) {lo : Nat} (hlo : 8 ≤ lo) (hlo' : lo ≤ 65535) :
    ∃ c, cl.driverOpen env W semi (fuel + 1) net i = .ok (.ok (), c) ∧ c.proto = p ∧
      ∀ ops op q, (∀ o ∈ ops ++ [op], o.Fine env p.codec lo) → PlainCall (ops ++ [op]) → statementOf op = some q → (p = .v4 ∨ dbOf op = []) → Ongoing sess (run env W (fuel + 1) ops c) →
        let a := account env W (fieldsOf env c.proto c.mode) (fuel + 1) ops .new c
        let before := (sess c.world).ledger.lasting ++ a.lasting ++ (a.work.map (·.2)).getD []
        let state := before.foldl (fun d s => (exec d s).1) start
        Conveys env c.proto.codec (withRows op) (exec state ⟨q, fieldsOf env c.proto c.mode op, a.work.map (·.1)⟩).2 (resultOf env W (fuel + 1) op (run env W (fuel + 1) ops c)) := by
  obtain ⟨c, h1, h2⟩ := C110_partial env W (fuel + 1) hcl.short.1 hcl.short.2 ha hs
  refine ⟨c, by rw [driverOpen_eq env hcl hr, h1], h2.proto, fun ops op q hf hpl hq hdb hg => ?_⟩
  have hp := h2.proto
  rcases C116_result env hT hlo hcl.short.1 hcl.short.2 h1 (by rw [hp]; exact hU) hlo' (by rw [hp]; exact hf) hpl hq with ⟨k, _⟩ | ⟨k1, k2, _⟩ | ⟨o, k1, k2⟩
  · exact absurd hg k
  · rcases hdb with hdb | hdb
    · exact absurd (hp.trans hdb) k1
    · exact absurd hdb k2
  · unfold machine at k1
    rw [← k1] at k2
    exact k2

end

/-! ### A concrete server and client -/

/-- The server of C105 accepts all credentials. -/
theorem cServer_accepts (n : UInt8) {p : Proto} (h : offered n p) (user password : Bytes) (w : Session) : AcceptsSession env0 (cServer n) user password w n p [] [] where
  dial := rfl
  offer := h
  taken := rfl
  answer := rfl
  init ws hi := by
    have hc : ∃ fs, Carries (.struct 0x01 fs) ws := by
      obtain ⟨b, h1, h2⟩ := hi
      cases p <;> obtain ⟨es, _, h3⟩ := h2 <;> exact ⟨_, b, h1, h3⟩
    obtain ⟨fs, hc⟩ := hc
    have e : (cServer n).onSend (firstAnswer (cServer n) w).st ws = ⟨{ w with phase := .ready, ledger := w.ledger.drop }, true, [sSuccess.flatten], .broken⟩ := by
      show (cServer n).onSend { w with phase := .connected, ledger := w.ledger.drop } ws = _
      simp only [cServer, requestOf_carries hc]
      rfl
    rw [e]
    exact ⟨rfl, [], .struct .success [.map []], ⟨[0xB1, 0x70, 0xA0], sSuccess.flatten, [], by simp, ⟨[[0xB1, 0x70, 0xA0]], by simp [GoodChunks], rfl, rfl⟩,
      ⟨[0xB1], [0xA0], Or.inl ⟨by decide, rfl⟩, ⟨[0xA0], [], ⟨[0xA0], [], Or.inl ⟨by decide, rfl⟩, rfl, rfl⟩, rfl, rfl⟩, rfl⟩, rfl⟩, by cases p <;> rfl⟩

/-- This server is found everywhere. -/
def cNet : Net Session := ⟨⟨fun _ => none, fun _ => [], fun _ _ => none⟩, fun _ _ => ⟨.new, ([], []), ⟨none, []⟩⟩⟩

/-- The options for host h, port 7687, user u and the given password. -/
def cOpts (password : String) : List (Option ClientOpt) := [some (.hostPort (ascii "h") 7687), some (.basicAuth (ascii "u") (ascii password))]

/-- The client made from them. -/
def cClient (password : String) : Client :=
  { host := ascii "h", port := 7687, user := ascii "u", password := ascii password, timeout := 60 * 1000000000, chunkSize := 65535,
    connStr := ascii "bolt://u:" ++ ascii password ++ ascii "@h:7687" }

theorem cOpts_noString (password : String) : ¬ GivesString (cOpts password) := by
  rintro ⟨s, h⟩
  simp [cOpts] at h

theorem cClient_made (semi : Bool) (password : String) : newClient semi (cOpts password) = .ok (cClient password) := by
  have hd : Url.decimal 7687 = ascii "7687" := by decide +kernel
  show Client.build { host := ascii "h", port := 7687, user := ascii "u", password := ascii password, timeout := 60 * 1000000000, chunkSize := 65535 } = _
  unfold Client.build
  rw [if_neg (show ascii "h" ≠ [] by decide), if_neg (show ¬ (7687 : Int) ≤ 0 by decide), if_neg (show ascii "u" ≠ [] by decide)]
  unfold cClient baseStr
  dsimp only
  rw [show (7687 : Int).toNat = 7687 from rfl, hd]
  simp [ascii]

/-- The full statement is false: with the password "a/b", the client is made but can not open a connection. -/
theorem C115_refuted : ¬ C115_statement := by
  intro h
  obtain ⟨c, h1, _⟩ := h Session Nat env0 cExec 0 (cServer 4) id true (cOpts "a/b") (cClient "a/b") cNet 0 1 4 .v4 [] [] (cServer_serves 4) (cOpts_noString _) (cClient_made _ _) rfl
    (by unfold PlainHost; decide) (by decide) (by decide) (cServer_accepts 4 ⟨by decide, by decide, rfl⟩ _ _ _)
  have h2 : connectionConfig true (cClient "a/b").connStr = .error (.plain "an error occurred parsing bolt URL") := by
    unfold connectionConfig
    rw [show Url.parse (cClient "a/b").connStr = none by decide +kernel]
  unfold Client.driverOpen Client.newDriver at h1
  rw [if_neg (by decide)] at h1
  change createFrom env0 (cServer 4) true (1 + 1) cNet (cClient "a/b").connStr 0 = _ at h1
  unfold createFrom at h1
  rw [h2] at h1
  cases h1

/-- With the password "p!" it can. -/
theorem cClient_plain : PlainClient true (cOpts "p!") (cClient "p!") where
  noString := cOpts_noString _
  made := cClient_made _ _
  host := by unfold PlainHost; decide
  user := by unfold PlainUser PlainChar; decide
  password := by unfold PlainPassword PlainChar; decide
  paths := by unfold PlainPath; decide
  short := by decide

example : ∃ c, (cClient "p!").driverOpen env0 (cServer 4) true 2 cNet 0 = .ok (.ok (), c) ∧ c.proto = .v4 := by
  obtain ⟨c, h1, h2, _⟩ := C115_partial env0 (cServer_serves 4) cClient_plain rfl (net := cNet) (i := 0) (p := .v4) 1 (cServer_accepts 4 ⟨by decide, by decide, rfl⟩ _ _ _) (more' := []) (segs := []) rfl
    (cServer_understood env0 _ 4) (lo := 8) (by decide) (by decide)
  exact ⟨c, h1, h2⟩

/-- The connection, and a history that meets the conditions (see C105 for the others). -/
def cConn : Conn Session := (createBoltConn env0 (cServer 4) 2 (ascii "u") (ascii "p!") ⟨.new, ([], []), ⟨none, []⟩⟩).2

example : (cClient "p!").driverOpen env0 (cServer 4) true 2 cNet 0 = .ok (.ok (), cConn) := by
  rw [driverOpen_eq env0 cClient_plain rfl]
  exact congrArg Except.ok (CRes.kind_ok (by decide +kernel))

example : Undisturbed env0 (cServer 4) (fieldsOf env0 cConn.proto cConn.mode) 2 (someAsked ++ [askTx 1 "B"] ++ [askTx 1 "C"]) .new cConn ∧
    told (resultOf env0 (cServer 4) 2 (askTx 1 "B") (run env0 (cServer 4) 2 someAsked cConn)) = some true ∧
    told (resultOf env0 (cServer 4) 2 (askTx 1 "C") (run env0 (cServer 4) 2 (someAsked ++ [askTx 1 "B"]) cConn)) = some false := by decide +kernel

end Verif
