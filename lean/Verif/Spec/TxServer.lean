/-
A server that follows the Bolt protocol and has transactions: which statements of a session are permanent, and what a statement gives.
-/
import Verif.Spec.Server
import Verif.Spec.History
import Verif.Spec.Requests
import Verif.Spec.Tree
namespace Verif.Spec

/-- A statement as it reached the server.
* `text`, and `fields`: the text and the other fields of the RUN request, which are the parameters and, from version 3 on, the metadata.
* `within`: the fields of the request that began the transaction it belongs to, if any. -/
structure Stmt where
  text : Bytes
  fields : List PS
  within : Option (List PS)

/-- What a session has done to the database.
* `tx`: the fields of the request that began the open transaction, and the statements completed in it, if one is open.
* `lasting`: the statements whose effects are permanent, in order. -/
structure Ledger where
  tx : Option (List PS × List Stmt)
  lasting : List Stmt

/-- A statement run now. -/
def Ledger.stmt (l : Ledger) (q : Bytes) (fs : List PS) : Stmt := ⟨q, fs, l.tx.map (·.1)⟩

/-- A transaction can be begun only if none is open, and ended only if one is. -/
def Ledger.Allows (l : Ledger) (q : Bytes) : Prop :=
  (q = ascii "BEGIN" → l.tx = none) ∧ (q = ascii "COMMIT" ∨ q = ascii "ROLLBACK" → l.tx ≠ none)

/-- The effect of a completed statement.  Outside of a transaction it is permanent at once. -/
def Ledger.complete (l : Ledger) (q : Bytes) (fs : List PS) : Ledger :=
  if q = ascii "BEGIN" then ⟨some (fs, []), l.lasting⟩
  else if q = ascii "COMMIT" then ⟨none, l.lasting ++ (l.tx.map (·.2)).getD []⟩
  else if q = ascii "ROLLBACK" then ⟨none, l.lasting⟩
  else match l.tx with
    | some (b, work) => ⟨some (b, work ++ [l.stmt q fs]), l.lasting⟩
    | none => ⟨none, l.lasting ++ [l.stmt q fs]⟩

/-- The open transaction, if any, is lost. -/
def Ledger.drop (l : Ledger) : Ledger := ⟨none, l.lasting⟩

/-- The server's side of a session; `running` is the statement whose result was not fetched yet. -/
structure Session where
  phase : Phase
  running : Bytes × List PS
  ledger : Ledger

/-- What a statement gives: rows and metadata, or the metadata of a failure. -/
inductive Outcome where
  | rows (recs : List (List PS)) (m : List (Bytes × PS))
  | failed (m : List (Bytes × PS))

/-- Which outcomes a statement may have, after the statements of a ledger. -/
abbrev Database := Ledger → Stmt → Outcome → Prop

/-- A database about which nothing is known. -/
def anyDatabase : Database := fun _ _ _ => True

/-- The messages that begin or end a transaction, and the statements they stand for. -/
def txVerbs : List (UInt8 × Bytes) := [(0x11, ascii "BEGIN"), (0x12, ascii "COMMIT"), (0x13, ascii "ROLLBACK")]

/-- `TReply s t ts s'`: in state `s`, the request `t` may be answered with the messages `ts`, which leads to state `s'`.  A statement is complete when its result
was fetched; a failed statement has no effect.  What a statement gives is up to the database `D`, except for those that begin or end a transaction.  RESET and the
end of the session abort the open transaction. -/
inductive TReply (D : Database) : Session → PS → List PS → Session → Prop
  | init (s fs m) : s.phase = .connected → TReply D s (.struct 0x01 fs) [success m] { s with phase := .ready }
  | initFailure (s fs m) : s.phase = .connected → TReply D s (.struct 0x01 fs) [failure m] { s with phase := .failed }
  | run (s q fs m) : s.phase = .ready → s.ledger.Allows q →
      TReply D s (.struct 0x10 (.str q :: fs)) [success m] { s with phase := .streaming (q ∉ controlVerbs), running := (q, fs) }
  | runFailure (s q fs m) : s.phase = .ready → (q ∉ controlVerbs → D s.ledger (s.ledger.stmt q fs) (.failed m)) →
      TReply D s (.struct 0x10 (.str q :: fs)) [failure m] { s with phase := .failed }
  | tx (s sig q fs m) : s.phase = .ready → (sig, q) ∈ txVerbs → s.ledger.Allows q →
      TReply D s (.struct sig fs) [success m] { s with ledger := s.ledger.complete q fs }
  | txFailure (s sig q fs m) : s.phase = .ready → (sig, q) ∈ txVerbs → TReply D s (.struct sig fs) [failure m] { s with phase := .failed }
  | pull (s rows fs recs m) : s.phase = .streaming rows → (rows = false → recs = []) →
      (rows = true → D s.ledger (s.ledger.stmt s.running.1 s.running.2) (.rows recs m)) →
      TReply D s (.struct 0x3F fs) (recs.map record ++ [success m]) { s with phase := .ready, ledger := s.ledger.complete s.running.1 s.running.2 }
  | pullFailure (s rows fs recs m) : s.phase = .streaming rows → (rows = false → recs = []) →
      (rows = true → D s.ledger (s.ledger.stmt s.running.1 s.running.2) (.failed m)) →
      TReply D s (.struct 0x3F fs) (recs.map record ++ [failure m]) { s with phase := .failed }
  | ignored (s sig fs) : s.phase = .failed → sig ∉ [0x0F, 0x02] → TReply D s (.struct sig fs) [ignoredTree] s
  | reset (s m) : s.phase ≠ .new → s.phase ≠ .connected → s.phase ≠ .defunct →
      TReply D s (.struct 0x0F []) [success m] { s with phase := .ready, ledger := s.ledger.drop }
  | resetFailure (s m) : s.phase ≠ .new → s.phase ≠ .connected → s.phase ≠ .defunct →
      TReply D s (.struct 0x0F []) [failure m] { s with phase := .defunct, ledger := s.ledger.drop }
  | goodbye (s) : s.phase ≠ .new → s.phase ≠ .defunct → TReply D s (.struct 0x02 []) [] { s with phase := .defunct, ledger := s.ledger.drop }

/-- The server and the network follow the protocol (as in `Follows`), transactions are kept as `TReply` says, and statements give what the database says.  A new
session starts without transaction. -/
structure TServes {σ : Type} (D : Database) (W : World σ) (sess : σ → Session) : Prop where
  reply : ∀ w ws t, Carries t ws → (sess w).phase ≠ .defunct → (∃ ts ph, Reply (sess w).phase t ts ph) →
    (W.onSend w ws).ok = true ∧ ∃ ts, TReply D (sess w) t ts (sess (W.onSend w ws).st) ∧ Sends ts (W.onSend w ws).segs.flatten
  silent : ∀ w ws, (sess w).phase = .defunct → sess (W.onSend w ws).st = sess w ∧ (W.onSend w ws).segs.flatten = []
  greet : ∀ w pre, pre.length = 20 → pre.take 4 = [0x60, 0x60, 0xB0, 0x17] →
    (sess (W.onSend (W.dial w).1 [pre]).st).phase = .connected ∧ (sess (W.onSend (W.dial w).1 [pre]).st).ledger.tx = none ∧
    (W.onSend (W.dial w).1 [pre]).segs.flatten.length = 4

/-- The same, whatever statements give. -/
abbrev TFollows {σ : Type} (W : World σ) (sess : σ → Session) : Prop := TServes anyDatabase W sess

/-- What the caller of a connection may expect to be permanent, from the calls and their success alone.
* `tx`: the number of the open transaction, the fields of the request that began it, and the statements that succeeded in it.
* `begun`: how many transactions were begun.
* `lasting`: the statements that are permanent. -/
structure Book where
  tx : Option (Nat × List PS × List Stmt)
  begun : Nat
  lasting : List Stmt

/-- The empty book. -/
def Book.new : Book := ⟨none, 0, []⟩

/-- The ledger that the server of the book should have, if it had the permanent statements `L` before. -/
def Book.ledger (b : Book) (L : List Stmt) : Ledger := ⟨b.tx.map (·.2), L ++ b.lasting⟩

/-- A statement run on the connection: part of the open transaction, or permanent at once. -/
def Book.onConn (b : Book) (q : Bytes) (fs : List PS) : Book :=
  match b.tx with
  | some (h, bs, work) => { b with tx := some (h, bs, work ++ [⟨q, fs, some bs⟩]) }
  | none => { b with lasting := b.lasting ++ [⟨q, fs, none⟩] }

/-- A statement run through transaction `h`: part of that transaction, nothing if it is not open. -/
def Book.onTx (b : Book) (h : Nat) (q : Bytes) (fs : List PS) : Book :=
  match b.tx with
  | some (h', bs, work) => if h = h' then { b with tx := some (h', bs, work ++ [⟨q, fs, some bs⟩]) } else b
  | none => b

/-- The book after a call; `f` gives the fields of the request that the call stands for.  A call that did not succeed changes nothing. -/
def Book.after (f : Op → List PS) (b : Book) (op : Op) (ok : Bool) : Book :=
  match op, ok with
  | .query q _ _, true => b.onConn q (f op)
  | .exec q _ _, true => b.onConn q (f op)
  | .txQuery h q _ _, true => b.onTx h q (f op)
  | .txExec h q _, true => b.onTx h q (f op)
  | .txExecDb h q _ _, true => b.onTx h q (f op)
  | .begin_ _, true => { b with tx := some (b.begun, f op, []), begun := b.begun + 1 }
  | .commit _, true => ⟨none, b.begun, b.lasting ++ (b.tx.map (·.2.2)).getD []⟩
  | .rollback _, true => { b with tx := none }
  | .close, true => { b with tx := none }
  | .makeIdle, true => { b with tx := none }
  | _, _ => b

/-- The tree of parameters. -/
def paramTree (env : Env) (p : Proto) (ps : Entries) : PS := (tree env p.codec (.map ps)).getD .null

/-- The fields of a request after the first one. -/
def laterFields : PS → List PS
  | .struct _ fs => fs.tail
  | _ => []

/-- The fields, besides the text, of the request that a call stands for: its parameters and, from version 3 on, the metadata.  For Begin, the metadata. -/
def fieldsOf (env : Env) (p : Proto) (mode : AccessMode) : Op → List PS
  | .query q ps db => laterFields (runTree p q (paramTree env p ps) db mode false)
  | .exec q ps db => laterFields (runTree p q (paramTree env p ps) db mode false)
  | .txQuery _ q ps db => laterFields (runTree p q (paramTree env p ps) db mode true)
  | .txExec _ q ps => laterFields (runTree p q (paramTree env p ps) [] mode false)
  | .txExecDb _ q ps db => laterFields (runTree p q (paramTree env p ps) db mode true)
  | .begin_ db => match p with
    | .v1 | .v2 => [.map []]
    | .v3 | .v4 => [txMetaTree db mode]
  | _ => []

/-- The statement a call runs, and the transaction through which. -/
def statementOf : Op → Option Bytes
  | .query q _ _ => some q
  | .exec q _ _ => some q
  | .txQuery _ q _ _ => some q
  | .txExec _ q _ => some q
  | .txExecDb _ q _ _ => some q
  | _ => none

def throughOf : Op → Option Nat
  | .txQuery h _ _ _ => some h
  | .txExec h _ _ => some h
  | .txExecDb h _ _ _ => some h
  | _ => none

/-- Whether a call succeeded. -/
def okOf {α : Type} (r : CRes α) : Bool := match r with | .ok _ => true | _ => false

/-- The number of FAILURE messages read. -/
def failures (evs : List Ev) : Nat := evs.countP fun e => match e with | .recv (.struct .failure _) => true | _ => false

section
variable {σ : Type} (env : Env) (W : World σ)

/-- The book after some calls. -/
def booked (f : Op → List PS) (fuel : Nat) : List Op → Book → Conn σ → Book
  | [], b, _ => b
  | op :: ops, b, c =>
    let r := step env W fuel op c
    booked f fuel ops (b.after f op (okOf r.1)) r.2

end

end Verif.Spec
