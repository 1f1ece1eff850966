/-
Which requests a call may make.
-/
import Verif.Spec.Requests
import Verif.Spec.History
import Verif.Spec.Tree
namespace Verif.Spec

/-- Requests by which any call may recover from a failure or give up the connection: RESET; if the answer is not SUCCESS the connection is closed, after rolling back
its transaction. -/
inductive Recovery (p : Proto) : PS → Prop
  | reset : Recovery p (.struct 0x0F [])
  | rollback {t : PS} (h : t ∈ rollbackTrees p) : Recovery p t
  | goodbye (h : p = .v3 ∨ p = .v4) : Recovery p (.struct 0x02 [])

/-- The query `q` with the parameters `ps` on database `db` ("" for the default) and the request for its rows. -/
inductive Ask (env : Env) (p : Proto) (q : Bytes) (ps : Entries) (db : Bytes) (inTx : Bool) : PS → Prop
  | run {pt : PS} (h : tree env p.codec (.map ps) = some pt) : Ask env p q ps db inTx (runTree p q pt db readMode inTx)
  | pull : Ask env p q ps db inTx (pullTree p)

/-- The requests of each call. -/
inductive MaySend (env : Env) (p : Proto) : Op → PS → Prop
  | query {q : Bytes} {ps : Entries} {db : Bytes} {t : PS} (h : Ask env p q ps db false t) : MaySend env p (.query q ps db) t
  | exec {q : Bytes} {ps : Entries} {db : Bytes} {t : PS} (h : Ask env p q ps db false t) : MaySend env p (.exec q ps db) t
  | txQuery {n : Nat} {q : Bytes} {ps : Entries} {db : Bytes} {t : PS} (h : Ask env p q ps db true t) : MaySend env p (.txQuery n q ps db) t
  | txExec {n : Nat} {q : Bytes} {ps : Entries} {t : PS} (h : Ask env p q ps [] false t) : MaySend env p (.txExec n q ps) t
  | txExecDb {n : Nat} {q : Bytes} {ps : Entries} {db : Bytes} {t : PS} (h : Ask env p q ps db true t) : MaySend env p (.txExecDb n q ps db) t
  | begin_ {db : Bytes} {t : PS} (h : t ∈ beginTrees p db readMode) : MaySend env p (.begin_ db) t
  | commit {n : Nat} {t : PS} (h : t ∈ commitTrees p) : MaySend env p (.commit n) t
  | recover {op : Op} {t : PS} (h : Recovery p t) (h1 : op ≠ .validateOpen) (h2 : ∀ n, op ≠ .setChunkSize n) : MaySend env p op t

/-- A request that tells the server an access mode: BEGIN or RUN with "mode" in its metadata. -/
inductive SaysMode : PS → Prop
  | begin_ {es : List (Bytes × PS)} {m : PS} (h : (ascii "mode", m) ∈ es) : SaysMode (.struct 0x11 [.map es])
  | run {q pt m : PS} {es : List (Bytes × PS)} (h : (ascii "mode", m) ∈ es) : SaysMode (.struct 0x10 [q, pt, .map es])

end Verif.Spec
