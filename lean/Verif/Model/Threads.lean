/-
Goroutines sharing a connection (/repo/connection/connection.go 56-90, 373-375: `mutex`, `Lock`, `defer Unlock`).

A call is a program of atomic actions on the connection: reading or writing one message, reading or changing fields.  Goroutines interleave between the actions.  Only
`runQuery` takes the mutex; `Begin`, `Commit`, `Rollback`, `Close` and the checks before `runQuery` do not.
-/
import Verif.Model.Conn
namespace Verif

/-- The fields that are written after the connection was created: `transaction`, `closed`, `chunkSize`, `timeout` of `Connection` (connection.go 56-90), and `closed` of a
`boltTransaction` (transaction.go 10-13).  The other ones (`boltProtocol`, `accessMode`, `readWrite`, `conn`, `openQuery` and so on) are only read then; a `net.Conn` may be used by several
goroutines. -/
inductive Field where
  | transaction | closed | chunkSize | timeout
  | txClosed (h : Nat)
  deriving DecidableEq

/-- An access to a field: which one, and whether it is written. -/
structure Touch where
  field : Field
  write : Bool
  deriving DecidableEq

/-- Reading and writing a field. -/
abbrev Touch.rd (f : Field) : Touch := ⟨f, false⟩
abbrev Touch.wr (f : Field) : Touch := ⟨f, true⟩

/-- What is left to do of a call: it has returned (or panicked), or it will perform an atomic action, and continue depending on the connection it found.  `t` lists the fields that
the action accesses. -/
inductive Prog (σ α : Type) where
  | done (r : CRes α)
  | act (t : List Touch) (g : Conn σ → Conn σ) (k : Conn σ → Prog σ α)

namespace Prog
variable {σ α β : Type}

/-- Execute a program without interruption. -/
def run : Prog σ α → CM σ α
  | done r => fun c => (r, c)
  | act _ g k => fun c => run (k c) (g c)

/-- A single action that accesses these fields. -/
def prim (t : List Touch) (m : CM σ α) : Prog σ α := .act t (fun c => (m c).2) (fun c => .done (m c).1)

/-- Go's `x, err := m; if err != nil { return err }; f(x)`. -/
def bind : Prog σ α → (α → Prog σ β) → Prog σ β
  | done (.ok a), f => f a
  | done (.err e), _ => done (.err e)
  | done .panic, _ => done .panic
  | done .fuel, _ => done .fuel
  | act t g k, f => act t g fun c => bind (k c) f

instance : Monad (Prog σ) where
  pure a := .done (.ok a)
  bind := Prog.bind

/-- `return err`. -/
def fail (e : Err) : Prog σ α := .done (.err e)

/-- Replace the error. -/
def mapErr (f : Err → Err) : Prog σ α → Prog σ α
  | done (.err e) => done (.err (f e))
  | done r => done r
  | act t g k => act t g fun c => mapErr f (k c)

/-- `m(); return e`. -/
def thenFail : Prog σ α → Err → Prog σ β
  | done (.ok _), e => done (.err e)
  | done (.err _), e => done (.err e)
  | done .panic, _ => done .panic
  | done .fuel, _ => done .fuel
  | act t g k, e => act t g fun c => thenFail (k c) e

section
variable (env : Env) (W : World σ)

/-- `sendMessage` (connection.go 533-538): the chunk size is read, and the timeout for every write (28-41). -/
abbrev send (v : Val) : Prog σ Unit := prim [.rd .chunkSize, .rd .timeout] (sendMessage env W v)

/-- Reading a message (connection.go 549-552): the timeout is read for every read (43-54). -/
abbrev recv : Prog σ Val := prim [.rd .timeout] (receive env)

/-- `consume` (connection.go 549-571) as a program. -/
def consumeWith (reset : Prog σ Unit) : Prog σ Val := do
  let v ← recv env
  match asFailure v with
  | some md =>
    Prog.bind (Prog.mapErr (fun _ => (GoErr.failure md).wrap "reset failed") reset) fun _ =>
      Prog.fail ((GoErr.failure md).wrap "Neo4J reported a failure for the runQuery")
  | none => Pure.pure v

/-- The loop of `reset` (connection.go 582-607) as a program. -/
def resetLoop (close : Prog σ Unit) : Nat → Prog σ Unit
  | 0 => .done .fuel
  | n + 1 => do
    let v ← Prog.mapErr (fun e => e.wrap "An error occurred decoding reset message response") (recv env)
    if isIgnored v then resetLoop close n
    else match asSuccess v with
      | some _ => Pure.pure ()
      | none =>
        match asFailure v with
        | some md => Prog.thenFail close ((GoErr.failure md).wrap "Error resetting session. CLOSING SESSION!")
        | none => Prog.thenFail close GoErr.badConn

/-- `reset` (connection.go 573-608) as a program. -/
def resetWith (close : Prog σ Unit) : Prog σ Unit := do
  Prog.mapErr (fun e => e.wrap "An error occurred encoding reset message") (send env W newResetMessage)
  .act [] id fun c => resetLoop env close (streamLen c.segs + 1)

/-- The common part of `Begin`, `Commit`, `Rollback` (connection.go 483-519, transaction.go 63-103, 124-164) as a program. -/
def txExchange (consume : Prog σ Val) (msg : Val) (what : String) : Prog σ Unit := do
  send env W msg
  if isTxMsg msg then do
    let run ← consume
    match asSuccess run with
    | none => Prog.fail (.new what)
    | some _ => Pure.pure ()
  else do
    let c ← prim [] CM.get
    send env W c.proto.pullAllMessage
    let run ← consume
    let pull ← consume
    match asSuccess run with
    | none => Prog.fail (.new what)
    | some _ =>
      match asSuccess pull with
      | none => Prog.fail (.new what)
      | some _ => Pure.pure ()

/-- `Rollback` (transaction.go 110-169) as a program. -/
def rollbackWith (consume : Prog σ Val) (h : Nat) : Prog σ Unit := do
  let c ← prim [.rd (.txClosed h)] CM.get
  if c.txClosed h then Prog.fail (.new "Transaction already closed")
  else do
    let c ← prim [] CM.get
    txExchange env W consume c.proto.txRollbackMessage "Unrecognized response type rolling back transaction"
    prim [.wr .transaction, .wr (.txClosed h)] (CM.modify (·.endTx h))

/-- `if c.transaction != nil { c.transaction.Rollback() }` (connection.go 433-438, 463-465): the field is read twice, and the call panics if it is nil then. -/
def rollbackCurrent (rollback : Nat → Prog σ Unit) : Prog σ Unit := do
  let c ← prim [.rd .transaction] CM.get
  if c.cur.isSome then do
    let c ← prim [.rd .transaction] CM.get
    match c.cur with
    | some h => rollback h
    | none => .done .panic
  else Pure.pure ()

/-- `Close` (connection.go 428-460) as a program. -/
def closeWith (rollback : Nat → Prog σ Unit) : Prog σ Unit := do
  let c ← prim [.rd .closed] CM.get
  if c.closed then Prog.fail errClosed
  else do
    rollbackCurrent rollback
    let c ← prim [] CM.get
    match c.proto.closeMessage with
    | some m => send env W m
    | none => Pure.pure ()
    prim [.wr .closed] (closeSock W)

/-- `reset` (connection.go 573-608) as a program. -/
def reset : Nat → Prog σ Unit
  | 0 => .done .fuel
  | fuel + 1 => resetWith env W (closeWith env W (rollbackWith env W (consumeWith env (reset fuel))))

/-- `consume` (connection.go 549-571) as a program. -/
def consume (fuel : Nat) : Prog σ Val := consumeWith env (reset env W fuel)

/-- `Commit` (transaction.go 49-108) as a program. -/
def commit (fuel : Nat) (h : Nat) : Prog σ Unit := do
  let c ← prim [.rd (.txClosed h)] CM.get
  if c.txClosed h then Prog.fail (.new "Transaction already closed")
  else do
    let c ← prim [] CM.get
    txExchange env W (consume env W fuel) c.proto.txCommitMessage "Unrecognized response type committing transaction"
    prim [.wr .transaction, .wr (.txClosed h)] (CM.modify (·.endTx h))

/-- `Rollback` (transaction.go 110-169) as a program. -/
def rollback (fuel : Nat) (h : Nat) : Prog σ Unit := rollbackWith env W (consume env W fuel) h

/-- `Close` (connection.go 428-460) as a program. -/
def close (fuel : Nat) : Prog σ Unit := closeWith env W (rollback env W fuel)

/-- `MakeIdle` (connection.go 462-468) as a program. -/
def makeIdle (fuel : Nat) : Prog σ Unit := rollbackCurrent (rollback env W fuel)

/-- `BeginWithDatabase` (connection.go 470-527) as a program.  It returns what it finds in the field `transaction` (526); for nil the model returns 0. -/
def beginWithDatabase (fuel : Nat) (db : Bytes) : Prog σ Nat := do
  let c ← prim [.rd .transaction] CM.get
  if c.cur.isSome then Prog.fail (.new "transaction already open")
  else do
    let c ← prim [.rd .closed] CM.get
    if c.closed then Prog.fail (.new "can not open transaction on closed connection")
    else do
      let c ← prim [] CM.get
      txExchange env W (consume env W fuel) (c.proto.txBeginMessage db c.mode) "Unrecognized response type beginning transaction"
      prim [.wr .transaction] (CM.modify fun c => { c with txs := c.txs ++ [false], cur := some c.txs.length })
      let c ← prim [.rd .transaction] CM.get
      Pure.pure (c.cur.getD 0)

/-- The loop of `runQuery` (connection.go 409-425) as a program. -/
def rowsLoop (consume : Prog σ Val) : Nat → List (List Val) → Prog σ (List (List Val) × Entries)
  | 0, _ => .done .fuel
  | n + 1, output => do
    let resp ← consume
    match asSuccess resp with
    | some md => Pure.pure (output, md)
    | none =>
      match asRecord resp with
      | some fs => rowsLoop consume n (output ++ [fs])
      | none => Prog.fail (.new "Unrecognized response type getting next runQuery row")

/-- `runQuery` (connection.go 373-426) between `Lock` and `Unlock` as a program. -/
def runQuery (fuel : Nat) (query : Bytes) (params : Entries) (db : Bytes) (inTx : Bool) : Prog σ (List (List Val) × Entries) := do
  let c ← prim [.rd .closed] CM.get
  if c.closed then Prog.fail (.new "connection already closed")
  else do
    let c ← prim [] CM.get
    send env W (c.proto.runMessage query params db c.mode (!inTx))
    send env W c.proto.pullAllMessage
    let resp ← consume env W fuel
    match asSuccess resp with
    | none => Prog.fail (.plain "unexpected response type")
    | some _ => .act [] id fun c => rowsLoop (consume env W fuel) (streamLen c.segs + 1) []

end
end Prog

/-- A call of `Query`, `Exec` and their variants on the connection or on a transaction: the arguments of `runQuery` (connection.go 339-371, transaction.go 15-47). -/
structure Req where
  query : Bytes
  params : Entries
  db : Bytes
  inTx : Bool

/-- Rows and metadata. -/
abbrev Rows := List (List Val) × Entries

/-- A goroutine: the calls it still has to make, and the rest of the call it is executing.  `locked`: the call took the mutex. -/
structure Thread (σ ρ : Type) where
  todo : List ρ
  cur : Option (ρ × Prog σ Rows)

/-- The connection, who holds its mutex, the goroutines, and the calls that returned so far, with their results. -/
structure Sys (σ ρ : Type) where
  conn : Conn σ
  holder : Option Nat
  thr : Nat → Thread σ ρ
  log : List (Nat × ρ × CRes Rows)

/-- Set one goroutine. -/
def Sys.setThr {σ ρ : Type} (s : Sys σ ρ) (i : Nat) (t : Thread σ ρ) : Nat → Thread σ ρ := fun j => if j = i then t else s.thr j

/-- How a call is executed: a check before the lock (`pre`: the result if it refuses), whether the mutex is taken, and the program. -/
structure Code (σ ρ : Type) where
  pre : ρ → Conn σ → Option (CRes Rows)
  locks : ρ → Bool
  prog : ρ → Prog σ Rows

/-- One step of goroutine `i`, if it can make one.
* It starts its next call: the check refuses the call, or it takes the mutex (if free) and starts the program, or it starts without the mutex.
* It performs the next action of its program.
* Its program has ended: it releases the mutex (if it was taken) and returns. -/
def Sys.step {σ ρ : Type} (K : Code σ ρ) (i : Nat) (s : Sys σ ρ) : Option (Sys σ ρ) :=
  match (s.thr i).cur with
  | none =>
    match (s.thr i).todo with
    | [] => none
    | r :: rs =>
      match K.pre r s.conn with
      | some res => some { s with thr := s.setThr i ⟨rs, none⟩, log := s.log ++ [(i, r, res)] }
      | none =>
        if K.locks r then
          match s.holder with
          | some _ => none
          | none => some { s with holder := some i, thr := s.setThr i ⟨rs, some (r, K.prog r)⟩ }
        else some { s with thr := s.setThr i ⟨rs, some (r, K.prog r)⟩ }
  | some (r, .act _ g k) => some { s with conn := g s.conn, thr := s.setThr i ⟨(s.thr i).todo, some (r, k s.conn)⟩ }
  | some (r, .done res) =>
    some { s with holder := if K.locks r then none else s.holder, thr := s.setThr i ⟨(s.thr i).todo, none⟩, log := s.log ++ [(i, r, res)] }

/-- Let the goroutines named in the schedule step, one after the other; a goroutine that cannot step waits. -/
def Sys.sched {σ ρ : Type} (K : Code σ ρ) : List Nat → Sys σ ρ → Sys σ ρ
  | [], s => s
  | i :: is, s => Sys.sched K is ((s.step K i).getD s)

/-- The start: nobody has done anything. -/
def Sys.init {σ ρ : Type} (c : Conn σ) (todo : Nat → List ρ) : Sys σ ρ := ⟨c, none, fun i => ⟨todo i, none⟩, []⟩

section
variable {σ : Type} (env : Env) (W : World σ)

/-- `Query`/`Exec`: the multi-database check (connection.go 343-346, 360-363; transaction.go 19-22, 36-39), then `runQuery` under the mutex. -/
def queryCode (fuel : Nat) : Code σ Req where
  pre r c := match (checkDb r.db c).1 with
    | .ok _ => none
    | .err e => some (.err e)
    | .panic => some .panic
    | .fuel => some .fuel
  locks _ := true
  prog r := Prog.runQuery env W fuel r.query r.params r.db r.inTx

/-- The same call executed alone. -/
def Req.alone (fuel : Nat) (r : Req) : CM σ Rows := do
  checkDb r.db
  runQuery env W fuel r.query r.params r.db r.inTx

/-- A call of any kind: a query, or one of the calls that do not lock (connection.go 307-337, 428-527; transaction.go 49-173). -/
inductive AnyReq where
  | query (r : Req)
  | begin_ (db : Bytes)
  | commit (h : Nat)
  | rollback (h : Nat)
  | close
  | makeIdle
  | validateOpen
  | isClosed (h : Nat)
  | setChunkSize (n : UInt16)
  | setTimeout

/-- The results of calls that return no rows. -/
def noRows {α : Type} : α → Rows := fun _ => ([], [])

/-- transaction.go 171-173 `IsClosed`. -/
def isClosed (h : Nat) : CM σ Bool := fun c => (.ok (c.txClosed h), c)

/-- connection.go 335-337 `SetTimeout`: there are no timeouts in `Conn` (for these see Model/ConnNet.lean). -/
def setTimeout : CM σ Unit := Pure.pure ()

/-- Queries lock; the other calls do not.  (The handle that `Begin` returns and the answers of `ValidateOpen` and `IsClosed` are left out of the results.) -/
def anyCode (fuel : Nat) : Code σ AnyReq where
  pre
    | .query r, c => (queryCode env W fuel).pre r c
    | _, _ => none
  locks
    | .query _ => true
    | _ => false
  prog
    | .query r => Prog.runQuery env W fuel r.query r.params r.db r.inTx
    | .begin_ db => Prog.bind (Prog.beginWithDatabase env W fuel db) fun x => Pure.pure (noRows x)
    | .commit h => Prog.bind (Prog.commit env W fuel h) fun x => Pure.pure (noRows x)
    | .rollback h => Prog.bind (Prog.rollback env W fuel h) fun x => Pure.pure (noRows x)
    | .close => Prog.bind (Prog.close env W fuel) fun x => Pure.pure (noRows x)
    | .makeIdle => Prog.bind (Prog.makeIdle env W fuel) fun x => Pure.pure (noRows x)
    | .validateOpen => Prog.bind (Prog.prim [.rd .closed] (validateOpen W)) fun x => Pure.pure (noRows x)
    | .isClosed h => Prog.bind (Prog.prim [.rd (.txClosed h)] (isClosed h)) fun x => Pure.pure (noRows x)
    | .setChunkSize n => Prog.bind (Prog.prim [.wr .chunkSize] (setChunkSize n)) fun x => Pure.pure (noRows x)
    | .setTimeout => Prog.bind (Prog.prim [.wr .timeout] setTimeout) fun x => Pure.pure (noRows x)

/-- The same call executed alone. -/
def AnyReq.alone (fuel : Nat) : AnyReq → CM σ Rows
  | .query r => r.alone env W fuel
  | .begin_ db => do
    let x ← beginWithDatabase env W fuel db
    Pure.pure (noRows x)
  | .commit h => do
    let x ← Verif.commit env W fuel h
    Pure.pure (noRows x)
  | .rollback h => do
    let x ← Verif.rollback env W fuel h
    Pure.pure (noRows x)
  | .close => do
    let x ← Verif.close env W fuel
    Pure.pure (noRows x)
  | .makeIdle => do
    let x ← Verif.makeIdle env W fuel
    Pure.pure (noRows x)
  | .validateOpen => do
    let x ← Verif.validateOpen W
    Pure.pure (noRows x)
  | .isClosed h => do
    let x ← Verif.isClosed h
    Pure.pure (noRows x)
  | .setChunkSize n => do
    let x ← Verif.setChunkSize n
    Pure.pure (noRows x)
  | .setTimeout => do
    let x ← Verif.setTimeout
    Pure.pure (noRows x)

end
end Verif
