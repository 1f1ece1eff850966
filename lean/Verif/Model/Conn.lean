/-
A connection and its transactions (/repo/connection/connection.go, transaction.go) talking to an arbitrary peer over an arbitrary network.

The network and the server are a `World`: whatever the driver writes, the world decides whether the write succeeds, which bytes arrive from the
server afterwards (in which segments), and how the stream ends after them (EOF, or an error such as a timeout).  Everything the driver
writes and every message it decodes is recorded in `trace`.
-/
import Verif.Model.Protocol
import Verif.Model.Chunk
import Verif.Model.Frame
namespace Verif

/-- What the world does with one message: new state, whether all writes succeeded, the segments that arrive from now on before the next
write, and how the stream ends after them. -/
structure SendOut (σ : Type) where
  st : σ
  ok : Bool
  segs : List Bytes
  fin : StreamEnd

/-- Result of reading one byte with an expired deadline (connection.go 317-326). -/
inductive Probe where
  | data | eof | other
  deriving DecidableEq, Repr

/-- Network and server, with state `σ`.  `onSend` receives the list of `Write` calls the encoder makes for one message.  The driver never reads between
two writes of one message, so it is enough to let segments arrive when the message is complete. -/
structure World (σ : Type) where
  dial : σ → σ × Bool
  onSend : σ → List Bytes → SendOut σ
  onClose : σ → Bool
  probe : σ → Probe

/-- Observable network events.
* `sent ws`: the `Write` calls for one message (all of them were attempted, up to the first that failed).
* `recv v`: a message was read and decoded.
* `closed`: the socket was closed. -/
inductive Ev where
  | sent (ws : List Bytes)
  | recv (v : Val)
  | closed

/-- connection.go 56-90 `Connection`, without credentials and TLS settings (see `Config`) and without `openQuery`, which no code sets.
`sock`: the network connection is open.  `txs`: the `closed` flag of each `boltTransaction` created so far (transaction.go 10-13), a handle
is an index into it; `cur` is the field `transaction`.  `version`, `versionBytes`: the fields `protocolVersion`, `protocolVersionBytes`. -/
structure Conn (σ : Type) where
  proto : Proto
  version : Int
  versionBytes : Bytes
  mode : AccessMode
  chunkSize : Nat
  closed : Bool
  sock : Bool
  txs : List Bool
  cur : Option Nat
  world : σ
  segs : List Bytes
  fin : StreamEnd
  trace : List Ev

/-- Outcome of a call: value, error, panic.  `fuel`: the recursion reset → Close → Rollback → consume → reset did not end within the
given bound (see C45). -/
inductive CRes (α : Type) where
  | ok (a : α)
  | err (e : Err)
  | panic
  | fuel

/-- A call on a connection. -/
def CM (σ α : Type) := Conn σ → CRes α × Conn σ

namespace CM
variable {σ α β : Type}

/-- Return a value. -/
def pure (a : α) : CM σ α := fun c => (.ok a, c)

/-- Go's `x, err := m; if err != nil { return err }; f(x)`. -/
def bind (m : CM σ α) (f : α → CM σ β) : CM σ β := fun c =>
  match m c with
  | (.ok a, c') => f a c'
  | (.err e, c') => (.err e, c')
  | (.panic, c') => (.panic, c')
  | (.fuel, c') => (.fuel, c')

instance : Monad (CM σ) where
  pure := CM.pure
  bind := CM.bind

/-- `return err`. -/
def fail (e : Err) : CM σ α := fun c => (.err e, c)

/-- Replace the error. -/
def mapErr (f : Err → Err) (m : CM σ α) : CM σ α := fun c =>
  match m c with
  | (.err e, c') => (.err (f e), c')
  | r => r

/-- `m(); return e`: the error result of `m` is ignored. -/
def thenFail (m : CM σ α) (e : Err) : CM σ β := fun c =>
  match m c with
  | (.ok _, c') => (.err e, c')
  | (.err _, c') => (.err e, c')
  | (.panic, c') => (.panic, c')
  | (.fuel, c') => (.fuel, c')

/-- The current connection. -/
def get : CM σ (Conn σ) := fun c => (.ok c, c)

/-- Update fields of the connection. -/
def modify (f : Conn σ → Conn σ) : CM σ Unit := fun c => (.ok (), f c)

end CM

section
variable {σ : Type} (env : Env) (W : World σ)

/-- Write the `Write` calls `ws` through `readWrite.Write` (connection.go 30-42), then return the encoder's own error `e`, if any.  A failing
write is reported as `driver.ErrBadConn`, wrapped by the encoder (encoderV2.go 61-67, 84-96; the number of wrapping layers is not tracked). -/
def writeAll (ws : List Bytes) (e : Option Err) : CM σ Unit := fun c =>
  if ws = [] then
    match e with
    | none => (.ok (), c)
    | some e => (.err e, c)
  else if c.sock = false then (.err (GoErr.badConn.wrap "An error occured writing a chunk"), c)
  else
    let o := W.onSend c.world ws
    let c' := { c with world := o.st, segs := c.segs ++ o.segs, fin := o.fin, trace := c.trace ++ [.sent ws] }
    if o.ok then
      match e with
      | none => (.ok (), c')
      | some e => (.err e, c')
    else (.err (GoErr.badConn.wrap "An error occured writing a chunk"), c')

/-- connection.go 533-538 `sendMessage` (no caller passes nil). -/
def sendMessage (v : Val) : CM σ Unit := fun c =>
  let r := encodeMsg env c.proto.codec c.chunkSize v
  writeAll W r.1 r.2 c

/-- `c.boltProtocol.NewDecoder(c.readWrite).Decode()` (connection.go 552, 583): read and decode one message. -/
def receive : CM σ Val := fun c =>
  if c.sock = false then (.err (GoErr.badConn.wrap "Couldn't read expected bytes for message length"), c)
  else match readMsg c.fin c.segs with
    | .err e s => (.err e, { c with segs := s })
    | .ok b s =>
      match decode env c.proto.codec b with
      | .ok (v, _) => (.ok v, { c with segs := s, trace := c.trace ++ [.recv v] })
      | .err e => (.err e, { c with segs := s })
      | .panic => (.panic, { c with segs := s })
      | .fuel => (.fuel, { c with segs := s })

/-- Type test `resp.(messages.SuccessMessage)`, giving the metadata. -/
def asSuccess : Val → Option Entries
  | .struct .success [.map md] => some md
  | _ => none

/-- Type test `resp.(messages.FailureMessage)`, giving the metadata. -/
def asFailure : Val → Option Entries
  | .struct .failure [.map md] => some md
  | _ => none

/-- Type test `resp.(messages.RecordMessage)`, giving the fields. -/
def asRecord : Val → Option (List Val)
  | .struct .record [.list _ vs] => some vs
  | _ => none

/-- Type test `resp.(messages.IgnoredMessage)`. -/
def isIgnored : Val → Bool
  | .struct .ignored _ => true
  | _ => false

/-- connection.go 549-571 `consume`; `reset` is connection.go 573.  The text of the wrapped error (`err.Error()`, line 565) is not
modelled. -/
def consumeWith (reset : CM σ Unit) : CM σ Val := do
  let v ← receive env
  match asFailure v with
  | some md =>
    CM.bind (CM.mapErr (fun _ => (GoErr.failure md).wrap "reset failed") reset) fun _ =>
      CM.fail ((GoErr.failure md).wrap "Neo4J reported a failure for the runQuery")
  | none => Pure.pure v

/-- connection.go 582-607: the loop of `reset`.  `n` bounds the iterations; each reads one message. -/
def resetLoop (close : CM σ Unit) : Nat → CM σ Unit
  | 0 => fun c => (.fuel, c)
  | n + 1 => do
    let v ← CM.mapErr (fun e => e.wrap "An error occurred decoding reset message response") (receive env)
    if isIgnored v then resetLoop close n
    else match asSuccess v with
      | some _ => Pure.pure ()
      | none =>
        match asFailure v with
        | some md => CM.thenFail close ((GoErr.failure md).wrap "Error resetting session. CLOSING SESSION!")
        | none => CM.thenFail close GoErr.badConn

/-- connection.go 573-608 `reset`; `close` is connection.go 428. -/
def resetWith (close : CM σ Unit) : CM σ Unit := do
  CM.mapErr (fun e => e.wrap "An error occurred encoding reset message") (sendMessage env W newResetMessage)
  fun c => resetLoop env close (streamLen c.segs + 1) c

/-- `_, ok := msg.(messages.CommitMessage)` (transaction.go 60), `RollbackMessage` (121), `BeginMessage` (connection.go 481). -/
def isTxMsg : Val → Bool
  | .struct .commit _ => true
  | .struct .rollback _ => true
  | .struct .begin_ _ => true
  | _ => false

/-- Send a transaction message, followed by PULL_ALL if it is a RUN, and require SUCCESS for each: the common part of transaction.go 63-103 (Commit), 124-164
(Rollback) and connection.go 483-519 (Begin).  The type tests come after both answers were consumed. -/
def txExchange (consume : CM σ Val) (msg : Val) (what : String) : CM σ Unit := do
  sendMessage env W msg
  if isTxMsg msg then do
    let run ← consume
    match asSuccess run with
    | none => CM.fail (.new what)
    | some _ => Pure.pure ()
  else do
    sendMessage env W (← CM.get).proto.pullAllMessage
    let run ← consume
    let pull ← consume
    match asSuccess run with
    | none => CM.fail (.new what)
    | some _ =>
      match asSuccess pull with
      | none => CM.fail (.new what)
      | some _ => Pure.pure ()

/-- transaction.go 171-173 `IsClosed`: `t.closed` of handle `h` (`true` if there is no such handle). -/
def Conn.txClosed (c : Conn σ) (h : Nat) : Bool := c.txs.getD h true

/-- `t.conn.transaction = nil; t.closed = true` (transaction.go 105-106, 166-167). -/
def Conn.endTx (c : Conn σ) (h : Nat) : Conn σ := { c with cur := none, txs := c.txs.set h true }

/-- transaction.go 110-169 `Rollback` of handle `h`; `consume` is connection.go 549. -/
def rollbackWith (consume : CM σ Val) (h : Nat) : CM σ Unit := do
  if (← CM.get).txClosed h then CM.fail (.new "Transaction already closed")
  else do
    txExchange env W consume (← CM.get).proto.txRollbackMessage "Unrecognized response type rolling back transaction"
    CM.modify (·.endTx h)

/-- transaction.go 49-108 `Commit` of handle `h`. -/
def commitWith (consume : CM σ Val) (h : Nat) : CM σ Unit := do
  if (← CM.get).txClosed h then CM.fail (.new "Transaction already closed")
  else do
    txExchange env W consume (← CM.get).proto.txCommitMessage "Unrecognized response type committing transaction"
    CM.modify (·.endTx h)

/-- connection.go 453-459: `c.conn.Close()`, `c.closed = true`; returns the error of `Close`. -/
def closeSock : CM σ Unit := fun c =>
  let c' := { c with sock := false, closed := true, trace := c.trace ++ [.closed] }
  if W.onClose c.world then (.ok (), c') else (.err (.plain "close"), c')

/-- errors/defaults.go 7 `ErrClosed`. -/
def errClosed : Err := .new "resource is already closed"

/-- connection.go 428-460 `Close`; `rollback` is transaction.go 110.  `c.conn` is never nil after `CreateBoltConn` (line 440). -/
def closeWith (rollback : Nat → CM σ Unit) : CM σ Unit := do
  if (← CM.get).closed then CM.fail errClosed
  else do
    match (← CM.get).cur with
    | some h => rollback h
    | none => Pure.pure ()
    match (← CM.get).proto.closeMessage with
    | some m => sendMessage env W m
    | none => Pure.pure ()
    closeSock W

/-- connection.go 573-608 `reset`, with its recursion through `Close`, `Rollback` and `consume` unfolded `fuel` times. -/
def reset : Nat → CM σ Unit
  | 0 => fun c => (.fuel, c)
  | fuel + 1 => resetWith env W (closeWith env W (rollbackWith env W (consumeWith env (reset fuel))))

/-- connection.go 549-571 `consume`. -/
def consume (fuel : Nat) : CM σ Val := consumeWith env (reset env W fuel)

/-- transaction.go 110-169 `Rollback`. -/
def rollback (fuel : Nat) (h : Nat) : CM σ Unit := rollbackWith env W (consume env W fuel) h

/-- transaction.go 49-108 `Commit`. -/
def commit (fuel : Nat) (h : Nat) : CM σ Unit := commitWith env W (consume env W fuel) h

/-- connection.go 428-460 `Close`. -/
def close (fuel : Nat) : CM σ Unit := closeWith env W (rollback env W fuel)

/-- connection.go 462-468 `MakeIdle`. -/
def makeIdle (fuel : Nat) : CM σ Unit := do
  match (← CM.get).cur with
  | some h => rollback env W fuel h
  | none => Pure.pure ()

/-- connection.go 470-527 `BeginWithDatabase`; returns the handle. -/
def beginWithDatabase (fuel : Nat) (db : Bytes) : CM σ Nat := do
  if (← CM.get).cur.isSome then CM.fail (.new "transaction already open")
  else if (← CM.get).closed then CM.fail (.new "can not open transaction on closed connection")
  else do
    let c ← CM.get
    txExchange env W (consume env W fuel) (c.proto.txBeginMessage db c.mode) "Unrecognized response type beginning transaction"
    let h := (← CM.get).txs.length
    CM.modify fun c => { c with txs := c.txs ++ [false], cur := some h }
    Pure.pure h

/-- connection.go 529-531 `Begin`. -/
def begin_ (fuel : Nat) : CM σ Nat := beginWithDatabase env W fuel []

/-- connection.go 409-425: the loop of `runQuery`.  `n` bounds the iterations; each reads one message. -/
def rowsLoop (consume : CM σ Val) : Nat → List (List Val) → CM σ (List (List Val) × Entries)
  | 0, _ => fun c => (.fuel, c)
  | n + 1, output => do
    let resp ← consume
    match asSuccess resp with
    | some md => Pure.pure (output, md)
    | none =>
      match asRecord resp with
      | some fs => rowsLoop consume n (output ++ [fs])
      | none => CM.fail (.new "Unrecognized response type getting next runQuery row")

/-- connection.go 373-426 `runQuery` (run under the connection's mutex, see C46).  `openQuery` is always false (line 376). -/
def runQuery (fuel : Nat) (query : Bytes) (params : Entries) (db : Bytes) (inTx : Bool) : CM σ (List (List Val) × Entries) := do
  if (← CM.get).closed then CM.fail (.new "connection already closed")
  else do
    let c ← CM.get
    sendMessage env W (c.proto.runMessage query params db c.mode (!inTx))
    sendMessage env W c.proto.pullAllMessage
    let resp ← consume env W fuel
    match asSuccess resp with
    | none => CM.fail (.plain "unexpected response type")
    | some _ => fun c => rowsLoop (consume env W fuel) (streamLen c.segs + 1) [] c

/-- The multi-database check at the start of connection.go 343-346, 360-363 and transaction.go 19-22, 36-39. -/
def checkDb (db : Bytes) : CM σ Unit := do
  if (← CM.get).proto.supportsMultiDatabase = false ∧ db ≠ [] then
    CM.fail (.plain "bolt protocol version does not have multi database support")
  else Pure.pure ()

/-- connection.go 360-371 `QueryWithDb`: rows and metadata. -/
def queryWithDb (fuel : Nat) (query : Bytes) (params : Entries) (db : Bytes) : CM σ (List (List Val) × Entries) := do
  checkDb db
  runQuery env W fuel query params db false

/-- connection.go 356-358 `Query`. -/
def query (fuel : Nat) (q : Bytes) (params : Entries) : CM σ (List (List Val) × Entries) := queryWithDb env W fuel q params []

/-- connection.go 343-354 `ExecWithDb`: metadata only. -/
def execWithDb (fuel : Nat) (query : Bytes) (params : Entries) (db : Bytes) : CM σ Entries := do
  checkDb db
  let r ← runQuery env W fuel query params db false
  Pure.pure r.2

/-- connection.go 339-341 `Exec`. -/
def exec (fuel : Nat) (q : Bytes) (params : Entries) : CM σ Entries := execWithDb env W fuel q params []

/-- transaction.go 36-47 `QueryWithDb` on a transaction handle (the handle itself is not consulted). -/
def txQueryWithDb (fuel : Nat) (_h : Nat) (query : Bytes) (params : Entries) (db : Bytes) : CM σ (List (List Val) × Entries) := do
  checkDb db
  runQuery env W fuel query params db true

/-- transaction.go 32-34 `Query`. -/
def txQuery (fuel : Nat) (h : Nat) (q : Bytes) (params : Entries) : CM σ (List (List Val) × Entries) := txQueryWithDb env W fuel h q params []

/-- transaction.go 19-30 `ExecWithDb`. -/
def txExecWithDb (fuel : Nat) (_h : Nat) (query : Bytes) (params : Entries) (db : Bytes) : CM σ Entries := do
  checkDb db
  let r ← runQuery env W fuel query params db true
  Pure.pure r.2

/-- transaction.go 15-17 `Exec`: runs `t.conn.Exec`. -/
def txExec (fuel : Nat) (_h : Nat) (q : Bytes) (params : Entries) : CM σ Entries := exec env W fuel q params

/-- connection.go 307-327 `ValidateOpen`. -/
def validateOpen : CM σ Bool := fun c =>
  if c.closed then (.ok false, c)
  else match W.probe c.world with
    | .eof => (.ok false, c)
    | .other => (.ok true, c)
    | .data =>
      match readOnce 1 c.segs with
      | some (_, s) => (.ok true, { c with segs := s })
      | none => (.ok true, c)

/-- connection.go 330-332 `SetChunkSize` (a uint16). -/
def setChunkSize (n : UInt16) : CM σ Unit := CM.modify fun c => { c with chunkSize := n.toNat }

/-- connection.go 163-165 `GetProtocolVersionNumber`. -/
def getProtocolVersionNumber : CM σ Int := fun c => (.ok c.version, c)

/-- connection.go 167-169 `GetProtocolVersionBytes`. -/
def getProtocolVersionBytes : CM σ Bytes := fun c => (.ok c.versionBytes, c)

/-- const.go 4-11 `handShake`. -/
def handShake : Bytes :=
  [0x60, 0x60, 0xB0, 0x17] ++
  [0x00, 0x00, 0x00, 0x04, 0x00, 0x00, 0x00, 0x03, 0x00, 0x00, 0x00, 0x02, 0x00, 0x00, 0x00, 0x01]

/-- const.go 12 `noVersionSupported`. -/
def noVersionSupported : Bytes := [0x00, 0x00, 0x00, 0x00]

/-- const.go 14-16 `ClientID`. -/
def clientID : Bytes := ascii "GoBolt/" ++ ascii "0.1"

/-- connection.go 236-255 `handshake`: one `Write` of 20 bytes, one `Read` into a 4-byte buffer. -/
def handshake : CM σ Bytes := fun c =>
  let o := W.onSend c.world [handShake]
  let c' := { c with world := o.st, segs := c.segs ++ o.segs, fin := o.fin, trace := c.trace ++ [.sent [handShake]] }
  if o.ok = false then (.err .badConn, c')
  else match readOnce 4 c'.segs with
    | none => (.err c'.fin.err, { c' with segs := [] })
    | some (version, s) =>
      let c'' := { c' with segs := s }
      if version.length ≠ 4 then (.err (.plain "expected [4] bytes"), c'')
      else if version = noVersionSupported then (.err (.new "server responded with no supported version"), c'')
      else (.ok version, c'')

/-- connection.go 172-196 `createConnection`: dial (plain or TLS). -/
def createConnection : CM σ Unit := fun c =>
  let d := W.dial c.world
  if d.2 then (.ok (), { c with world := d.1, sock := true, closed := false }) else (.err (.plain "dial"), { c with world := d.1 })

/-- connection.go 286-305 `sendInit`: any answer that is not SUCCESS and not FAILURE closes the connection and returns the result of `Close`. -/
def sendInit (fuel : Nat) (message : Val) : CM σ Unit := do
  sendMessage env W message
  let resp ← consume env W fuel
  match asSuccess resp with
  | some _ => Pure.pure ()
  | none => close env W fuel

/-- connection.go 257-284 `initialize`, with the user and password of the connection.  `fmt.Errorf("handshake failed, %w", err)` (line 269) is modelled as
a wrapped error. -/
def initConn (fuel : Nat) (user password : Bytes) : CM σ Unit := do
  createConnection W
  let versionBytes ← CM.mapErr (fun e => e.wrap "handshake failed") (handshake W)
  match getProtocol versionBytes with
  | (some p, version, _) => do
    CM.modify fun c => { c with proto := p, version := version, versionBytes := versionBytes }
    sendInit env W fuel (p.initMessage clientID (buildAuthTokenBasic user password))
  | (none, _, some e) => CM.fail e
  | (none, _, none) => CM.fail (.plain "unreachable")

/-- connection.go 114-118: a connection before `initialize`.  `closed` has Go's zero value. -/
def Conn.fresh (w : σ) : Conn σ :=
  { proto := .v1, version := 0, versionBytes := [], mode := readMode, chunkSize := 65535, closed := false, sock := false, txs := [], cur := none, world := w,
    segs := [], fin := .broken, trace := [] }

/-- connection.go 92-104 `CreateBoltConn`, after the connection string has been parsed: result, and the final state of the connection
(which the caller gets only if there is no error). -/
def createBoltConn (fuel : Nat) (user password : Bytes) (w : σ) : CRes Unit × Conn σ :=
  initConn env W fuel user password (Conn.fresh w)

end

end Verif
