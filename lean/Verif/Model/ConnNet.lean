/-
The operations a connection performs on the network: the calls of `net.Conn` made by /repo/connection/connection.go, with the deadlines set for them.

The functions of `Conn.lean` are repeated here with the operations.  `Proofs/ConnNet.lean` proves that they are the same functions otherwise.

Not modelled: the operations of the TLS layer below a `Write` or `Read`; `SetReadDeadline` and `SetWriteDeadline` failing on an open socket.
-/
import Verif.Model.Conn
namespace Verif

/-- A call of `net.DialTimeout`/`tls.Dial` or of a method of `net.Conn`.
* `dial timeout ok`: the timeout given to the call, if any.
* `write deadline bytes ok`: one `Write`; `deadline` is the time, counted from its start, at which it gives up.
* `read deadline size got`: one `Read` into a buffer of this size; `none` if it failed or met the end of the stream.
* `close ok`. -/
inductive NetOp where
  | dial (timeout : Option Int) (ok : Bool)
  | write (deadline : Option Int) (bytes : Bytes) (ok : Bool)
  | read (deadline : Option Int) (size : Nat) (got : Option Bytes)
  | close (ok : Bool)
  deriving DecidableEq, Repr

/-- What is fixed outside of the calls.
* `timeout`: the field `timeout` of the connection (connection.go 81), set by the connection string or by `SetTimeout` (334-337).
* `useTLS`: the field `useTLS`.
* `broke ws`: how many of these writes succeed before one fails, if one does. -/
structure NetEnv where
  timeout : Int
  useTLS : Bool
  broke : List Bytes → Nat

/-- A call on a connection, with its operations on the network. -/
def NM (σ α : Type) := Conn σ → CRes α × Conn σ × List NetOp

namespace NM
variable {σ α β : Type}

/-- Return a value. -/
def pure (a : α) : NM σ α := fun c => (.ok a, c, [])

/-- Go's `x, err := m; if err != nil { return err }; f(x)`. -/
def bind (m : NM σ α) (f : α → NM σ β) : NM σ β := fun c =>
  match m c with
  | (.ok a, c', l) => ((f a c').1, (f a c').2.1, l ++ (f a c').2.2)
  | (.err e, c', l) => (.err e, c', l)
  | (.panic, c', l) => (.panic, c', l)
  | (.fuel, c', l) => (.fuel, c', l)

instance : Monad (NM σ) where
  pure := NM.pure
  bind := NM.bind

/-- A function that performs no operation on the network. -/
def lift (m : CM σ α) : NM σ α := fun c => ((m c).1, (m c).2, [])

/-- `return err`. -/
def fail (e : Err) : NM σ α := lift (CM.fail e)

/-- Replace the error. -/
def mapErr (f : Err → Err) (m : NM σ α) : NM σ α := fun c =>
  match m c with
  | (.err e, c', l) => (.err (f e), c', l)
  | r => r

/-- `m(); return e`. -/
def thenFail (m : NM σ α) (e : Err) : NM σ β := fun c =>
  match m c with
  | (.ok _, c', l) => (.err e, c', l)
  | (.err _, c', l) => (.err e, c', l)
  | (.panic, c', l) => (.panic, c', l)
  | (.fuel, c', l) => (.fuel, c', l)

/-- The current connection. -/
def get : NM σ (Conn σ) := lift CM.get

/-- What the call does, without the operations. -/
def erase (m : NM σ α) : CM σ α := fun c => ((m c).1, (m c).2.1)

end NM

/-- connection.go 30-42 `readWrite.Write`: sets the deadline, then writes. -/
def netWrite (N : NetEnv) (b : Bytes) (ok : Bool) : NetOp := .write (some N.timeout) b ok

/-- connection.go 44-54 `readWrite.Read`: sets the deadline, then reads. -/
def netRead (N : NetEnv) (n : Nat) (got : Option Bytes) : NetOp := .read (some N.timeout) n got

/-- The `Read` calls of `readFull`. -/
def netReadFull (N : NetEnv) : Nat → Nat → List Bytes → List NetOp
  | 0, _, _ => []
  | fuel + 1, n, segs =>
    if n = 0 then []
    else match readOnce n segs with
      | none => [netRead N n none]
      | some (got, segs') => netRead N n (some got) :: netReadFull N fuel (n - got.length) segs'

/-- The `Read` calls of `readDataLoop` (decoderV2.go 66-86 `readData`). -/
def netReadData (N : NetEnv) (len : Nat) : Nat → Nat → List Bytes → List NetOp
  | 0, _, _ => []
  | fuel + 1, total, segs =>
    if total < len then
      match readOnce (len - total) segs with
      | none => [netRead N (len - total) none]
      | some (got, segs') => netRead N (len - total) (some got) :: netReadData N len fuel (total + got.length) segs'
    else []

/-- The `Read` calls of `readMsgF` (decoderV2.go 37-64 `read`). -/
def netReadMsg (N : NetEnv) (fin : StreamEnd) : Nat → List Bytes → List NetOp
  | 0, _ => []
  | fuel + 1, segs =>
    netReadFull N 2 2 segs ++
      if (readFull 2 2 segs).1.length ≠ 2 then []
      else if ofBE (readFull 2 2 segs).1 = 0 then []
      else netReadData N (ofBE (readFull 2 2 segs).1) (ofBE (readFull 2 2 segs).1 + 1) 0 (readFull 2 2 segs).2 ++
        match readData fin (ofBE (readFull 2 2 segs).1) (readFull 2 2 segs).2 with
        | .err _ _ => []
        | .ok _ segs' => netReadMsg N fin fuel segs'

section
variable {σ : Type} (env : Env) (W : World σ) (N : NetEnv)

/-- The `Write` calls for a message, if `ok` says whether all of them succeed.  The encoder gives up at the first that fails: the one after the `N.broke ws`
that succeed, or the last. -/
def netWrites (ws : List Bytes) (ok : Bool) : List NetOp :=
  if ok then ws.map fun w => netWrite N w true
  else
    let k := min (N.broke ws) (ws.length - 1)
    (ws.take k).map (fun w => netWrite N w true) ++ (ws.drop k).head?.toList.map fun w => netWrite N w false

/-- connection.go 533-538 `sendMessage`.  On a closed socket setting the deadline fails, and nothing is written. -/
def netSend (v : Val) : NM σ Unit := fun c =>
  let ws := (encodeMsg env c.proto.codec c.chunkSize v).1
  ((sendMessage env W v c).1, (sendMessage env W v c).2,
    if c.sock then netWrites N ws (W.onSend c.world ws).ok else [])

/-- `c.boltProtocol.NewDecoder(c.readWrite).Decode()` (connection.go 552, 583).  On a closed socket setting the deadline fails, and nothing is read. -/
def netReceive : NM σ Val := fun c =>
  ((receive env c).1, (receive env c).2,
    if c.sock then netReadMsg N c.fin (streamLen c.segs + 1) c.segs else [])

/-- connection.go 549-571 `consume`. -/
def netConsumeWith (reset : NM σ Unit) : NM σ Val := do
  let v ← netReceive env N
  match asFailure v with
  | some md =>
    NM.bind (NM.mapErr (fun _ => (GoErr.failure md).wrap "reset failed") reset) fun _ =>
      NM.fail ((GoErr.failure md).wrap "Neo4J reported a failure for the runQuery")
  | none => Pure.pure v

/-- connection.go 582-607: the loop of `reset`. -/
def netResetLoop (close : NM σ Unit) : Nat → NM σ Unit
  | 0 => NM.lift fun c => (.fuel, c)
  | n + 1 => do
    let v ← NM.mapErr (fun e => e.wrap "An error occurred decoding reset message response") (netReceive env N)
    if isIgnored v then netResetLoop close n
    else match asSuccess v with
      | some _ => Pure.pure ()
      | none =>
        match asFailure v with
        | some md => NM.thenFail close ((GoErr.failure md).wrap "Error resetting session. CLOSING SESSION!")
        | none => NM.thenFail close GoErr.badConn

/-- connection.go 573-608 `reset`. -/
def netResetWith (close : NM σ Unit) : NM σ Unit := do
  NM.mapErr (fun e => e.wrap "An error occurred encoding reset message") (netSend env W N newResetMessage)
  fun c => netResetLoop env N close (streamLen c.segs + 1) c

/-- The common part of transaction.go 63-103, 124-164 and connection.go 483-519. -/
def netTxExchange (consume : NM σ Val) (msg : Val) (what : String) : NM σ Unit := do
  netSend env W N msg
  if isTxMsg msg then do
    let run ← consume
    match asSuccess run with
    | none => NM.fail (.new what)
    | some _ => Pure.pure ()
  else do
    netSend env W N (← NM.get).proto.pullAllMessage
    let run ← consume
    let pull ← consume
    match asSuccess run with
    | none => NM.fail (.new what)
    | some _ =>
      match asSuccess pull with
      | none => NM.fail (.new what)
      | some _ => Pure.pure ()

/-- transaction.go 110-169 `Rollback`. -/
def netRollbackWith (consume : NM σ Val) (h : Nat) : NM σ Unit := do
  if (← NM.get).txClosed h then NM.fail (.new "Transaction already closed")
  else do
    netTxExchange env W N consume (← NM.get).proto.txRollbackMessage "Unrecognized response type rolling back transaction"
    NM.lift (CM.modify (·.endTx h))

/-- transaction.go 49-108 `Commit`. -/
def netCommitWith (consume : NM σ Val) (h : Nat) : NM σ Unit := do
  if (← NM.get).txClosed h then NM.fail (.new "Transaction already closed")
  else do
    netTxExchange env W N consume (← NM.get).proto.txCommitMessage "Unrecognized response type committing transaction"
    NM.lift (CM.modify (·.endTx h))

/-- connection.go 453-459: `c.conn.Close()`. -/
def netCloseSock : NM σ Unit := fun c => ((closeSock W c).1, (closeSock W c).2, [.close (W.onClose c.world)])

/-- connection.go 428-460 `Close`. -/
def netCloseWith (rollback : Nat → NM σ Unit) : NM σ Unit := do
  if (← NM.get).closed then NM.fail errClosed
  else do
    match (← NM.get).cur with
    | some h => rollback h
    | none => Pure.pure ()
    match (← NM.get).proto.closeMessage with
    | some m => netSend env W N m
    | none => Pure.pure ()
    netCloseSock W

/-- connection.go 573-608 `reset`, unfolded `fuel` times. -/
def netReset : Nat → NM σ Unit
  | 0 => NM.lift fun c => (.fuel, c)
  | fuel + 1 => netResetWith env W N (netCloseWith env W N (netRollbackWith env W N (netConsumeWith env N (netReset fuel))))

/-- connection.go 549-571 `consume`. -/
def netConsume (fuel : Nat) : NM σ Val := netConsumeWith env N (netReset env W N fuel)

/-- transaction.go 110-169 `Rollback`. -/
def netRollback (fuel : Nat) (h : Nat) : NM σ Unit := netRollbackWith env W N (netConsume env W N fuel) h

/-- transaction.go 49-108 `Commit`. -/
def netCommit (fuel : Nat) (h : Nat) : NM σ Unit := netCommitWith env W N (netConsume env W N fuel) h

/-- connection.go 428-460 `Close`. -/
def netClose (fuel : Nat) : NM σ Unit := netCloseWith env W N (netRollback env W N fuel)

/-- connection.go 462-468 `MakeIdle`. -/
def netMakeIdle (fuel : Nat) : NM σ Unit := do
  match (← NM.get).cur with
  | some h => netRollback env W N fuel h
  | none => Pure.pure ()

/-- connection.go 470-527 `BeginWithDatabase`. -/
def netBegin (fuel : Nat) (db : Bytes) : NM σ Nat := do
  if (← NM.get).cur.isSome then NM.fail (.new "transaction already open")
  else if (← NM.get).closed then NM.fail (.new "can not open transaction on closed connection")
  else do
    let c ← NM.get
    netTxExchange env W N (netConsume env W N fuel) (c.proto.txBeginMessage db c.mode) "Unrecognized response type beginning transaction"
    let h := (← NM.get).txs.length
    NM.lift (CM.modify fun c => { c with txs := c.txs ++ [false], cur := some h })
    Pure.pure h

/-- connection.go 409-425: the loop of `runQuery`. -/
def netRowsLoop (consume : NM σ Val) : Nat → List (List Val) → NM σ (List (List Val) × Entries)
  | 0, _ => NM.lift fun c => (.fuel, c)
  | n + 1, output => do
    let resp ← consume
    match asSuccess resp with
    | some md => Pure.pure (output, md)
    | none =>
      match asRecord resp with
      | some fs => netRowsLoop consume n (output ++ [fs])
      | none => NM.fail (.new "Unrecognized response type getting next runQuery row")

/-- connection.go 373-426 `runQuery`. -/
def netRunQuery (fuel : Nat) (query : Bytes) (params : Entries) (db : Bytes) (inTx : Bool) : NM σ (List (List Val) × Entries) := do
  if (← NM.get).closed then NM.fail (.new "connection already closed")
  else do
    let c ← NM.get
    netSend env W N (c.proto.runMessage query params db c.mode (!inTx))
    netSend env W N c.proto.pullAllMessage
    let resp ← netConsume env W N fuel
    match asSuccess resp with
    | none => NM.fail (.plain "unexpected response type")
    | some _ => fun c => netRowsLoop (netConsume env W N fuel) (streamLen c.segs + 1) [] c

/-- connection.go 343-371 `ExecWithDb`, `QueryWithDb`, transaction.go 19-47: the check of the database, then `runQuery`. -/
def netQueryWithDb (fuel : Nat) (query : Bytes) (params : Entries) (db : Bytes) (inTx : Bool) : NM σ (List (List Val) × Entries) := do
  NM.lift (checkDb db)
  netRunQuery env W N fuel query params db inTx

/-- connection.go 307-327 `ValidateOpen`: one `Read` of one byte, with a deadline that has passed. -/
def netValidateOpen : NM σ Bool := fun c =>
  ((validateOpen W c).1, (validateOpen W c).2,
    if c.closed then []
    else match W.probe c.world with
      | .data => [.read (some 0) 1 ((readOnce 1 c.segs).map (·.1))]
      | _ => [.read (some 0) 1 none])

/-- connection.go 236-255 `handshake`. -/
def netHandshake : NM σ Bytes := fun c =>
  ((handshake W c).1, (handshake W c).2,
    if (W.onSend c.world [handShake]).ok then
      [netWrite N handShake true, netRead N 4 ((readOnce 4 (c.segs ++ (W.onSend c.world [handShake]).segs)).map (·.1))]
    else [netWrite N handShake false])

/-- connection.go 172-196 `createConnection`.  `net.DialTimeout` with a timeout of 0 has no timeout. -/
def netDial : NM σ Unit := fun c =>
  ((createConnection W c).1, (createConnection W c).2,
    [.dial (if N.useTLS ∨ N.timeout = 0 then none else some N.timeout) (W.dial c.world).2])

/-- connection.go 286-305 `sendInit`. -/
def netSendInit (fuel : Nat) (message : Val) : NM σ Unit := do
  netSend env W N message
  let resp ← netConsume env W N fuel
  match asSuccess resp with
  | some _ => Pure.pure ()
  | none => netClose env W N fuel

/-- connection.go 257-284 `initialize`. -/
def netInit (fuel : Nat) (user password : Bytes) : NM σ Unit := do
  netDial W N
  let versionBytes ← NM.mapErr (fun e => e.wrap "handshake failed") (netHandshake W N)
  match getProtocol versionBytes with
  | (some p, version, _) => do
    NM.lift (CM.modify fun c => { c with proto := p, version := version, versionBytes := versionBytes })
    netSendInit env W N fuel (p.initMessage clientID (buildAuthTokenBasic user password))
  | (none, _, some e) => NM.fail e
  | (none, _, none) => NM.fail (.plain "unreachable")

/-- connection.go 92-104 `CreateBoltConn`, after the connection string has been parsed. -/
def netCreate (fuel : Nat) (user password : Bytes) (w : σ) : CRes Unit × Conn σ × List NetOp :=
  netInit env W N fuel user password (Conn.fresh w)

end
end Verif
