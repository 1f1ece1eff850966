/-
What a connection writes to the log: the calls of /repo/connection/connection.go, transaction.go and /repo/encoding/encoding_v2/encoderV2.go into /repo/log/log.go.

The functions of `Conn.lean` are repeated here with the calls into the log.  `Proofs/ConnLog.lean` proves that they are the same functions otherwise.

Not modelled: `fmt.Println` in decoderV2.go 383, which prints to the standard output and not to the log; the log of the routing pool (pool.go, routing_handler.go).
-/
import Verif.Model.Conn
import Verif.Model.Log
namespace Verif

/-- What `fmt` and the network decide.
* `text format v`: `fmt.Sprintf(format, v)` for a message.
* `errText e`: `fmt.Sprintf("An error occurred closing the session: %s", e)` (connection.go 599).
* `late ws`: if one of these writes fails, it is one of those after `TraceBytesFromBuf` in `flush` (encoderV2.go 82-96). -/
structure LogEnv where
  text : String → Val → Bytes
  errText : Err → Bytes
  late : List Bytes → Bool

/-- A call on a connection that writes to the log. -/
def LM (σ α : Type) := Conn σ → CRes α × Conn σ × List LogCall

namespace LM
variable {σ α β : Type}

/-- Return a value. -/
def pure (a : α) : LM σ α := fun c => (.ok a, c, [])

/-- Go's `x, err := m; if err != nil { return err }; f(x)`. -/
def bind (m : LM σ α) (f : α → LM σ β) : LM σ β := fun c =>
  match m c with
  | (.ok a, c', l) => ((f a c').1, (f a c').2.1, l ++ (f a c').2.2)
  | (.err e, c', l) => (.err e, c', l)
  | (.panic, c', l) => (.panic, c', l)
  | (.fuel, c', l) => (.fuel, c', l)

instance : Monad (LM σ) where
  pure := LM.pure
  bind := LM.bind

/-- A function that does not write to the log. -/
def lift (m : CM σ α) : LM σ α := fun c => ((m c).1, (m c).2, [])

/-- A call into the package log. -/
def say (l : LogCall) : LM σ Unit := fun c => (.ok (), c, [l])

/-- `return err`. -/
def fail (e : Err) : LM σ α := lift (CM.fail e)

/-- Replace the error. -/
def mapErr (f : Err → Err) (m : LM σ α) : LM σ α := fun c =>
  match m c with
  | (.err e, c', l) => (.err (f e), c', l)
  | r => r

/-- `err := m(); if err != nil { log }; return e`. -/
def thenFail (m : LM σ α) (log : Err → List LogCall) (e : Err) : LM σ β := fun c =>
  match m c with
  | (.ok _, c', l) => (.err e, c', l)
  | (.err e', c', l) => (.err e, c', l ++ log e')
  | (.panic, c', l) => (.panic, c', l)
  | (.fuel, c', l) => (.fuel, c', l)

/-- The current connection. -/
def get : LM σ (Conn σ) := lift CM.get

/-- What the call does, without the log. -/
def erase (m : LM σ α) : CM σ α := fun c => ((m c).1, (m c).2.1)

end LM

section
variable {σ : Type} (env : Env) (W : World σ) (L : LogEnv)

/-- encoderV2.go 79-82: what `flush` dumps, if the encoder gets so far.  encoderV1.go 76-95 does not write to the log. -/
def flushDump (ver : Ver) (cs : Nat) (v : Val) : List LogCall :=
  match ver, (encode env ver v).2 with
  | .v2, none =>
    if (chunkWrites cs ⟨[], []⟩ (encode env ver v).1).buf.length > 0 then [.dumpBuffer (some (chunkWrites cs ⟨[], []⟩ (encode env ver v).1).buf)] else []
  | _, _ => []

/-- connection.go 533-538 `sendMessage`, and 577 in `reset`.  If a write fails, the encoder has reached `flush` only if it had written nothing before or if it was a later write that failed. -/
def logSend (v : Val) : LM σ Unit := fun c =>
  let st := chunkWrites c.chunkSize ⟨[], []⟩ (encode env c.proto.codec v).1
  let sent := c.sock && (W.onSend c.world (encodeMsg env c.proto.codec c.chunkSize v).1).ok
  ((sendMessage env W v c).1, (sendMessage env W v c).2,
    if sent || st.out.isEmpty || (c.sock && L.late (encodeMsg env c.proto.codec c.chunkSize v).1) then flushDump env c.proto.codec c.chunkSize v else [])

/-- connection.go 549-571 `consume`. -/
def logConsumeWith (reset : LM σ Unit) : LM σ Val := do
  LM.say (.trace (ascii "Consuming response from bolt stream"))
  let v ← LM.lift (receive env)
  LM.say (.trace (L.text "Consumed Response: %#v" v))
  match asFailure v with
  | some md => do
    LM.say (.error (L.text "Got failure message: %#v" v))
    LM.bind (LM.mapErr (fun _ => (GoErr.failure md).wrap "reset failed") reset) fun _ =>
      LM.fail ((GoErr.failure md).wrap "Neo4J reported a failure for the runQuery")
  | none => Pure.pure v

/-- connection.go 582-607: the loop of `reset`. -/
def logResetLoop (close : LM σ Unit) : Nat → LM σ Unit
  | 0 => LM.lift fun c => (.fuel, c)
  | n + 1 => do
    let v ← LM.mapErr (fun e => e.wrap "An error occurred decoding reset message response") (LM.lift (receive env))
    if isIgnored v then do
      LM.say (.trace (L.text "Got ignored message when resetting session: %#v" v))
      logResetLoop close n
    else match asSuccess v with
      | some _ => LM.say (.trace (L.text "Got success message when resetting session: %#v" v))
      | none =>
        match asFailure v with
        | some md => do
          LM.say (.error (L.text "Got failure message when resetting session: %#v" v))
          LM.thenFail close (fun e => [.error (L.errText e)]) ((GoErr.failure md).wrap "Error resetting session. CLOSING SESSION!")
        | none => do
          LM.say (.error (L.text "Got unrecognized response from resetting session: %#v" v))
          LM.thenFail close (fun _ => []) GoErr.badConn

/-- connection.go 573-608 `reset`. -/
def logResetWith (close : LM σ Unit) : LM σ Unit := do
  LM.say (.trace (ascii "Resetting session"))
  LM.mapErr (fun e => e.wrap "An error occurred encoding reset message") (logSend env W L newResetMessage)
  fun c => logResetLoop env L close (streamLen c.segs + 1) c

/-- The common part of transaction.go 63-103, 124-164 and connection.go 483-519; `said` is the format of the first message about a success, `none` for `Begin`, which does not write any. -/
def logTxExchange (consume : LM σ Val) (msg : Val) (what : String) (said : Option String) : LM σ Unit := do
  logSend env W L msg
  if isTxMsg msg then do
    let run ← consume
    match asSuccess run with
    | none => LM.fail (.new what)
    | some _ =>
      match said with
      | some f => LM.say (.trace (L.text f run))
      | none => Pure.pure ()
  else do
    logSend env W L (← LM.get).proto.pullAllMessage
    let run ← consume
    let pull ← consume
    match asSuccess run with
    | none => LM.fail (.new what)
    | some _ =>
      match said with
      | some f => do
        LM.say (.trace (L.text f run))
        match asSuccess pull with
        | none => LM.fail (.new what)
        | some _ => LM.say (.trace (L.text "Got success message pulling transaction: %#v" pull))
      | none =>
        match asSuccess pull with
        | none => LM.fail (.new what)
        | some _ => Pure.pure ()

/-- transaction.go 110-169 `Rollback`. -/
def logRollbackWith (consume : LM σ Val) (h : Nat) : LM σ Unit := do
  if (← LM.get).txClosed h then LM.fail (.new "Transaction already closed")
  else do
    logTxExchange env W L consume (← LM.get).proto.txRollbackMessage "Unrecognized response type rolling back transaction"
      (some "Got success message rolling back transaction: %#v")
    LM.lift (CM.modify (·.endTx h))

/-- transaction.go 49-108 `Commit`. -/
def logCommitWith (consume : LM σ Val) (h : Nat) : LM σ Unit := do
  if (← LM.get).txClosed h then LM.fail (.new "Transaction already closed")
  else do
    logTxExchange env W L consume (← LM.get).proto.txCommitMessage "Unrecognized response type committing transaction"
      (some "Got success message committing transaction: %#v")
    LM.lift (CM.modify (·.endTx h))

/-- connection.go 428-460 `Close`. -/
def logCloseWith (rollback : Nat → LM σ Unit) : LM σ Unit := do
  if (← LM.get).closed then LM.fail errClosed
  else do
    match (← LM.get).cur with
    | some h => rollback h
    | none => Pure.pure ()
    match (← LM.get).proto.closeMessage with
    | some m => logSend env W L m
    | none => Pure.pure ()
    LM.lift (closeSock W)

/-- connection.go 573-608 `reset`, unfolded `fuel` times. -/
def logReset : Nat → LM σ Unit
  | 0 => LM.lift fun c => (.fuel, c)
  | fuel + 1 => logResetWith env W L (logCloseWith env W L (logRollbackWith env W L (logConsumeWith env L (logReset fuel))))

/-- connection.go 549-571 `consume`. -/
def logConsume (fuel : Nat) : LM σ Val := logConsumeWith env L (logReset env W L fuel)

/-- transaction.go 110-169 `Rollback`. -/
def logRollback (fuel : Nat) (h : Nat) : LM σ Unit := logRollbackWith env W L (logConsume env W L fuel) h

/-- transaction.go 49-108 `Commit`. -/
def logCommit (fuel : Nat) (h : Nat) : LM σ Unit := logCommitWith env W L (logConsume env W L fuel) h

/-- connection.go 428-460 `Close`. -/
def logClose (fuel : Nat) : LM σ Unit := logCloseWith env W L (logRollback env W L fuel)

/-- connection.go 462-468 `MakeIdle`. -/
def logMakeIdle (fuel : Nat) : LM σ Unit := do
  match (← LM.get).cur with
  | some h => logRollback env W L fuel h
  | none => Pure.pure ()

/-- connection.go 470-527 `BeginWithDatabase`. -/
def logBegin (fuel : Nat) (db : Bytes) : LM σ Nat := do
  if (← LM.get).cur.isSome then LM.fail (.new "transaction already open")
  else if (← LM.get).closed then LM.fail (.new "can not open transaction on closed connection")
  else do
    let c ← LM.get
    logTxExchange env W L (logConsume env W L fuel) (c.proto.txBeginMessage db c.mode) "Unrecognized response type beginning transaction" none
    let h := (← LM.get).txs.length
    LM.lift (CM.modify fun c => { c with txs := c.txs ++ [false], cur := some h })
    Pure.pure h

/-- connection.go 409-425: the loop of `runQuery`. -/
def logRowsLoop (consume : LM σ Val) : Nat → List (List Val) → LM σ (List (List Val) × Entries)
  | 0, _ => LM.lift fun c => (.fuel, c)
  | n + 1, output => do
    let resp ← consume
    match asSuccess resp with
    | some md => do
      LM.say (.trace (L.text "Got success message: %#v" resp))
      Pure.pure (output, md)
    | none =>
      match asRecord resp with
      | some fs => do
        LM.say (.trace (L.text "Got record message: %#v" resp))
        logRowsLoop consume n (output ++ [fs])
      | none => LM.fail (.new "Unrecognized response type getting next runQuery row")

/-- connection.go 373-426 `runQuery`. -/
def logRunQuery (fuel : Nat) (query : Bytes) (params : Entries) (db : Bytes) (inTx : Bool) : LM σ (List (List Val) × Entries) := do
  if (← LM.get).closed then LM.fail (.new "connection already closed")
  else do
    let c ← LM.get
    LM.say (.trace (ascii "running query"))
    logSend env W L (c.proto.runMessage query params db c.mode (!inTx))
    LM.say (.trace (ascii "running pull all"))
    logSend env W L c.proto.pullAllMessage
    let resp ← logConsume env W L fuel
    LM.say (.trace (L.text "pull all response [%#v]" resp))
    match asSuccess resp with
    | none => LM.fail (.plain "unexpected response type")
    | some _ => fun c => logRowsLoop L (logConsume env W L fuel) (streamLen c.segs + 1) [] c

/-- connection.go 343-371 `ExecWithDb`, `QueryWithDb`, transaction.go 19-47: the check of the database, then `runQuery`. -/
def logQueryWithDb (fuel : Nat) (query : Bytes) (params : Entries) (db : Bytes) (inTx : Bool) : LM σ (List (List Val) × Entries) := do
  LM.lift (checkDb db)
  logRunQuery env W L fuel query params db inTx

/-- connection.go 286-305 `sendInit`. -/
def logSendInit (fuel : Nat) (message : Val) : LM σ Unit := do
  logSend env W L message
  let resp ← logConsume env W L fuel
  match asSuccess resp with
  | some _ => LM.say (.info (L.text "Successfully initiated Bolt connection: %+v" resp))
  | none => do
    LM.say (.error (L.text "Got an unrecognized message when initializing connection :%+v" resp))
    logClose env W L fuel

/-- connection.go 277: `%v` of a version number. -/
def versionText (p : Proto) : Bytes :=
  ascii "Using protocol version " ++ (match p with | .v1 => ascii "1" | .v2 => ascii "2" | .v3 => ascii "3" | .v4 => ascii "4")

/-- connection.go 257-284 `initialize`. -/
def logInit (fuel : Nat) (user password : Bytes) : LM σ Unit := do
  LM.lift (createConnection W)
  let versionBytes ← LM.mapErr (fun e => e.wrap "handshake failed") (LM.lift (handshake W))
  match getProtocol versionBytes with
  | (some p, version, _) => do
    LM.say (.trace (versionText p))
    LM.lift (CM.modify fun c => { c with proto := p, version := version, versionBytes := versionBytes })
    logSendInit env W L fuel (p.initMessage clientID (buildAuthTokenBasic user password))
  | (none, _, some e) => LM.fail e
  | (none, _, none) => LM.fail (.plain "unreachable")

/-- connection.go 92-104 `CreateBoltConn`, after the connection string has been parsed. -/
def logCreate (fuel : Nat) (user password : Bytes) (w : σ) : CRes Unit × Conn σ × List LogCall :=
  logInit env W L fuel user password (Conn.fresh w)

end
end Verif
