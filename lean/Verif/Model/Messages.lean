/-
Messages and their constructors (/repo/structures/messages/*.go).

A message is a structure value `Val.struct kind fields` with the Go struct fields in declaration order.  Go maps are association lists; a
map built here lists its entries in the order of insertion, Go iterates over it in any order (theorems about the wire quantify over
permutations, see C17).
-/
import Verif.Model.Val
namespace Verif

/-- A Go string constant (all constants in /repo are ASCII). -/
def ascii (s : String) : Bytes := s.toList.map fun c => UInt8.ofNat c.toNat

/-- /repo/bolt_mode/consts.go 3-8: `type AccessMode int`. -/
abbrev AccessMode := Int

/-- consts.go 6 `ReadMode`. -/
def readMode : AccessMode := 0

/-- consts.go 7 `WriteMode`. -/
def writeMode : AccessMode := 1

/-- `if cond { m[k] = v }`. -/
def putIf (c : Bool) (m : Entries) (k : Bytes) (v : Val) : Entries := if c then mapInsert m k v else m

/-- builder.go 23-58 `BuildTxMetadataWithDatabase`.  `timeout` is the `*time.Duration` (nanoseconds; `none` is nil); a nil `txMetadata` is
the empty map.  `bookmark` is not used by the code (line 25).  `Milliseconds()` divides by 10^6 and truncates towards zero.  The early return of lines 31-33
gives the empty map, which is also what the rest of the function yields in that case. -/
def buildTxMetadataWithDatabase (timeout : Option Int) (txMetadata : Entries) (db : Bytes) (mode : AccessMode) : Entries :=
  let m : Entries := []
  let m := match timeout with
    | some d => putIf (d ≠ 0) m (ascii "tx_timeout") (.int .int64 (Int.tdiv d 1000000))
    | none => m
  let m := putIf (txMetadata.length ≠ 0) m (ascii "tx_metadata") (.map txMetadata)
  let m := putIf (mode ≠ readMode) m (ascii "mode") (.str (ascii "r"))
  putIf (db ≠ []) m (ascii "db") (.str db)

/-- builder.go 19-21 `BuildTxMetadata`. -/
def buildTxMetadata (timeout : Option Int) (txMetadata : Entries) (mode : AccessMode) : Entries :=
  buildTxMetadataWithDatabase timeout txMetadata [] mode

/-- init.go 24-36 `BuildAuthTokenBasicWithRealm`: the realm is added only when it is empty (line 31). -/
def buildAuthTokenBasicWithRealm (username password realm : Bytes) : Entries :=
  putIf (realm = [])
    [(ascii "scheme", .str (ascii "basic")), (ascii "principal", .str username), (ascii "credentials", .str password)]
    (ascii "realm") (.str realm)

/-- init.go 38-40 `BuildAuthTokenBasic`. -/
def buildAuthTokenBasic (username password : Bytes) : Entries := buildAuthTokenBasicWithRealm username password []

/-- init.go 42-48 `BuildAuthTokenKerberos`. -/
def buildAuthTokenKerberos (ticket : Bytes) : Entries :=
  [(ascii "scheme", .str (ascii "kerberos")), (ascii "principal", .str []), (ascii "credentials", .str ticket)]

/-- init.go 51-58 `NewInitMessage`. -/
def newInitMessage (client : Bytes) (auth : Entries) : Val := .struct .init [.str client, .map auth]

/-- hello.go 14-18 `NewHelloMessage`. -/
def newHelloMessage (md : Entries) : Val := .struct .hello [.map md]

/-- goodbye.go 12-14 `NewGoodbyeMessage`. -/
def newGoodbyeMessage : Val := .struct .goodbye []

/-- reset.go 14-16 `NewResetMessage`. -/
def newResetMessage : Val := .struct .reset []

/-- run.go 17-22 `NewRunMessage`; nil parameters are the empty map. -/
def newRunMessage (stmt : Bytes) (params : Entries) : Val := .struct .run [.str stmt, .map params]

/-- run_with_metadata.go 32-38 `newRunMessageWithMetadata`. -/
def newRunMessageWithMetadata (stmt : Bytes) (params md : Entries) : Val :=
  .struct .runWithMetadata [.str stmt, .map params, .map md]

/-- run_with_metadata.go 23-25 `NewAutoCommitTxRunMessage`. -/
def newAutoCommitTxRunMessage (stmt : Bytes) (params : Entries) (timeout : Int) (txConfig : Entries) (db : Bytes) (mode : AccessMode) : Val :=
  newRunMessageWithMetadata stmt params (buildTxMetadataWithDatabase (some timeout) txConfig db mode)

/-- run_with_metadata.go 28-30 `NewUnmanagedTxRunMessage`. -/
def newUnmanagedTxRunMessage (stmt : Bytes) (params : Entries) : Val := newRunMessageWithMetadata stmt params []

/-- tx.go 22-24, 39-43, 55-57. -/
def newCommitMessage : Val := .struct .commit []
/-- tx.go 39-43 `NewBeginMessage`. -/
def newBeginMessage (md : Entries) : Val := .struct .begin_ [.map md]
/-- tx.go 55-57 `NewRollbackMessage`. -/
def newRollbackMessage : Val := .struct .rollback []

/-- pull_all.go 14-16 `NewPullAllMessage`. -/
def newPullAllMessage : Val := .struct .pullAll []

/-- discard_all.go 14-16 `NewDiscardAllMessage`. -/
def newDiscardAllMessage : Val := .struct .discardAll []

/-- pull.go 8-9 `StreamUnlimited`, `AbsentQueryId`. -/
def streamUnlimited : Int := -1
/-- pull.go 9 `AbsentQueryId`. -/
def absentQueryId : Int := -1

/-- Metadata map built by pull.go 19-25 and discard.go 17-23. -/
def streamMetadata (n id : Int) : Entries :=
  putIf (id ≠ absentQueryId) [(ascii "n", .int .int64 n)] (ascii "qid") (.int .int64 id)

/-- pull.go 18-30 `NewPullMessage`. -/
def newPullMessage (n id : Int) : Val := .struct .pull [.map (streamMetadata n id)]

/-- discard.go 16-27 `NewDiscardMessage`.  Its `AllFields` (35-37) is empty: see `encode`. -/
def newDiscardMessage (n id : Int) : Val := .struct .discard [.map (streamMetadata n id)]

/-- responses.go 41-56 `GetAvailableAfter` of a SUCCESS message with metadata `md`. -/
def getAvailableAfter (md : Entries) : Int :=
  match mapGet md (ascii "result_available_after") with
  | some (.int .int64 n) => n
  | _ => -1

/-- responses.go 131-143 `GetCode`. -/
def failureCode (md : Entries) : Bytes :=
  match mapGet md (ascii "code") with
  | none => ascii "none"
  | some (.str s) => s
  | some _ => ascii "failed to parse code string"

/-- responses.go 146-158 `GetMessage`. -/
def failureMessage (md : Entries) : Bytes :=
  match mapGet md (ascii "message") with
  | none => ascii "none"
  | some (.str s) => s
  | some _ => ascii "failed to parse message to string"

/-- responses.go 162-164 `Error`. -/
def failureError (md : Entries) : Bytes :=
  ascii "code: [" ++ failureCode md ++ ascii "]; message: [" ++ failureMessage md ++ ascii "]"

end Verif
