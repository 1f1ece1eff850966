/-
Protocol versions (/repo/protocol).
-/
import Verif.Model.Messages
namespace Verif

/-- The four implementations of `IBoltProtocol` (/repo/protocol/interface.go 16-52): `BoltProtocolV1` ... `BoltProtocolV4`. -/
inductive Proto where
  | v1 | v2 | v3 | v4
  deriving DecidableEq, Repr

namespace Proto

/-- `NewEncoder`/`NewDecoder`/`Marshal`/`Unmarshal`: version 1 uses encoding_v1 (protocol_v1/bolt.go 63-77), the others encoding_v2
(protocol_v2/bolt.go 63-77, protocol_v3/bolt.go 72-86, protocol_v4/bolt.go 72-86). -/
def codec : Proto → Ver
  | v1 => .v1
  | _ => .v2

/-- `ProtocolVersion` (protocol_v*/const.go 4). -/
def number : Proto → Int
  | v1 => 1
  | v2 => 2
  | v3 => 3
  | v4 => 4

/-- `SupportsMultiDatabase` (protocol_v1/bolt.go 31, v2 31, v3 30, v4 30). -/
def supportsMultiDatabase : Proto → Bool
  | v4 => true
  | _ => false

/-- `GetInitMessage` (v1/v2 bolt.go 51-53; v3/v4 bolt.go 34-42). -/
def initMessage (p : Proto) (client : Bytes) (auth : Entries) : Val :=
  match p with
  | v1 | v2 => newInitMessage client auth
  | v3 | v4 => newHelloMessage (mapInsert auth (ascii "user_agent") (.str client))

/-- `GetCloseMessage` (v1/v2 bolt.go 35-37; v3/v4 bolt.go 44-46). -/
def closeMessage : Proto → Option Val
  | v1 | v2 => none
  | v3 | v4 => some newGoodbyeMessage

/-- `GetTxBeginMessage` (v1/v2 bolt.go 39-41; v3/v4 bolt.go 48-50). -/
def txBeginMessage (p : Proto) (db : Bytes) (mode : AccessMode) : Val :=
  match p with
  | v1 | v2 => newRunMessage (ascii "BEGIN") []
  | v3 | v4 => newBeginMessage (buildTxMetadataWithDatabase none [] db mode)

/-- `GetTxCommitMessage` (v1/v2 bolt.go 43-45; v3/v4 bolt.go 52-54). -/
def txCommitMessage : Proto → Val
  | v1 | v2 => newRunMessage (ascii "COMMIT") []
  | v3 | v4 => newCommitMessage

/-- `GetTxRollbackMessage` (v1/v2 bolt.go 47-49; v3/v4 bolt.go 56-58). -/
def txRollbackMessage : Proto → Val
  | v1 | v2 => newRunMessage (ascii "ROLLBACK") []
  | v3 | v4 => newRollbackMessage

/-- `GetRunMessage` (v1/v2 bolt.go 55-57; v3/v4 bolt.go 60-66). -/
def runMessage (p : Proto) (query : Bytes) (params : Entries) (db : Bytes) (mode : AccessMode) (autoCommit : Bool) : Val :=
  match p with
  | v1 | v2 => newRunMessage query params
  | v3 | v4 =>
    if autoCommit then newAutoCommitTxRunMessage query params 0 [] db mode else newUnmanagedTxRunMessage query params

/-- `GetPullAllMessage` (v1/v2 bolt.go 59-61, v3 bolt.go 68-70; v4 bolt.go 68-70). -/
def pullAllMessage : Proto → Val
  | v4 => newPullMessage streamUnlimited absentQueryId
  | _ => newPullAllMessage

/-- `GetDiscardMessage` (v1/v2 bolt.go 23-25; v3/v4 bolt.go 22-24). -/
def discardMessage (p : Proto) (qid : Int) : Val :=
  match p with
  | v1 | v2 => newDiscardAllMessage
  | v3 | v4 => newDiscardMessage streamUnlimited qid

/-- `GetDiscardAllMessage` (v1/v2 bolt.go 27-29, v3 bolt.go 26-28; v4 bolt.go 26-28). -/
def discardAllMessage : Proto → Val
  | v4 => newDiscardMessage streamUnlimited absentQueryId
  | _ => newDiscardAllMessage

/-- `GetResultAvailableAfterKey` (v1/v2 bolt.go 15-17; v3/v4 bolt.go 14-16). -/
def availableAfterKey : Proto → Bytes
  | v1 | v2 => ascii "result_available_after"
  | v3 | v4 => ascii "t_first"

/-- `GetResultConsumedAfterKey` (v1/v2 bolt.go 19-21; v3/v4 bolt.go 18-20). -/
def consumedAfterKey : Proto → Bytes
  | v1 | v2 => ascii "result_consumed_after"
  | v3 | v4 => ascii "t_last"

end Proto

/-- `ProtocolVersionBytes` (protocol_v*/const.go 8). -/
def protocolVersionBytes : Proto → Bytes
  | .v1 => [0x00, 0x00, 0x00, 0x01]
  | .v2 => [0x00, 0x00, 0x00, 0x02]
  | .v3 => [0x00, 0x00, 0x00, 0x03]
  | .v4 => [0x00, 0x00, 0x00, 0x04]

/-- protocol/util.go 13-29 `GetProtocol`: protocol, version number, error. -/
def getProtocol (version : Bytes) : Option Proto × Int × Option Err :=
  if version = [] then (none, -1, some (.plain "can not get protocol for nil or empty version"))
  else if version = protocolVersionBytes .v1 then (some .v1, 1, none)
  else if version = protocolVersionBytes .v2 then (some .v2, 2, none)
  else if version = protocolVersionBytes .v3 then (some .v3, 3, none)
  else if version = protocolVersionBytes .v4 then (some .v4, 4, none)
  else (none, -1, some (.plain "protocol not supported"))

end Verif
