/-
Requests as PackStream trees, as the Bolt protocol prescribes them for each version.
-/
import Verif.Model.Protocol
import Verif.Spec.PackStream
namespace Verif.Spec

/-- PULL_ALL of versions 1 to 3. -/
def pullAllTree : PS := .struct 0x3F []

/-- Request to fetch all rows: PULL_ALL, or PULL {n: -1} in version 4. -/
def pullTree : Proto → PS
  | .v4 => .struct 0x3F [.map [(ascii "n", .int (-1))]]
  | _ => pullAllTree

/-- The requests that end a transaction: `RUN verb {}` and PULL_ALL in versions 1 and 2, a message of its own in versions 3 and 4. -/
def endTxTrees (p : Proto) (verb : Bytes) (sig : UInt8) : List PS :=
  match p with
  | .v1 | .v2 => [.struct 0x10 [.str verb, .map []], pullAllTree]
  | .v3 | .v4 => [.struct sig []]

def commitTrees (p : Proto) : List PS := endTxTrees p (ascii "COMMIT") 0x12
def rollbackTrees (p : Proto) : List PS := endTxTrees p (ascii "ROLLBACK") 0x13

/-- Metadata of a transaction on database `db` in access mode `mode` (as the driver announces it, see C29). -/
def txMetaTree (db : Bytes) (mode : AccessMode) : PS :=
  .map ((if mode = 0 then [] else [(ascii "mode", .str (ascii "r"))]) ++ (if db = [] then [] else [(ascii "db", .str db)]))

/-- The requests that begin a transaction. -/
def beginTrees (p : Proto) (db : Bytes) (mode : AccessMode) : List PS :=
  match p with
  | .v1 | .v2 => [.struct 0x10 [.str (ascii "BEGIN"), .map []], pullAllTree]
  | .v3 | .v4 => [.struct 0x11 [txMetaTree db mode]]

/-- The request to run a query with parameters `pt`.  In versions 3 and 4 the message has metadata, which is empty inside a transaction. -/
def runTree (p : Proto) (query : Bytes) (pt : PS) (db : Bytes) (mode : AccessMode) (inTx : Bool) : PS :=
  match p with
  | .v1 | .v2 => .struct 0x10 [.str query, pt]
  | .v3 | .v4 => .struct 0x10 [.str query, pt, if inTx then .map [] else txMetaTree db mode]

end Verif.Spec
