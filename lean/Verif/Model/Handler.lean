/-
Interpretation of the cluster overview (/repo/routing/routing_handler.go, /repo/routing/util.go 22-29).
-/
import Verif.Model.Protocol
import Verif.Model.Url
namespace Verif

/-- routing_handler.go 18-24 `neoNodeType`; `unknown` is the value -1 (line 289). -/
inductive NodeType where
  | leader | follower | readReplica | unknown
  deriving DecidableEq, Repr

/-- routing_handler.go 26-34 `neoNodeConfig`, without `Database` and `Groups`, which are never set (lines 149-150). -/
structure NodeConfig where
  id : Bytes
  addresses : List Bytes
  boltString : Bytes
  action : AccessMode
  type : NodeType
  deriving DecidableEq

/-- routing_handler.go 36-40 `boltRoutingHandler`.  (A nil slice and an empty slice are treated alike everywhere.) -/
structure Handler where
  leaders : List NodeConfig
  followers : List NodeConfig
  readReplicas : List NodeConfig
  deriving DecidableEq

namespace Handler

/-- pool.go 84-88: nothing is known yet. -/
def empty : Handler := ⟨[], [], []⟩

/-- routing_handler.go 66-76 `getWriteConnectionStrings`. -/
def getWriteConnectionStrings (h : Handler) : List Bytes := h.leaders.map (·.boltString)

/-- routing_handler.go 78-94 `getReadOnlyConnectionString`. -/
def getReadOnlyConnectionString (h : Handler) : List Bytes := h.followers.map (·.boltString) ++ h.readReplicas.map (·.boltString)

end Handler

/-- `strings.ToLower` (routing_handler.go 281), exact as far as comparison with the ASCII strings of `infoFromRoleString` is concerned: besides the upper-case ASCII letters only U+0130
(bytes C4 B0) and U+212A (bytes E2 84 AA) have an ASCII lower-case form ('i' and 'k').  All other bytes are kept; Go maps them to other non-ASCII bytes. -/
def roleLower : Bytes → Bytes
  | [] => []
  | 0xC4 :: 0xB0 :: s => 0x69 :: roleLower s
  | 0xE2 :: 0x84 :: 0xAA :: s => 0x6B :: roleLower s
  | b :: s => (if Url.isUpper b then b + 0x20 else b) :: roleLower s

/-- routing_handler.go 280-291 `infoFromRoleString`. -/
def infoFromRoleString (s : Bytes) : NodeType × AccessMode :=
  if roleLower s = ascii "leader" then (.leader, writeMode)
  else if roleLower s = ascii "follower" then (.follower, readMode)
  else if roleLower s = ascii "read_replica" then (.readReplica, readMode)
  else (.unknown, -1)

/-- The loop of `convertInterfaceToStringArr` (routing_handler.go 270-275). -/
def stringsOf : List Val → Except Err (List Bytes)
  | [] => .ok []
  | .str s :: vs => do
    let ss ← stringsOf vs
    .ok (s :: ss)
  | _ :: _ => .error (.new "unable to parse interface{} to string")

/-- routing_handler.go 254-278 `convertInterfaceToStringArr`. -/
def convertInterfaceToStringArr : Val → Except Err (List Bytes)
  | .nil => .error (.new "iarr cannot be nil")
  | .list true vs => stringsOf vs
  | _ => .error (.new "unable to cast to []interface{}")

/-- routing_handler.go 181-212 `parseRowV4`: id, addresses, role. -/
def parseRowV4 (row : List Val) : Except Err (Bytes × List Bytes × Bytes) :=
  match row with
  | [c0, c1, c2, _] =>
    match c0 with
    | .str id =>
      match convertInterfaceToStringArr c1 with
      | .error _ => .error (.new "unable to parse addresses into []string")
      | .ok addresses =>
        match c2 with
        | .map databases =>
          match mapGet databases (ascii "system") with
          | none => .error (.new "role not found")
          | some (.str role) => .ok (id, addresses, role)
          | some _ => .error (.plain "unable to convert role")
        | _ => .error (.new "unable to parse addresses into map[string]interface{}")
    | _ => .error (.new "unable to parse id into string")
  | _ => .error (.plain "expected [4] rows")

/-- routing_handler.go 218-252 `parseRowV3`: id, addresses, role (groups and database are checked, and dropped by the caller, line 124). -/
def parseRowV3 (row : List Val) : Except Err (Bytes × List Bytes × Bytes) :=
  match row with
  | [c0, c1, c2, c3, c4] =>
    match c0 with
    | .str id =>
      match convertInterfaceToStringArr c1 with
      | .error _ => .error (.new "unable to parse addresses into []string")
      | .ok addresses =>
        match c2 with
        | .str role =>
          match convertInterfaceToStringArr c3 with
          | .error _ => .error (.new "unable to parse groups into []string")
          | .ok _ =>
            match c4 with
            | .str _ => .ok (id, addresses, role)
            | _ => .error (.new "unable to parse database into string")
        | _ => .error (.new "unable to parse role into string")
    | _ => .error (.new "unable to parse id into string")
  | _ => .error (.plain "invalid number of rows for query")

/-- routing_handler.go 130-136: the last address that contains "bolt" (empty if there is none). -/
def boltAddress (addresses : List Bytes) : Bytes :=
  addresses.foldl (fun acc str => if Url.contains (ascii "bolt") str then str else acc) []

/-- routing_handler.go 118-168: the loop over the rows.  The accumulator holds the local variables `leaders`, `followers`, `readReplicas`. -/
def interpretRows (version : Nat) : List (List Val) → Handler → Except Err Handler
  | [], acc => .ok acc
  | row :: rows, acc =>
    match (if version = 4 then parseRowV4 row else parseRowV3 row) with
    | .error e => .error e
    | .ok (id, addresses, role) =>
      if boltAddress addresses = [] then interpretRows version rows acc
      else
        let (type, action) := infoFromRoleString role
        let node : NodeConfig := ⟨id, addresses, boltAddress addresses, action, type⟩
        match type with
        | .leader => interpretRows version rows { acc with leaders := acc.leaders ++ [node] }
        | .follower => interpretRows version rows { acc with followers := acc.followers ++ [node] }
        | .readReplica => interpretRows version rows { acc with readReplicas := acc.readReplicas ++ [node] }
        | .unknown => .error (.plain "unknown node type")

/-- routing_handler.go 15 `clusterOverview`. -/
def clusterOverview : Bytes := ascii "call dbms.cluster.overview()"

/-- routing_handler.go 16 `neoV4SystemDb`; earlier protocols do not name a database (line 107). -/
def overviewDb (version : Nat) : Bytes := if version = 4 then ascii "system" else []

/-- routing_handler.go 96-175 `refreshClusterInfo`, given the protocol version of the connection and the outcome of the query (lines 104-108): the new state of the handler
and the error. -/
def Handler.refreshClusterInfo (h : Handler) (version : Nat) (answer : Except Err (List (List Val))) : Handler × Option Err :=
  match answer with
  | .error e => (h, some e)
  | .ok rows =>
    match interpretRows version rows Handler.empty with
    | .error e => (h, some e)
    | .ok h' => (h', none)

/-- util.go 22-29 `stringSliceContains`. -/
def stringSliceContains : List Bytes → Bytes → Bool
  | [], _ => false
  | a :: s, e => if a = e then true else stringSliceContains s e

end Verif
