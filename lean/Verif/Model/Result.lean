/-
Counters of a result (/repo/connection/result.go).
-/
import Verif.Model.Messages
namespace Verif

/-- What a counter accessor does: return `(n, ok)` or panic. -/
inductive Counted where
  | val (n : Int) (ok : Bool)
  | panic
  deriving DecidableEq, Repr

/-- result.go 13-25 `GetStats`: `none` is `(nil, false)`.  A nil metadata map is the empty map. -/
def getStats (md : Entries) : Option Entries :=
  match mapGet md (ascii "stats") with
  | some (.map m) => some m
  | _ => none

/-- `num.(int64)` for `num, ok := stats[key]`: a missing key gives the nil interface, whose type assertion panics. -/
def assertInt64 (v : Option Val) (ok : Bool) : Counted :=
  match v with
  | some (.int .int64 n) => .val n ok
  | _ => .panic

/-- The common body of result.go 27-35, 37-45, 60-68: the assertion is made whether or not the key is there. -/
def counterUnchecked (md : Entries) (key : Bytes) : Counted :=
  match getStats md with
  | none => .val (-1) false
  | some s => assertInt64 (mapGet s key) (mapGet s key).isSome

/-- result.go 27-35 `GetNodesCreated`. -/
def getNodesCreated (md : Entries) : Counted := counterUnchecked md (ascii "nodes-created")

/-- result.go 37-45 `GetRelationshipsCreated`. -/
def getRelationshipsCreated (md : Entries) : Counted := counterUnchecked md (ascii "relationships-created")

/-- result.go 47-58 `GetNodesDeleted`: the only one that looks at `ok` before the assertion. -/
def getNodesDeleted (md : Entries) : Counted :=
  match getStats md with
  | none => .val (-1) false
  | some s =>
    match mapGet s (ascii "nodes-deleted") with
    | none => .val (-1) false
    | some v => assertInt64 (some v) true

/-- result.go 60-68 `GetRelationshipsDeleted`. -/
def getRelationshipsDeleted (md : Entries) : Counted := counterUnchecked md (ascii "relationships-deleted")

end Verif
