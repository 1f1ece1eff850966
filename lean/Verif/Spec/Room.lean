/-
An upper bound for the space a Go value can need on the wire.
-/
import Verif.Model.Val
namespace Verif.Spec

mutual
/-- At most this many bytes: one marker byte and up to eight more for numbers, one marker byte and up to four length bytes for strings and containers,
one signature byte for structures. -/
def room : Val → Nat
  | .nil | .bool _ | .other => 1
  | .int _ _ | .float32 _ | .float64 _ => 9
  | .str s => 5 + s.length
  | .list _ vs => 5 + roomList vs
  | .map es => 5 + roomEntries es
  | .struct _ fs => 6 + roomList fs
  | .date _ | .clock _ _ | .localClock _ | .localTime _ _ | .time _ _ _ | .duration _ => 38

def roomList : List Val → Nat
  | [] => 0
  | v :: vs => room v + roomList vs

def roomEntries : List (Bytes × Val) → Nat
  | [] => 0
  | (k, v) :: es => 5 + k.length + room v + roomEntries es
end

end Verif.Spec
