/-
The types for parameters and rows and their methods (/repo/connection/const.go 19-40).
-/
import Verif.Model.Decode
namespace Verif

/-- A `*QueryParams` (const.go 19): `nilPtr` is the nil pointer, `nilMap` points to a nil map, `ref m` to the map `m`.  The methods have pointer
receivers, so that all three can occur. -/
inductive ParamsPtr where
  | nilPtr
  | nilMap
  | ref (m : Entries)

/-- `GetMap` (const.go 21-23): `return *q`.  `none` is the nil map. -/
def ParamsPtr.getMap : ParamsPtr → Res (Option Entries)
  | .nilPtr => .panic
  | .nilMap => .ok none
  | .ref m => .ok (some m)

/-- The loop of `GetKeys` (const.go 28-31): `keys[i] = k; i++` for the keys in the order of the iteration.  Writing behind the end of the slice
is a run-time panic. -/
def storeKeys : List Bytes → Nat → Entries → Res (List Bytes)
  | keys, _, [] => .ok keys
  | keys, i, (k, _) :: es => if i < keys.length then storeKeys (keys.set i k) (i + 1) es else .panic

/-- `GetKeys` (const.go 25-34): a slice of `len(*q)` empty strings is filled in the loop.  `iter m` is the order in which Go iterates over the map
`m` this time; the length of a nil map is 0 and iterating over it does nothing. -/
def ParamsPtr.getKeys (iter : Entries → Entries) : ParamsPtr → Res (List Bytes)
  | .nilPtr => .panic
  | .nilMap => storeKeys (List.replicate 0 []) 0 []
  | .ref m => storeKeys (List.replicate m.length []) 0 (iter m)

/-- `(*NeoRows).Get2DSlice` (const.go 36-40): `return *n`.  The nil pointer is `none`; a nil slice of rows is not told from an empty one. -/
def get2DSlice : Option (List (List Val)) → Res (List (List Val))
  | none => .panic
  | some rows => .ok rows

end Verif
