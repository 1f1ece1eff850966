/-
Go values handled by the codec.
-/
import Verif.Model.Errors
namespace Verif

/-- The ten Go integer types of the type switch in `encode` (encoderV2.go 123-145, encoderV1.go 118-140).
`int`/`uint` are 64 bit wide (64-bit platforms only). -/
inductive IntKind where
  | int | int8 | int16 | int32 | int64 | uint | uint8 | uint16 | uint32 | uint64
  deriving DecidableEq, Repr

/-- Structures: every type of /repo that implements `structures.Structure`
(/repo/structures/structures.go 3-7), plus `custom` for implementations by the user of the library.
`point2D`/`point3D` carry `ptr = true` for the pointer types `*Point2D`/`*Point3D`, whose method sets contain
`Signature`/`AllFields`; the value types (`ptr = false`) do not implement the interface
(/repo/structures/types/point.go 16-35). -/
inductive StructKind where
  | node | relationship | unboundRelationship | path
  | point2D (ptr : Bool) | point3D (ptr : Bool)
  | success | record | ignored | failure
  | init | hello | goodbye | reset
  | run | runWithMetadata | begin_ | commit | rollback
  | discard | discardAll | pull | pullAll
  | custom (sig : UInt8)
  deriving DecidableEq, Repr

/-- Dynamic values of Go's `interface{}` as seen by `encode`/`decode`.

* `int k n`: an integer of type `k`.
* `float32 b`: a float32 with bit pattern `b`; `float64 b` a float64 with bit pattern `b`.
* `list iface vs`: a slice; `iface = true` for `[]interface{}`, `false` for any other slice type.
* `map es`: a `map[string]interface{}`; `es` lists the entries in the order in which Go iterates over the map.
  A nil map is `map []`.
* `struct k fs`: a structure with its Go struct fields in declaration order. Slices of labels, nodes, relationships and
  sequence numbers inside graph structures are kept as `list true`, which is what
  `AllFields` hands to the encoder (/repo/structures/graph/node.go 20-27, path.go 20-35).
* `date d`, `clock n o`, `localClock n`, `localTime s n`: `gotime` values, represented by the numbers
  that the codec reads from them (encoderV2.go 202-272): epoch days; nanoseconds of the day and zone offset;
  nanoseconds of the day; local seconds and nanoseconds.  The calendar conversions inside the third-party package
  `gotime` are outside the model.
* `time s n o`: a `time.Time` with unix seconds `s`, nanoseconds `n` and zone offset `o` (seconds).
* `duration d`: a `time.Duration` of `d` nanoseconds.
* `other`: a value of any other type (named scalars, arrays, maps of other types, pointers, channels, ...). -/
inductive Val where
  | nil
  | bool (b : Bool)
  | int (k : IntKind) (n : Int)
  | float32 (b : UInt32)
  | float64 (b : UInt64)
  | str (s : Bytes)
  | list (iface : Bool) (vs : List Val)
  | map (es : List (Bytes × Val))
  | struct (k : StructKind) (fs : List Val)
  | date (days : Int)
  | clock (nanos : Int) (off : Int)
  | localClock (nanos : Int)
  | localTime (sec : Int) (nanos : Int)
  | time (sec : Int) (nanos : Int) (off : Int)
  | duration (nanos : Int)
  | other

/-- Map entries in iteration order. -/
abbrev Entries := List (Bytes × Val)

/-- Errors of the driver; FAILURE metadata is a map. -/
abbrev Err := GoErr Entries

/-- The two codec versions (/repo/encoding/encoding_v1, /repo/encoding/encoding_v2). -/
inductive Ver where
  | v1 | v2
  deriving DecidableEq, Repr

/-- Ambient functions outside the model (IEEE arithmetic and the time-zone database).
* `f32 b`: bit pattern of `float64(x)` for the float32 `x` with pattern `b` (encoderV2.go 147).
* `dur d`: bit patterns of `d.Seconds()/2600640`, `d.Seconds()/86400`, `d.Seconds()` (encoderV2.go 306-308).
* `tz name`: `time.LoadLocation(name)`: zone offset in seconds at each unix instant (decoderV2.go 487-494). -/
structure Env where
  f32 : UInt32 → UInt64
  dur : Int → UInt64 × UInt64 × UInt64
  tz : Bytes → Option (Int → Int)

/-- Value range of a Go integer type. -/
def IntKind.InRange : IntKind → Int → Prop
  | .int, n | .int64, n => -2 ^ 63 ≤ n ∧ n < 2 ^ 63
  | .int8, n => -2 ^ 7 ≤ n ∧ n < 2 ^ 7
  | .int16, n => -2 ^ 15 ≤ n ∧ n < 2 ^ 15
  | .int32, n => -2 ^ 31 ≤ n ∧ n < 2 ^ 31
  | .uint, n | .uint64, n => 0 ≤ n ∧ n < 2 ^ 64
  | .uint8, n => 0 ≤ n ∧ n < 2 ^ 8
  | .uint16, n => 0 ≤ n ∧ n < 2 ^ 16
  | .uint32, n => 0 ≤ n ∧ n < 2 ^ 32

instance (k : IntKind) (n : Int) : Decidable (k.InRange n) := by
  cases k <;> unfold IntKind.InRange <;> infer_instance

/-- Update of a Go map kept as an association list without duplicate keys: replaces the value of an existing
key, otherwise adds the key (`mapp[key] = val`, decoderV2.go 275). -/
def mapInsert (m : Entries) (k : Bytes) (v : Val) : Entries :=
  match m with
  | [] => [(k, v)]
  | (k', v') :: m' => if k' = k then (k, v) :: m' else (k', v') :: mapInsert m' k v

/-- Lookup in a Go map. -/
def mapGet (m : Entries) (k : Bytes) : Option Val :=
  match m with
  | [] => none
  | (k', v') :: m' => if k' = k then some v' else mapGet m' k

/-- `Signature()` of each structure, truncated to a byte as the encoder does (encoderV2.go 579). Sources:
/repo/structures/graph/*.go, /repo/structures/messages/*.go (constants `*Signature`), /repo/structures/types/point.go 4-7. -/
def StructKind.sig : StructKind → UInt8
  | .node => 0x4E
  | .relationship => 0x52
  | .unboundRelationship => 0x72
  | .path => 0x50
  | .point2D _ => 0x58
  | .point3D _ => 0x59
  | .success => 0x70
  | .record => 0x71
  | .ignored => 0x7E
  | .failure => 0x7F
  | .init => 0x01
  | .hello => 0x01
  | .goodbye => 0x02
  | .reset => 0x0F
  | .run => 0x10
  | .runWithMetadata => 0x10
  | .begin_ => 0x11
  | .commit => 0x12
  | .rollback => 0x13
  | .discard => 0x2F
  | .discardAll => 0x2F
  | .pull => 0x3F
  | .pullAll => 0x3F
  | .custom s => s

/-- Does the Go type implement `structures.Structure`?  Value points do not (point.go 16-35). -/
def StructKind.isStructure : StructKind → Bool
  | .point2D ptr => ptr
  | .point3D ptr => ptr
  | _ => true

end Verif
