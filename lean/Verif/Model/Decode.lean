/-
PackStream decoder on the de-chunked message buffer
(/repo/encoding/encoding_v1/decoderV1.go 103-525, /repo/encoding/encoding_v2/decoderV2.go 98-837).

The unread part of the `bytes.Buffer` is the state.  Go's recursion `decode -> decodeSlice/decodeMap/decodeStruct -> decode` is
modelled by fuel: `decodeF (n+1)` is the body of `decode` with recursive calls replaced by `decodeF n`.  Running out of fuel is a separate
outcome, proved impossible for fuel larger than the number of unread bytes (`Props/C12`).
-/
import Verif.Model.Encode
namespace Verif

/-- Outcome of a Go function that may panic. -/
inductive Res (α : Type) where
  | ok (a : α)
  | err (e : Err)
  | panic
  | fuel

/-- A decoding step: reads from the buffer, returns a value and the unread rest.  The buffer is
discarded after an error. -/
def Dec (α : Type) := Bytes → Res (α × Bytes)

namespace Dec
variable {α β : Type}

/-- Return a value without reading. -/
def pure (a : α) : Dec α := fun b => .ok (a, b)

/-- `x, err := m; if err != nil { return err }; f(x)`. -/
def bind (m : Dec α) (f : α → Dec β) : Dec β := fun b =>
  match m b with
  | .ok (a, b') => f a b'
  | .err e => .err e
  | .panic => .panic
  | .fuel => .fuel

instance : Monad Dec where
  pure := Dec.pure
  bind := Dec.bind

/-- `return nil, err`. -/
def fail (e : Err) : Dec α := fun _ => .err e

/-- A run-time panic. -/
def panic : Dec α := fun _ => .panic

/-- `if err != nil { return nil, errors.Wrap(err, msg) }`. -/
def wrapErr (msg : String) (m : Dec α) : Dec α := fun b =>
  match m b with
  | .err e => .err (e.wrap msg)
  | r => r
end Dec

/-- `buffer.ReadByte()`: `io.EOF` on an empty buffer. -/
def readByte : Dec UInt8 := fun b =>
  match b with
  | [] => .err .eof
  | x :: r => .ok (x, r)

/-- `binary.Read(buffer, binary.BigEndian, &out)` for a `k`-byte unsigned quantity: `io.ReadFull` semantics on a short buffer. -/
def readUnsigned (k : Nat) : Dec Nat := fun b =>
  if b.length = 0 then .err .eof
  else if b.length < k then .err .unexpectedEOF
  else .ok (ofBE (b.take k), b.drop k)

/-- `binary.Read` into a signed `k`-byte integer. -/
def readSigned (k : Nat) : Dec Int := do
  let n ← readUnsigned k
  pure (toSigned k n)

/-- `buffer.Next(n)`: at most the unread bytes; panics (slice bounds) if `n` is negative. -/
def next (n : Int) : Dec Bytes := fun b =>
  if n < 0 then .panic else .ok (b.take n.toNat, b.drop n.toNat)

/-- What the marker byte announces; the numbers are the width of the length or integer that follows. -/
inductive Marker where
  | nil | bool (b : Bool) | tinyInt (n : Int) | int (k : Nat) | float
  | tinyStr (n : Nat) | str (k : Nat)
  | tinyList (n : Nat) | list (k : Nat)
  | tinyMap (n : Nat) | map (k : Nat)
  | tinyStruct (n : Nat) | struct (k : Nat)
  | unknown
  deriving DecidableEq, Repr

/-- The `switch` of `decode` on the marker byte, decoderV2.go 113-242 (decoderV1.go 118-247), in source order. -/
def classify (m : UInt8) : Marker :=
  if m = 0xC0 then .nil
  else if m = 0xC3 then .bool true
  else if m = 0xC2 then .bool false
  else if toSigned 1 m.toNat ≥ -16 ∧ toSigned 1 m.toNat ≤ 127 then .tinyInt (toSigned 1 m.toNat)
  else if m = 0xC8 then .int 1
  else if m = 0xC9 then .int 2
  else if m = 0xCA then .int 4
  else if m = 0xCB then .int 8
  else if m = 0xC1 then .float
  else if 0x80 ≤ m.toNat ∧ m.toNat ≤ 0x80 + 0x0F then .tinyStr (m.toNat - 0x80)
  else if m = 0xD0 then .str 1
  else if m = 0xD1 then .str 2
  else if m = 0xD2 then .str 4
  else if 0x90 ≤ m.toNat ∧ m.toNat ≤ 0x90 + 0x0F then .tinyList (m.toNat - 0x90)
  else if m = 0xD4 then .list 1
  else if m = 0xD5 then .list 2
  else if m = 0xD6 then .list 4
  else if 0xA0 ≤ m.toNat ∧ m.toNat ≤ 0xA0 + 0x0F then .tinyMap (m.toNat - 0xA0)
  else if m = 0xD8 then .map 1
  else if m = 0xD9 then .map 2
  else if m = 0xDA then .map 4
  else if 0xB0 ≤ m.toNat ∧ m.toNat ≤ 0xB0 + 0x0F then .tinyStruct (m.toNat - 0xB0)
  else if m = 0xDC then .struct 1
  else if m = 0xDD then .struct 2
  else .unknown

/-- Loop of `decodeSlice`, decoderV2.go 248-254 (decoderV1.go 253-259). -/
def decodeN (dec : Dec Val) : Nat → Dec (List Val)
  | 0 => pure []
  | n + 1 => do
    let item ← dec
    let rest ← decodeN dec n
    pure (item :: rest)

/-- decoderV2.go 246-257 `decodeSlice` (decoderV1.go 251-262): `make([]interface{}, size)` panics on a negative size. -/
def decodeSlice (dec : Dec Val) (size : Int) : Dec Val :=
  if size < 0 then Dec.panic
  else do
    let vs ← decodeN dec size.toNat
    pure (.list true vs)

/-- Loop of `decodeMap`, decoderV2.go 261-276 (decoderV1.go 266-281): the key type is checked after the value was decoded. -/
def decodeEntries (dec : Dec Val) : Nat → Entries → Dec Entries
  | 0, m => pure m
  | n + 1, m => do
    let key ← dec
    let val ← dec
    match key with
    | .str k => decodeEntries dec n (mapInsert m k val)
    | _ => Dec.fail (.new "Unexpected key type")

/-- decoderV2.go 259-279 `decodeMap` (decoderV1.go 264-284).  A negative size is accepted by `make(map[string]interface{}, size)` and the
loop body is not executed. -/
def decodeMap (dec : Dec Val) (size : Int) : Dec Val := do
  let m ← decodeEntries dec size.toNat []
  pure (.map m)

/-- Type assertion `x.(int64)` without `ok`: panics on another type (decoderV2.go 640, 675, 681, 687, 760; decoderV1.go 328 ff.). -/
def mustInt64 (v : Val) : Dec Int :=
  match v with
  | .int .int64 n => pure n
  | _ => Dec.panic

/-- Type assertion `x.(int64)` with `ok` (decoderV2.go 341 ff.). -/
def needInt64 (v : Val) : Dec Int :=
  match v with
  | .int .int64 n => pure n
  | _ => Dec.fail (.plain "unable to cast to [int64]")

/-- Type assertion `x.(float64)` with `ok` (decoderV2.go 562 ff.). -/
def needFloat (v : Val) : Dec UInt64 :=
  match v with
  | .float64 b => pure b
  | _ => Dec.fail (.plain "unable to cast to [int64]")

/-- Type assertion `x.(string)` with `ok`. -/
def needStr (v : Val) : Dec Bytes :=
  match v with
  | .str s => pure s
  | _ => Dec.fail (.new "Expected: Type string")

/-- Type assertion `x.(map[string]interface{})` with `ok`. -/
def needMap (v : Val) : Dec Entries :=
  match v with
  | .map m => pure m
  | _ => Dec.fail (.new "Expected: map[string]interface{}")

/-- Type assertion `x.([]interface{})` with `ok`. -/
def needList (v : Val) : Dec (List Val) :=
  match v with
  | .list true vs => pure vs
  | _ => Dec.fail (.new "Expected: []interface{}")

/-- /repo/encoding/util.go 8-18 `SliceInterfaceToString`. -/
def sliceToString : List Val → Dec (List Val)
  | [] => pure []
  | .str s :: vs => do
    let r ← sliceToString vs
    pure (.str s :: r)
  | _ :: _ => Dec.fail (.new "Expected string value")

/-- /repo/encoding/util.go 20-26 `SliceInterfaceToInt`: panics on anything but int64; the result has element type `int`. -/
def sliceToInt : List Val → Dec (List Val)
  | [] => pure []
  | .int .int64 n :: vs => do
    let r ← sliceToInt vs
    pure (.int .int n :: r)
  | _ :: _ => Dec.panic

/-- /repo/encoding/util.go 28-38 `SliceInterfaceToNode`. -/
def sliceToNode : List Val → Dec (List Val)
  | [] => pure []
  | .struct .node fs :: vs => do
    let r ← sliceToNode vs
    pure (.struct .node fs :: r)
  | _ :: _ => Dec.fail (.new "Expected Node value")

/-- /repo/encoding/util.go 52-62 `SliceInterfaceToUnboundRelationship`. -/
def sliceToURel : List Val → Dec (List Val)
  | [] => pure []
  | .struct .unboundRelationship fs :: vs => do
    let r ← sliceToURel vs
    pure (.struct .unboundRelationship fs :: r)
  | _ :: _ => Dec.fail (.new "Expected UnboundRelationship value")

/-- decoderV2.go 633-666 `decodeNode` (decoderV1.go 321-354). -/
def decodeNode (dec : Dec Val) : Dec Val := do
  let idV ← dec
  let id ← mustInt64 idV
  let labelsV ← dec
  let labelsI ← needList labelsV
  let labels ← sliceToString labelsI
  let propsV ← dec
  let props ← needMap propsV
  pure (.struct .node [.int .int64 id, .list true labels, .map props])

/-- decoderV2.go 668-709 `decodeRelationship` (decoderV1.go 356-397). -/
def decodeRelationship (dec : Dec Val) : Dec Val := do
  let idV ← dec
  let id ← mustInt64 idV
  let startV ← dec
  let start ← mustInt64 startV
  let endV ← dec
  let end_ ← mustInt64 endV
  let typV ← dec
  let typ ← needStr typV
  let propsV ← dec
  let props ← needMap propsV
  pure (.struct .relationship [.int .int64 id, .int .int64 start, .int .int64 end_, .str typ, .map props])

/-- decoderV2.go 711-751 `decodePath` (decoderV1.go 399-439). -/
def decodePath (dec : Dec Val) : Dec Val := do
  let nodesV ← dec
  let nodesI ← needList nodesV
  let nodes ← sliceToNode nodesI
  let relsV ← dec
  let relsI ← needList relsV
  let rels ← sliceToURel relsI
  let seqV ← dec
  let seqI ← needList seqV
  let seq ← sliceToInt seqI
  pure (.struct .path [.list true nodes, .list true rels, .list true seq])

/-- decoderV2.go 753-782 `decodeUnboundRelationship` (decoderV1.go 441-470). -/
def decodeUnboundRelationship (dec : Dec Val) : Dec Val := do
  let idV ← dec
  let id ← mustInt64 idV
  let typV ← dec
  let typ ← needStr typV
  let propsV ← dec
  let props ← needMap propsV
  pure (.struct .unboundRelationship [.int .int64 id, .str typ, .map props])

/-- decoderV2.go 784-795 `decodeRecordMessage` (decoderV1.go 472-483). -/
def decodeRecord (dec : Dec Val) : Dec Val := do
  let fieldsV ← dec
  let fields ← needList fieldsV
  pure (.struct .record [.list true fields])

/-- decoderV2.go 797-808 `decodeFailureMessage` (decoderV1.go 485-496). -/
def decodeFailure (dec : Dec Val) : Dec Val := do
  let mdV ← dec
  let md ← needMap mdV
  pure (.struct .failure [.map md])

/-- decoderV2.go 814-825 `decodeSuccessMessage` (decoderV1.go 502-513). -/
def decodeSuccess (dec : Dec Val) : Dec Val := do
  let mdV ← dec
  let md ← needMap mdV
  pure (.struct .success [.map md])

/-- decoderV2.go 546-582 `decodePoint2D`. -/
def decodePoint2D (dec : Dec Val) : Dec Val := do
  let sridV ← dec
  let srid ← needInt64 sridV
  let xV ← dec
  let x ← needFloat xV
  let yV ← dec
  let y ← needFloat yV
  pure (.struct (.point2D false) [.int .int srid, .float64 x, .float64 y])

/-- decoderV2.go 584-631 `decodePoint3D`. -/
def decodePoint3D (dec : Dec Val) : Dec Val := do
  let sridV ← dec
  let srid ← needInt64 sridV
  let xV ← dec
  let x ← needFloat xV
  let yV ← dec
  let y ← needFloat yV
  let zV ← dec
  let z ← needFloat zV
  pure (.struct (.point3D false) [.int .int srid, .float64 x, .float64 y, .float64 z])

/-- decoderV2.go 334-347 `decodeDate`. -/
def decodeDate (dec : Dec Val) : Dec Val := do
  let dV ← dec
  let d ← needInt64 dV
  pure (.date d)

/-- decoderV2.go 349-374 `decodeTime` (a clock with offset). -/
def decodeClock (dec : Dec Val) : Dec Val := do
  let nV ← dec
  let n ← needInt64 nV
  let oV ← dec
  let o ← needInt64 oV
  pure (.clock n o)

/-- decoderV2.go 376-389 `decodeLocalTime`. -/
def decodeLocalClock (dec : Dec Val) : Dec Val := do
  let nV ← dec
  let n ← needInt64 nV
  pure (.localClock n)

/-- decoderV2.go 391-413 `decodeLocalDateTime`. -/
def decodeLocalTime (dec : Dec Val) : Dec Val := do
  let sV ← dec
  let s ← needInt64 sV
  let nV ← dec
  let n ← needInt64 nV
  pure (.localTime s n)

/-- Go `time.Unix(sec, nsec)`: nanoseconds outside `[0, 10^9)` are carried into the seconds. -/
def goUnix (sec nsec : Int) : Int × Int :=
  if nsec < 0 ∨ nsec ≥ 1000000000 then (wrap64 (sec + nsec / 1000000000), nsec % 1000000000)
  else (sec, nsec)

/-- decoderV2.go 415-453 `decodeDateTimeWithZoneOffset`: the wall-clock second count is read as an instant and then moved back
by the offset (`Add(time.Duration(-offset) * time.Second)`).  As in `encodeTime`, offsets for which
`offset * 1e9` overflows, and instants outside the range of int64, are outside the model (the specifications claim nothing about them). -/
def decodeDateTimeOffset (dec : Dec Val) : Dec Val := do
  let sV ← dec
  let s ← needInt64 sV
  let nV ← dec
  let n ← needInt64 nV
  let oV ← dec
  let o ← needInt64 oV
  let t := goUnix s n
  pure (.time (wrap64 (t.1 - o)) t.2 o)

/-- decoderV2.go 456-499 `decodeTimeWithZoneId`: the offset is looked up at the uncorrected instant (line 494). The resulting
`time.Time` shows the zone's offset at the corrected instant. -/
def decodeDateTimeZone (env : Env) (dec : Dec Val) : Dec Val := do
  let sV ← dec
  let s ← needInt64 sV
  let nV ← dec
  let n ← needInt64 nV
  let zV ← dec
  let z ← needStr zV
  match env.tz z with
  | none => Dec.fail (.plain "unable to load zone info")
  | some off =>
    let t := goUnix s n
    let s' := wrap64 (t.1 - off t.1)
    pure (.time s' t.2 (off s'))

/-- decoderV2.go 502-544 `decodeDuration`: the four numbers are multiplied in int64 arithmetic. -/
def decodeDuration (dec : Dec Val) : Dec Val := do
  let mV ← dec
  let m ← needInt64 mV
  let dV ← dec
  let d ← needInt64 dV
  let sV ← dec
  let s ← needInt64 sV
  let nV ← dec
  let n ← needInt64 nV
  pure (.duration (wrap64 (wrap64 (wrap64 (m * d) * s) * n)))

/-- decoderV2.go 281-332 / decoderV1.go 286-319 `decodeStruct`: dispatch on the signature.  The announced size is not used. -/
def decodeStruct (env : Env) (ver : Ver) (dec : Dec Val) : Dec Val := do
  let sig ← Dec.wrapErr "An error occurred reading struct signature byte" readByte
  if sig = 0x4E then decodeNode dec
  else if sig = 0x52 then decodeRelationship dec
  else if sig = 0x50 then decodePath dec
  else if sig = 0x72 then decodeUnboundRelationship dec
  else if ver = .v2 ∧ sig = 0x58 then decodePoint2D dec
  else if ver = .v2 ∧ sig = 0x59 then decodePoint3D dec
  else if sig = 0x71 then decodeRecord dec
  else if sig = 0x7F then decodeFailure dec
  else if sig = 0x7E then pure (.struct .ignored [])
  else if sig = 0x70 then decodeSuccess dec
  else if sig = 0x2F then pure (.struct .discardAll [])
  else if sig = 0x3F then pure (.struct .pullAll [])
  else if sig = 0x0F then pure (.struct .reset [])
  else if ver = .v2 ∧ sig = 0x44 then decodeDate dec
  else if ver = .v2 ∧ sig = 0x54 then decodeClock dec
  else if ver = .v2 ∧ sig = 0x74 then decodeLocalClock dec
  else if ver = .v2 ∧ sig = 0x64 then decodeLocalTime dec
  else if ver = .v2 ∧ sig = 0x46 then decodeDateTimeOffset dec
  else if ver = .v2 ∧ sig = 0x66 then decodeDateTimeZone env dec
  else if ver = .v2 ∧ sig = 0x45 then decodeDuration dec
  else Dec.fail (.new "Unrecognized type decoding struct with signature")

/-- The `switch` branches of `decode`, decoderV2.go 113-242 (decoderV1.go 118-247), with the recursive call as a parameter. -/
def decodeMarker (env : Env) (ver : Ver) (dec : Dec Val) : Marker → Dec Val
  | .nil => pure .nil
  | .bool b => pure (.bool b)
  | .tinyInt n => pure (.int .int64 n)
  | .int k => do
    let n ← readSigned k
    pure (.int .int64 n)
  | .float => do
    let n ← readUnsigned 8
    pure (.float64 (UInt64.ofNat n))
  | .tinyStr n =>
    if n = 0 then pure (.str [])
    else do
      let s ← next n
      pure (.str s)
  | .str k => do
    let n ← Dec.wrapErr "An error occurred reading string size" (readSigned k)
    let s ← next n
    pure (.str s)
  | .tinyList n => decodeSlice dec n
  | .list k => do
    let n ← Dec.wrapErr "An error occurred reading slice size" (readSigned k)
    decodeSlice dec n
  | .tinyMap n => decodeMap dec n
  | .map k => do
    let n ← Dec.wrapErr "An error occurred reading map size" (readSigned k)
    decodeMap dec n
  | .tinyStruct _ => decodeStruct env ver dec
  | .struct k => do
    let _ ← Dec.wrapErr "An error occurred reading struct size" (readSigned k)
    decodeStruct env ver dec
  | .unknown => Dec.fail (.new "Unrecognized marker byte!")

/-- Body of `decode`, decoderV2.go 98-244 (decoderV1.go 103-249). -/
def decodeBody (env : Env) (ver : Ver) (dec : Dec Val) : Dec Val := do
  let marker ← Dec.wrapErr "Error reading marker" readByte
  decodeMarker env ver dec (classify marker)

/-- `decode` with at most `n` nested calls. -/
def decodeF (env : Env) (ver : Ver) : Nat → Dec Val
  | 0 => fun _ => .fuel
  | n + 1 => decodeBody env ver (decodeF env ver n)

/-- `decode(buffer)` on a buffer holding `b`.  Every call reads at least one byte, so `b.length + 1` nested calls suffice. -/
def decode (env : Env) (ver : Ver) (b : Bytes) : Res (Val × Bytes) := decodeF env ver (b.length + 1) b

end Verif
