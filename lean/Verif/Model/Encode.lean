/-
PackStream encoder (/repo/encoding/encoding_v1/encoderV1.go, /repo/encoding/encoding_v2/encoderV2.go).

The Go encoder emits bytes through `e.Write` calls; where the boundaries between those calls lie matters for chunking
(`Write` emits at most one chunk per call).  The model therefore returns the list of `Write` calls in order, and an
error if encoding stopped with one.  Failures of the underlying writer are modelled in `Chunk.lean`.
-/
import Verif.Model.Val
namespace Verif

/-- Result of encoding: the `Write` calls made, and the error that ended encoding, if any. -/
abbrev Enc := List Bytes × Option Err

/-- Go's `if err := a; err != nil { return err }; b`. -/
def Enc.seq (a : Enc) (b : Enc) : Enc :=
  match a.2 with
  | some e => (a.1, some e)
  | none => (a.1 ++ b.1, b.2)

/-- Successful writes. -/
def Enc.ok (ws : List Bytes) : Enc := (ws, none)

/-- encoderV2.go 354-409 `encodeInt` (encoderV1.go 185-240). -/
def encodeInt (v : Int) : Enc :=
  if v ≥ -9223372036854775808 ∧ v < -2147483648 then .ok [[0xCB], beInt 8 v]
  else if v ≥ -2147483648 ∧ v < -32768 then .ok [[0xCA], beInt 4 v]
  else if v ≥ -32768 ∧ v < -128 then .ok [[0xC9], beInt 2 v]
  else if v ≥ -128 ∧ v < -16 then .ok [[0xC8], beInt 1 v]
  else if v ≥ -16 ∧ v ≤ 127 then .ok [beInt 1 v]
  else if v > 127 ∧ v ≤ 32767 then .ok [[0xC9], beInt 2 v]
  else if v > 32767 ∧ v ≤ 2147483647 then .ok [[0xCA], beInt 4 v]
  else if v > 2147483647 ∧ v ≤ 9223372036854775807 then .ok [[0xCB], beInt 8 v]
  else ([], some (.new "Int too long to write"))

/-- encoderV2.go 411-422 `encodeFloat` (encoderV1.go 242-253): marker, then the IEEE bit pattern. -/
def encodeFloat (b : UInt64) : Enc := .ok [[0xC1], be 8 b.toNat]

/-- encoderV2.go 424-463 `encodeString` (encoderV1.go 255-294).  `int8(length)` etc. have the same bytes as the
unsigned length.  The tiny header `byte(0x80 | length)` is `0x80 + length` for `length <= 15`. -/
def encodeString (s : Bytes) : Enc :=
  let n := s.length
  if n ≤ 15 then .ok [[byteOf (0x80 + n)], s]
  else if n > 15 ∧ n ≤ 255 then .ok [[0xD0], be 1 n, s]
  else if n > 255 ∧ n ≤ 65535 then .ok [[0xD1], be 2 n, s]
  else if n > 65535 ∧ n ≤ 4294967295 then .ok [[0xD2], be 4 n, s]
  else ([], some (.new "String too long to write"))

/-- Header part of `encodeSlice`, encoderV2.go 466-495 (encoderV1.go 297-326). -/
def sliceHeader (n : Nat) : Enc :=
  if n ≤ 15 then .ok [[byteOf (0x90 + n)]]
  else if n > 15 ∧ n ≤ 255 then .ok [[0xD4], be 1 n]
  else if n > 255 ∧ n ≤ 65535 then .ok [[0xD5], be 2 n]
  else if n ≥ 65535 ∧ n ≤ 4294967295 then .ok [[0xD6], be 4 n]
  else ([], some (.new "Slice too long to write"))

/-- Header part of `encodeMap`, encoderV2.go 508-537 (encoderV1.go 339-368). -/
def mapHeader (n : Nat) : Enc :=
  if n ≤ 15 then .ok [[byteOf (0xA0 + n)]]
  else if n > 15 ∧ n ≤ 255 then .ok [[0xD8], be 1 n]
  else if n > 255 ∧ n ≤ 65535 then .ok [[0xD9], be 2 n]
  else if n ≥ 65535 ∧ n ≤ 4294967295 then .ok [[0xDA], be 4 n]
  else ([], some (.new "Map too long to write"))

/-- Header part of `encodeStructure`, encoderV2.go 554-577 (encoderV1.go 385-408). -/
def structHeader (n : Nat) : Enc :=
  if n ≤ 15 then .ok [[byteOf (0xB0 + n)]]
  else if n > 15 ∧ n ≤ 255 then .ok [[0xDC], be 1 n]
  else if n > 255 ∧ n ≤ 65535 then .ok [[0xDD], be 2 n]
  else ([], some (.new "Structure too long to write"))

/-- encoderV2.go 181 / encoderV1.go 164: the `default` branch for unsupported types. -/
def unrecognized : Enc := ([], some (.new "Unrecognized type when encoding data for Bolt transport"))

/-- encoderV2.go 202-214 `encodeDate`: the header and signature are two `Write`s. -/
def encodeDate (d : Int) : Enc := (Enc.ok [[0xB1], [0x44]]).seq (encodeInt d)

/-- encoderV2.go 216-235 `encodeClock`. -/
def encodeClock (n o : Int) : Enc :=
  ((Enc.ok [[0xB2], [0x54]]).seq (encodeInt n)).seq (encodeInt o)

/-- encoderV2.go 237-249 `encodeLocalClock`. -/
def encodeLocalClock (n : Int) : Enc := (Enc.ok [[0xB1], [0x74]]).seq (encodeInt n)

/-- encoderV2.go 251-272 `encodeLocalTime`; `s` is the local second count after the offset correction of lines
262-264. -/
def encodeLocalTime (s n : Int) : Enc :=
  ((Enc.ok [[0xB2], [0x64]]).seq (encodeInt s)).seq (encodeInt n)

/-- encoderV2.go 275-303 `encodeTime`: `t.Add(time.Duration(offset) * time.Second)` moves the instant by the
offset, then `Unix()` is taken.  The nanosecond part is unchanged by adding whole seconds.  Go multiplies
`offset * 1e9` as int64; offsets with `|offset| ≥ 2^63/10^9` (about 292 years) are outside the model. -/
def encodeTime (s n o : Int) : Enc :=
  (((Enc.ok [[0xB3], [0x46]]).seq (encodeInt (wrap64 (s + o)))).seq (encodeInt n)).seq (encodeInt o)

/-- encoderV2.go 305-337 `encodeDuration`: months, days and seconds are float64 values. -/
def encodeDuration (env : Env) (d : Int) : Enc :=
  ((((Enc.ok [[0xB4], [0x45]]).seq (encodeFloat (env.dur d).1)).seq (encodeFloat (env.dur d).2.1)).seq
    (encodeFloat (env.dur d).2.2)).seq (encodeInt d)

/-- encoderV2.go 586: errors of fields are wrapped. -/
def wrapField (r : Enc) : Enc :=
  (r.1, r.2.map (fun e => e.wrap "An error occurred encoding a struct field"))

mutual
/-- encoderV2.go 115-185 `encode` (encoderV1.go 110-168; v1 has no temporal cases, so those types reach the `default`
branch, where they are not slices).

`uint` is converted with `int64(val)`, which wraps (line 134); `uint64` is checked (lines 142-145). -/
def encode (env : Env) (ver : Ver) : Val → Enc
  | .nil => .ok [[0xC0]]
  | .bool true => .ok [[0xC3]]
  | .bool false => .ok [[0xC2]]
  | .int .uint n => encodeInt (wrap64 n)
  | .int .uint64 n => if n > 9223372036854775807 then ([], some (.new "Integer too big")) else encodeInt n
  | .int _ n => encodeInt n
  | .float32 b => encodeFloat (env.f32 b)
  | .float64 b => encodeFloat b
  | .str s => encodeString s
  | .list _ vs => (sliceHeader vs.length).seq (encodeItems env ver vs)
  | .map es => (mapHeader es.length).seq (encodeEntries env ver es)
  | .struct .discard _ =>
    -- discard.go 35-37: `AllFields` is empty
    (structHeader 0).seq (.ok [[0x2F]])
  | .struct k fs =>
    -- encoderV2.go 168-169, 552-591 `encodeStructure`
    if k.isStructure then
      ((structHeader fs.length).seq (.ok [[k.sig]])).seq (encodeFields env ver fs)
    else unrecognized
  | .date d => match ver with | .v1 => unrecognized | .v2 => encodeDate d
  | .clock n o => match ver with | .v1 => unrecognized | .v2 => encodeClock n o
  | .localClock n => match ver with | .v1 => unrecognized | .v2 => encodeLocalClock n
  | .localTime s n => match ver with | .v1 => unrecognized | .v2 => encodeLocalTime s n
  | .time s n o => match ver with | .v1 => unrecognized | .v2 => encodeTime s n o
  | .duration d => match ver with | .v1 => unrecognized | .v2 => encodeDuration env d
  | .other => unrecognized

/-- encoderV2.go 498-502: items of a slice. -/
def encodeItems (env : Env) (ver : Ver) : List Val → Enc
  | [] => .ok []
  | v :: vs => (encode env ver v).seq (encodeItems env ver vs)

/-- encoderV2.go 540-547: entries of a map, in iteration order. -/
def encodeEntries (env : Env) (ver : Ver) : List (Bytes × Val) → Enc
  | [] => .ok []
  | (k, v) :: es => ((encodeString k).seq (encode env ver v)).seq (encodeEntries env ver es)

/-- encoderV2.go 584-588: fields of a structure. -/
def encodeFields (env : Env) (ver : Ver) : List Val → Enc
  | [] => .ok []
  | v :: vs => (wrapField (encode env ver v)).seq (encodeFields env ver vs)
end

end Verif
