/-
Byte strings and fixed-width big-endian integers.

Models the parts of Go's `bytes`, `encoding/binary` and integer conversions that the codec uses
(/repo/encoding/encoding_v2/encoderV2.go 354-422, decoderV2.go 107-149 and the v1 twins).
-/
namespace Verif

/-- A Go `[]byte` / `string` (Go strings are arbitrary byte strings; no UTF-8 check is made anywhere
in /repo/encoding). -/
abbrev Bytes := List UInt8

/-- Low byte of a natural number: Go's `byte(x)` conversion. -/
def byteOf (n : Nat) : UInt8 := UInt8.ofNat n

/-- `k`-byte big-endian encoding of `n mod 256^k`: what `binary.Write(_, binary.BigEndian, x)` emits for an
unsigned `k`-byte integer (encoderV2.go 362, 368, 374, 380, 416, 439, 447, 455). -/
def be : Nat → Nat → Bytes
  | 0, _ => []
  | k + 1, n => byteOf (n / 256 ^ k) :: be k n

/-- Big-endian value of a byte string: what `binary.Read(_, binary.BigEndian, &x)` computes for unsigned `x`
(decoderV2.go 130-149). -/
def ofBE : Bytes → Nat
  | [] => 0
  | b :: bs => b.toNat * 256 ^ bs.length + ofBE bs

/-- Two's complement reading of a `k`-byte unsigned value (Go `int8/16/32/64(x)`). -/
def toSigned (k : Nat) (n : Nat) : Int :=
  if n < 2 ^ (8 * k - 1) then (n : Int) else (n : Int) - 2 ^ (8 * k)

/-- Two's complement `k`-byte encoding of an integer: `binary.Write` of a signed `k`-byte integer
after the conversion `intN(val)`. -/
def beInt (k : Nat) (z : Int) : Bytes := be k (z % (2 ^ (8 * k) : Int)).toNat

/-- Conversion to a 64-bit signed integer with wrap-around: Go `int64(x)` and int64 arithmetic. -/
def wrap64 (z : Int) : Int := Int.bmod z (2 ^ 64)

end Verif
