/-
Specification of the PackStream wire format, independent of the encoder and decoder models.

Source: the Bolt/PackStream format description (marker bytes as documented in
/repo/encoding/encode_consts/const.go).  Only `Bytes` is shared with the model.
-/
import Verif.Model.Bytes
namespace Verif.Spec

/-- Value of a byte string read as an unsigned big-endian number. -/
def bigEndian (bs : Bytes) : Nat := bs.foldl (fun a b => a * 256 + b.toNat) 0

/-- Value of a byte string read as a two's complement big-endian number. -/
def twosComplement (bs : Bytes) : Int :=
  if 2 * bigEndian bs < 256 ^ bs.length then (bigEndian bs : Int) else (bigEndian bs : Int) - 256 ^ bs.length

/-- Abstract PackStream values.  A map is the sequence of its entries on the wire; a structure has a signature and fields. -/
inductive PS where
  | null
  | bool (b : Bool)
  | int (n : Int)
  | float (bits : UInt64)
  | str (s : Bytes)
  | list (ts : List PS)
  | map (es : List (Bytes × PS))
  | struct (sig : UInt8) (fs : List PS)

/-- Which lengths may be written in a length field of `k` bytes. -/
abbrev Limit := Nat → Nat

/-- The format: length fields are unsigned. -/
def full : Limit := fun k => 256 ^ k

/-- The lengths whose sign bit is clear. -/
def signed : Limit := fun k => 2 ^ (8 * k - 1)

/-- `bs` is an encoding of the integer `n` (not necessarily the shortest). -/
def IntEnc (n : Int) (bs : Bytes) : Prop :=
  (-16 ≤ n ∧ n ≤ 127 ∧ ∃ b, bs = [b] ∧ twosComplement [b] = n) ∨
  ∃ m k lb, (m, k) ∈ [((0xC8 : UInt8), 1), (0xC9, 2), (0xCA, 4), (0xCB, 8)] ∧
    bs = m :: lb ∧ lb.length = k ∧ twosComplement lb = n

/-- Length header of a string, list, map or structure: `tiny` is the base of the one-byte form, `ms` lists the markers of the longer forms with
the width of their length field. -/
def Header (lim : Limit) (tiny : Nat) (ms : List (UInt8 × Nat)) (n : Nat) (h : Bytes) : Prop :=
  (n ≤ 15 ∧ h = [UInt8.ofNat (tiny + n)]) ∨
  ∃ m k lb, (m, k) ∈ ms ∧ n < lim k ∧ h = m :: lb ∧ lb.length = k ∧ bigEndian lb = n

def strMarkers : List (UInt8 × Nat) := [(0xD0, 1), (0xD1, 2), (0xD2, 4)]
def listMarkers : List (UInt8 × Nat) := [(0xD4, 1), (0xD5, 2), (0xD6, 4)]
def mapMarkers : List (UInt8 × Nat) := [(0xD8, 1), (0xD9, 2), (0xDA, 4)]
def structMarkers : List (UInt8 × Nat) := [(0xDC, 1), (0xDD, 2)]

/-- Encoding of a string. -/
def StrEnc (lim : Limit) (s : Bytes) (bs : Bytes) : Prop :=
  ∃ h, Header lim 0x80 strMarkers s.length h ∧ bs = h ++ s

mutual
/-- `bs` is an encoding of the tree `t`. -/
def Enc (lim : Limit) : PS → Bytes → Prop
  | .null, bs => bs = [0xC0]
  | .bool b, bs => bs = [if b then 0xC3 else 0xC2]
  | .int n, bs => IntEnc n bs
  | .float w, bs => ∃ lb, bs = 0xC1 :: lb ∧ lb.length = 8 ∧ bigEndian lb = w.toNat
  | .str s, bs => StrEnc lim s bs
  | .list ts, bs => ∃ h body, Header lim 0x90 listMarkers ts.length h ∧ EncList lim ts body ∧ bs = h ++ body
  | .map es, bs => ∃ h body, Header lim 0xA0 mapMarkers es.length h ∧ EncEntries lim es body ∧ bs = h ++ body
  | .struct sig fs, bs =>
    ∃ h body, Header lim 0xB0 structMarkers fs.length h ∧ EncList lim fs body ∧ bs = h ++ sig :: body

/-- Concatenated encodings of a sequence of trees. -/
def EncList (lim : Limit) : List PS → Bytes → Prop
  | [], bs => bs = []
  | t :: ts, bs => ∃ b1 b2, Enc lim t b1 ∧ EncList lim ts b2 ∧ bs = b1 ++ b2

/-- Concatenated encodings of map entries: key, value, key, value, ... -/
def EncEntries (lim : Limit) : List (Bytes × PS) → Bytes → Prop
  | [], bs => bs = []
  | (k, t) :: es, bs =>
    ∃ b0 b1 b2, StrEnc lim k b0 ∧ Enc lim t b1 ∧ EncEntries lim es b2 ∧ bs = b0 ++ (b1 ++ b2)
end

end Verif.Spec
