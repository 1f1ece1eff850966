/-
Byte patterns that the decoder mishandles, described in terms of the wire format only.
-/
import Verif.Spec.PackStream
namespace Verif.Spec

/-- The bytes end inside a string: a string header announces more bytes than are left. -/
def EndsInString (b : Bytes) : Prop :=
  ∃ pre h s n, b = pre ++ (h ++ s) ∧ Header signed 0x80 strMarkers n h ∧ s.length < n

/-- A string or list header whose length field has its sign bit set. -/
def HugeLength (b : Bytes) : Prop :=
  ∃ m k lb rest, (m, k) ∈ strMarkers ++ listMarkers ∧ b = m :: (lb ++ rest) ∧ lb.length = k ∧ signed k ≤ bigEndian lb

/-- The bytes go on with a value that is not an integer. -/
def NotInt (b : Bytes) : Prop := ∃ m r, b = m :: r ∧ ¬ (m.toNat < 0x80 ∨ 0xF0 ≤ m.toNat ∨ m ∈ [(0xC8 : UInt8), 0xC9, 0xCA, 0xCB])

/-- The bytes are some integers, at most `n` of them, and then something else. -/
def IntsThenNot (n : Nat) (b : Bytes) : Prop :=
  ∃ (ns : List Int) (bs r : Bytes), b = bs ++ r ∧ ns.length ≤ n ∧ EncList signed (ns.map PS.int) bs ∧ NotInt r

/-- A graph structure with something else where an integer is required: as the id of a node or unbound relationship, as one of the three ids of a relationship, or
in the sequence of a path. -/
def BadGraph (b : Bytes) : Prop :=
  ∃ h sig rest, b = h ++ sig :: rest ∧ ((∃ n, h = [UInt8.ofNat (0xB0 + n)] ∧ n ≤ 15) ∨ (∃ x, h = [0xDC, x]) ∨ ∃ x y, h = [0xDD, x, y]) ∧
    ((sig ∈ [(0x4E : UInt8), 0x72] ∧ NotInt rest) ∨
     (sig = 0x52 ∧ IntsThenNot 2 rest) ∨
     (sig = 0x50 ∧ ∃ pre lh n r, rest = pre ++ (lh ++ r) ∧ Header signed 0x90 listMarkers (n + 1) lh ∧ IntsThenNot n r))

/-- `b` contains, at some position, one of the patterns that can make the decoder panic. -/
def Hazard (b : Bytes) : Prop := ∃ pre post, b = pre ++ post ∧ (HugeLength post ∨ BadGraph post)

end Verif.Spec
