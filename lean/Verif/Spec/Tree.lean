/-
What a Go value stands for on the wire, stated independently of the encoder: the PackStream tree of a value.
-/
import Verif.Model.Val
import Verif.Spec.PackStream
namespace Verif.Spec

/-- The tags of structures in the Bolt protocol. -/
def tag : StructKind → UInt8
  | .node => 0x4E
  | .relationship => 0x52
  | .unboundRelationship => 0x72
  | .path => 0x50
  | .point2D _ => 0x58
  | .point3D _ => 0x59
  | .init | .hello => 0x01
  | .goodbye => 0x02
  | .reset => 0x0F
  | .run | .runWithMetadata => 0x10
  | .begin_ => 0x11
  | .commit => 0x12
  | .rollback => 0x13
  | .discard | .discardAll => 0x2F
  | .pull | .pullAll => 0x3F
  | .success => 0x70
  | .record => 0x71
  | .ignored => 0x7E
  | .failure => 0x7F
  | .custom s => s

theorem tag_eq (k : StructKind) : tag k = k.sig := by cases k <;> rfl

mutual
/-- The PackStream tree that a Go value denotes, if its type is supported by codec version `ver`. -/
def tree (env : Env) (ver : Ver) : Val → Option PS
  | .nil => some .null
  | .bool b => some (.bool b)
  | .int _ n => some (.int n)
  | .float32 b => some (.float (env.f32 b))
  | .float64 b => some (.float b)
  | .str s => some (.str s)
  | .list _ vs => (trees env ver vs).map .list
  | .map es => (treeEntries env ver es).map .map
  | .struct k fs =>
    match k with
    | .point2D false | .point3D false => none
    | .discard => some (.struct (tag k) [])
    | _ => (trees env ver fs).map (.struct (tag k))
  | .date d => if ver = .v2 then some (.struct 0x44 [.int d]) else none
  | .clock n o => if ver = .v2 then some (.struct 0x54 [.int n, .int o]) else none
  | .localClock n => if ver = .v2 then some (.struct 0x74 [.int n]) else none
  | .localTime s n => if ver = .v2 then some (.struct 0x64 [.int s, .int n]) else none
  | .time s n o => if ver = .v2 then some (.struct 0x46 [.int (s + o), .int n, .int o]) else none
  | .duration d =>
    if ver = .v2 then
      some (.struct 0x45 [.float (env.dur d).1, .float (env.dur d).2.1, .float (env.dur d).2.2, .int d])
    else none
  | .other => none

def trees (env : Env) (ver : Ver) : List Val → Option (List PS)
  | [] => some []
  | v :: vs =>
    match tree env ver v, trees env ver vs with
    | some t, some ts => some (t :: ts)
    | _, _ => none

def treeEntries (env : Env) (ver : Ver) : List (Bytes × Val) → Option (List (Bytes × PS))
  | [] => some []
  | (k, v) :: es =>
    match tree env ver v, treeEntries env ver es with
    | some t, some ts => some ((k, t) :: ts)
    | _, _ => none
end

mutual
/-- Integers of the tree fit 64 bits, and the lengths of its containers satisfy `len` (strings, map keys, lists, maps) and
`slen` (number of fields of structures). -/
def PS.FitsWith (len slen : Nat → Prop) : PS → Prop
  | .int n => -2 ^ 63 ≤ n ∧ n < 2 ^ 63
  | .str s => len s.length
  | .list ts => len ts.length ∧ FitsList len slen ts
  | .map es => len es.length ∧ FitsEntries len slen es
  | .struct _ fs => slen fs.length ∧ FitsList len slen fs
  | _ => True

def FitsList (len slen : Nat → Prop) : List PS → Prop
  | [] => True
  | t :: ts => t.FitsWith len slen ∧ FitsList len slen ts

def FitsEntries (len slen : Nat → Prop) : List (Bytes × PS) → Prop
  | [] => True
  | (k, t) :: es => len k.length ∧ t.FitsWith len slen ∧ FitsEntries len slen es
end

/-- The tree can be expressed in the format: integers fit 64 bits, strings, lists and maps are shorter than `2^32`, structures have fewer
than `2^16` fields. -/
def PS.Fits (t : PS) : Prop := t.FitsWith (· < 2 ^ 32) (· < 2 ^ 16)

/-- Lengths whose shortest length field has a clear sign bit. -/
def readableLen (n : Nat) : Prop := n < 2 ^ 7 ∨ (2 ^ 8 ≤ n ∧ n < 2 ^ 15) ∨ (2 ^ 16 ≤ n ∧ n < 2 ^ 31)

/-- Like `Fits`, with every length readable as a signed number. -/
def PS.Readable (t : PS) : Prop := t.FitsWith readableLen (· < 2 ^ 7)

end Verif.Spec

namespace Verif

mutual
/-- `p` holds of the value and of every value inside it. -/
def Val.All (p : Val → Prop) : Val → Prop
  | .list i vs => p (.list i vs) ∧ AllList p vs
  | .map es => p (.map es) ∧ AllEntries p es
  | .struct k fs => p (.struct k fs) ∧ AllList p fs
  | v => p v

def AllList (p : Val → Prop) : List Val → Prop
  | [] => True
  | v :: vs => v.All p ∧ AllList p vs

def AllEntries (p : Val → Prop) : List (Bytes × Val) → Prop
  | [] => True
  | (_, v) :: es => v.All p ∧ AllEntries p es
end

/-- Integers are within the range of their Go type (true of every Go value); instants of `time.Time` are within `2^62` seconds
of 1970 (146 billion years) and zone offsets fit 32 bits. -/
def intsInRange : Val → Prop
  | .int k n => k.InRange n
  | .date d => -2 ^ 63 ≤ d ∧ d < 2 ^ 63
  | .clock n o => (-2 ^ 63 ≤ n ∧ n < 2 ^ 63) ∧ (-2 ^ 63 ≤ o ∧ o < 2 ^ 63)
  | .localClock n => -2 ^ 63 ≤ n ∧ n < 2 ^ 63
  | .localTime s n => (-2 ^ 63 ≤ s ∧ s < 2 ^ 63) ∧ (-2 ^ 63 ≤ n ∧ n < 2 ^ 63)
  | .time s n o => (-2 ^ 62 ≤ s ∧ s < 2 ^ 62) ∧ (0 ≤ n ∧ n < 1000000000) ∧ (-2 ^ 31 ≤ o ∧ o < 2 ^ 31)
  | .duration d => -2 ^ 63 ≤ d ∧ d < 2 ^ 63
  | _ => True

/-- Values of type `uint` are at most `MaxInt64` (see C03 for the others). -/
def uintSafe : Val → Prop
  | .int .uint n => n < 2 ^ 63
  | _ => True

end Verif
