/-
Which Go values the codec supports, stated independently of the encoder.
-/
import Verif.Model.Val
namespace Verif.Spec

mutual
/-- The value and everything inside it has a type that codec version `ver` supports, and is not too long: `uint64` values fit `int64`,
strings, slices and maps are shorter than `2^32`, structures have fewer than `2^16` fields.  Points are only supported through pointers, dates and times only
by version 2.  The DISCARD message is sent without its fields. -/
def Supported (ver : Ver) : Val → Prop
  | .nil | .bool _ | .float32 _ | .float64 _ => True
  | .int .uint64 n => n < 2 ^ 63
  | .int _ _ => True
  | .str s => s.length < 2 ^ 32
  | .list _ vs => vs.length < 2 ^ 32 ∧ SupportedList ver vs
  | .map es => es.length < 2 ^ 32 ∧ SupportedEntries ver es
  | .struct k fs =>
    k ≠ .point2D false ∧ k ≠ .point3D false ∧ (k = .discard ∨ (fs.length < 2 ^ 16 ∧ SupportedList ver fs))
  | .date _ | .clock _ _ | .localClock _ | .localTime _ _ | .time _ _ _ | .duration _ => ver = .v2
  | .other => False

def SupportedList (ver : Ver) : List Val → Prop
  | [] => True
  | v :: vs => Supported ver v ∧ SupportedList ver vs

def SupportedEntries (ver : Ver) : List (Bytes × Val) → Prop
  | [] => True
  | (k, v) :: es => k.length < 2 ^ 32 ∧ Supported ver v ∧ SupportedEntries ver es
end

end Verif.Spec
