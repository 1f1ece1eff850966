/-
C15  A value that cannot be encoded is reported, and no other.

`Spec.Supported` says which values the codec supports (types, `uint64` range, lengths) without reference to the encoder.
-/
import Verif.Proofs.Writes
import Verif.Proofs.Supported
namespace Verif
open Spec

/-- `Encode` fails exactly for the unsupported values, at any nesting depth and for every chunk size. -/
theorem C15_error_iff_unsupported (env : Env) (ver : Ver) (cs : Nat) (v : Val) (h : v.All intsInRange) :
    (encodeMsg env ver cs v).2 ≠ none ↔ ¬ Supported ver v := by
  rw [← encode_none_iff env ver v h]
  cases h1 : (encode env ver v).2 with
  | none => rw [encodeMsg_ok h1]
  | some e => rw [encodeMsg_err h1]

/-- The same for `Marshal`. -/
theorem C15_marshal (env : Env) (ver : Ver) (v : Val) (h : v.All intsInRange) :
    (marshal env ver v).2 = none ↔ Supported ver v := by
  have := C15_error_iff_unsupported env ver 65535 v h
  unfold marshal
  dsimp only
  constructor
  · intro h1; exact Classical.byContradiction fun h2 => this.mpr h2 h1
  · intro h1; cases h2 : (encodeMsg env ver 65535 v).2 with
    | none => rfl
    | some e => exact absurd h1 (this.mp (by rw [h2]; simp))

example : (Val.list true [.map [([0x61], .int .uint64 (2 ^ 63))]]).All intsInRange ∧
    ¬ Supported .v2 (.list true [.map [([0x61], .int .uint64 (2 ^ 63))]]) := by
  constructor
  · simp [Val.All, AllList, AllEntries, intsInRange, IntKind.InRange]
  · simp [Supported, SupportedList, SupportedEntries]

example : Supported .v2 (.struct .run [.str [0x61], .map [([0x61], .date 3)]]) := by
  simp [Supported, SupportedList, SupportedEntries]

end Verif
