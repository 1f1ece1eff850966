/-
C03  Integers that do not fit int64 are rejected: true of `uint64`, false of `uint`.
-/
import Verif.Proofs.EncodeConforms
import Verif.Proofs.DecodeEnc
import Verif.Model.Chunk
namespace Verif

namespace Spec

/-- Bits of Go's integer types on a 64-bit machine, and whether they have a sign. -/
def goInts : List (IntKind × Nat × Bool) :=
  [(.int, 64, true), (.int8, 8, true), (.int16, 16, true), (.int32, 32, true), (.int64, 64, true),
   (.uint, 64, false), (.uint8, 8, false), (.uint16, 16, false), (.uint32, 32, false), (.uint64, 64, false)]

end Spec

/-- The numbers that the types can hold are those of so many bits. -/
theorem C03_range {k : IntKind} {bits : Nat} {signed : Bool} (h : (k, bits, signed) ∈ Spec.goInts) (n : Int) :
    k.InRange n ↔ if signed then - 2 ^ (bits - 1) ≤ n ∧ n < 2 ^ (bits - 1) else 0 ≤ n ∧ n < 2 ^ bits := by
  simp only [Spec.goInts, List.mem_cons, Prod.mk.injEq, List.not_mem_nil, or_false] at h
  rcases h with ⟨rfl, rfl, rfl⟩ | ⟨rfl, rfl, rfl⟩ | ⟨rfl, rfl, rfl⟩ | ⟨rfl, rfl, rfl⟩ | ⟨rfl, rfl, rfl⟩ | ⟨rfl, rfl, rfl⟩ | ⟨rfl, rfl, rfl⟩ | ⟨rfl, rfl, rfl⟩ | ⟨rfl, rfl, rfl⟩ | ⟨rfl, rfl, rfl⟩ <;>
    simp [IntKind.InRange]

/-- All types are listed. -/
example : ∀ k : IntKind, ∃ bits signed, (k, bits, signed) ∈ Spec.goInts := by intro k; cases k <;> simp [Spec.goInts]

/-- Full statement: an unsigned integer above `MaxInt64` is rejected, whichever Go type holds it. -/
def C03_statement : Prop :=
  ∀ (env : Env) (ver : Ver) (k : IntKind) (n : Int), k.InRange n → n ≥ 2 ^ 63 → (encode env ver (.int k n)).2 ≠ none

/-- The property holds for every type but `uint` (of which only `uint64` can hold such a number).
Missing: `uint`, for which it is false. -/
theorem C03_uint64_rejected_partial (env : Env) (ver : Ver) (k : IntKind) (n : Int) (hk : k.InRange n) (hu : k ≠ .uint) (h : n ≥ 2 ^ 63) :
    encode env ver (.int k n) = ([], some (.new "Integer too big")) := by
  cases k <;> simp only [IntKind.InRange] at hk <;> first | omega | skip
  · exact absurd rfl hu
  · simp only [encode]; rw [if_pos (by omega)]

example : IntKind.InRange .uint64 (2 ^ 63) ∧ IntKind.uint64 ≠ .uint ∧ (2 ^ 63 : Int) ≥ 2 ^ 63 := by decide

/-- `uint` is converted with `int64(val)`: every `uint` above `MaxInt64` is silently written as the negative number `n - 2^64`. -/
theorem C03_uint_wraps (env : Env) (ver : Ver) (n : Int) (hk : IntKind.InRange .uint n) (h : n ≥ 2 ^ 63) :
    encode env ver (.int .uint n) = encode env ver (.int .int64 (n - 2 ^ 64)) := by
  simp only [IntKind.InRange] at hk
  simp only [encode]
  congr 1
  unfold wrap64
  rw [Int.bmod_def]
  simp only [Int.emod_eq_of_lt hk.1 (by omega : n < ((2 ^ 64 : Nat) : Int))]
  rw [if_neg (by omega)]
  rfl

example : IntKind.InRange .uint (2 ^ 64 - 1) ∧ (2 ^ 64 - 1 : Int) ≥ 2 ^ 63 := by decide

/-- The full statement is false: `uint(2^64-1)` is accepted and written as `-1`, which decodes as `-1`. -/
theorem C03_refuted : ¬ C03_statement := by
  intro h
  have := h ⟨fun _ => 0, fun _ => (0, 0, 0), fun _ => none⟩ .v2 .uint (2 ^ 64 - 1) (by decide) (by decide)
  exact this rfl

/-- What the server receives for `uint(2^64-1)`. -/
theorem C03_uint_max (env : Env) (ver : Ver) :
    decode env ver (payload env ver (.int .uint (2 ^ 64 - 1))) = .ok (.int .int64 (-1), []) := rfl

end Verif
