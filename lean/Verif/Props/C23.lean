/-
C23  Points round trip and can be sent back.

The first half holds.  The second is false: a received point is a value of type `Point2D`/`Point3D`, which does not implement the interface
the encoder asks for (only the pointer types do).
-/
import Verif.Props.C19
import Verif.Proofs.ValEq
namespace Verif
open Spec

/-- `*types.Point2D` (/repo/structures/types/point.go 11-14) with SRID and coordinates (as bit patterns). -/
def point2 (ptr : Bool) (srid : Int) (x y : UInt64) : Val := .struct (.point2D ptr) [.int .int srid, .float64 x, .float64 y]
def point3 (ptr : Bool) (srid : Int) (x y z : UInt64) : Val := .struct (.point3D ptr) [.int .int srid, .float64 x, .float64 y, .float64 z]

/-- The property: what is received for a point can be sent. -/
def C23_statement : Prop := ∀ (env : Env) (srid : Int) (x y : UInt64), okInt srid →
  ∃ v, unmarshal env .v2 (marshal env .v2 (point2 true srid x y)).1 = .ok v ∧ (marshal env .v2 v).2 = none

/-- Points sent as pointers arrive with the same SRID and coordinates. -/
theorem C23_point2_partial (env : Env) (srid : Int) (x y : UInt64) (h : okInt srid) :
    (marshal env .v2 (point2 true srid x y)).2 = none ∧
      unmarshal env .v2 (marshal env .v2 (point2 true srid x y)).1 = .ok (point2 false srid x y) := by
  refine Good.roundtrip env (v := point2 true srid x y) (Good.struct ⟨rfl, rfl, _, _, _, rfl⟩ ?_)
  intro v hv
  simp only [List.mem_cons, List.not_mem_nil, or_false] at hv
  rcases hv with rfl | rfl | rfl
  · exact Good.int h
  · exact ⟨trivial, trivial, trivial, trivial⟩
  · exact ⟨trivial, trivial, trivial, trivial⟩

theorem C23_point3_partial (env : Env) (srid : Int) (x y z : UInt64) (h : okInt srid) :
    (marshal env .v2 (point3 true srid x y z)).2 = none ∧
      unmarshal env .v2 (marshal env .v2 (point3 true srid x y z)).1 = .ok (point3 false srid x y z) := by
  refine Good.roundtrip env (v := point3 true srid x y z) (Good.struct ⟨rfl, rfl, _, _, _, _, rfl⟩ ?_)
  intro v hv
  simp only [List.mem_cons, List.not_mem_nil, or_false] at hv
  rcases hv with rfl | rfl | rfl | rfl
  · exact Good.int h
  · exact ⟨trivial, trivial, trivial, trivial⟩
  · exact ⟨trivial, trivial, trivial, trivial⟩
  · exact ⟨trivial, trivial, trivial, trivial⟩

/-- No received point can be sent back, in either codec version. -/
theorem C23_never_sendable (env : Env) (ver : Ver) (srid : Int) (x y z : UInt64) :
    (marshal env ver (point2 false srid x y)).2 ≠ none ∧ (marshal env ver (point3 false srid x y z)).2 ≠ none := by
  constructor <;> simp [marshal, encodeMsg, encode, point2, point3, StructKind.isStructure, unrecognized]

theorem C23_refuted : ¬ C23_statement := by
  intro h
  obtain ⟨v, h1, h2⟩ := h env0 7203 0 0 (by unfold okInt; omega)
  rw [(C23_point2_partial env0 7203 0 0 (by unfold okInt; omega)).2] at h1
  cases h1
  exact (C23_never_sendable env0 .v2 7203 0 0 0).1 h2

end Verif
