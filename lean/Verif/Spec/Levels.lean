/-
How deeply the values of a message are nested.
-/
import Verif.Spec.PackStream
namespace Verif.Spec

mutual
/-- Levels of nesting of a tree: a scalar has one, a list, map or structure one more than the deepest of its parts. -/
def PS.levels : PS → Nat
  | .list ts => 1 + levelsList ts
  | .map es => 1 + levelsEntries es
  | .struct _ fs => 1 + levelsList fs
  | _ => 1

/-- The levels of the deepest of a sequence of trees. -/
def levelsList : List PS → Nat
  | [] => 0
  | t :: ts => max t.levels (levelsList ts)

/-- The levels of the deepest of the values of a map; its keys have one level. -/
def levelsEntries : List (Bytes × PS) → Nat
  | [] => 0
  | (_, t) :: es => max t.levels (levelsEntries es)
end

theorem PS.levels_pos (t : PS) : 0 < t.levels := by cases t <;> simp only [PS.levels] <;> omega

end Verif.Spec
