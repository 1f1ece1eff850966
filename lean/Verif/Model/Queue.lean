/-
The idle queue (/repo/routing/queue.go).  Its mutex makes `Enqueue` and `Dequeue` atomic.
-/
import Verif.Model.Bytes
namespace Verif

/-- A Go slice: a window of `len` cells, starting at `off`, into an array.  The capacity is what is left of the array from `off` on. -/
structure Slice (α : Type) where
  arr : List α
  off : Nat
  len : Nat

namespace Slice
variable {α : Type} [Inhabited α]

/-- The elements of the slice. -/
def items (s : Slice α) : List α := (s.arr.drop s.off).take s.len

/-- `append(s, x)`: in place if the array has room, otherwise in a new array with `spare` further cells (the growth policy of the runtime). -/
def append (spare : Nat) (s : Slice α) (x : α) : Slice α :=
  if s.off + s.len < s.arr.length then ⟨s.arr.set (s.off + s.len) x, s.off, s.len + 1⟩
  else ⟨s.items ++ x :: List.replicate spare default, 0, s.len + 1⟩

/-- `s[i]`; `none` is the run-time panic. -/
def index (s : Slice α) (i : Nat) : Option α := if i < s.len then s.arr[s.off + i]? else none

/-- `s[1:len(s)]` of a non-empty slice. -/
def tail (s : Slice α) : Slice α := ⟨s.arr, s.off + 1, s.len - 1⟩

/-- The slice lies within its array. -/
def WF (s : Slice α) : Prop := s.off + s.len ≤ s.arr.length

end Slice

/-- queue.go 5-8 `Queue`. -/
structure Queue (α : Type) where
  items : Slice α

namespace Queue
variable {α : Type} [Inhabited α]

/-- queue.go 11-16 `NewQueue`. -/
def new : Queue α := ⟨⟨[], 0, 0⟩⟩

/-- queue.go 18-23 `NewQueueFromSlice`. -/
def ofSlice (s : Slice α) : Queue α := ⟨s⟩

/-- queue.go 26-30 `Enqueue`. -/
def enqueue (spare : Nat) (q : Queue α) (x : α) : Queue α := ⟨q.items.append spare x⟩

/-- queue.go 33-43 `Dequeue`; `none` is nil. -/
def dequeue (q : Queue α) : Option α × Queue α :=
  if q.items.len = 0 then (none, q) else (q.items.index 0, ⟨q.items.tail⟩)

/-- queue.go 46-51 `Front`; `none` is the run-time panic of indexing an empty slice. -/
def front (q : Queue α) : Option α := q.items.index 0

/-- queue.go 54-56 `IsEmpty`. -/
def isEmpty (q : Queue α) : Bool := q.items.len = 0

/-- queue.go 59-61 `Size`. -/
def size (q : Queue α) : Nat := q.items.len

end Queue
end Verif
