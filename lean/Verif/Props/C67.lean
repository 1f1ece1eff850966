/-
C67: the idle queue is first-in first-out.
-/
import Verif.Model.Queue
namespace Verif
namespace Spec

/-- Operations of a queue. -/
inductive QOp (α : Type) where
  | enqueue (x : α)
  | dequeue
  | front
  | isEmpty
  | size
  deriving DecidableEq

/-- What a caller sees. -/
inductive QOut (α : Type) where
  | unit
  | item (x : Option α)
  | flag (b : Bool)
  | count (n : Nat)
  deriving DecidableEq

/-- A first-in first-out queue seen from outside: `ins` are all items ever enqueued, in order, `taken` the number that has been handed out. -/
def fifo {α : Type} (ins : List α) (taken : Nat) : List (QOp α) → List (QOut α)
  | [] => []
  | .enqueue x :: ops => .unit :: fifo (ins ++ [x]) taken ops
  | .dequeue :: ops => .item ins[taken]? :: fifo ins (min (taken + 1) ins.length) ops
  | .front :: ops => .item ins[taken]? :: fifo ins taken ops
  | .isEmpty :: ops => .flag (decide (taken = ins.length)) :: fifo ins taken ops
  | .size :: ops => .count (ins.length - taken) :: fifo ins taken ops

end Spec

variable {α : Type} [Inhabited α]

/-- The operations executed on the queue; `spare n` is the growth policy of `append`. -/
def Queue.exec (spare : Nat → Nat) (q : Queue α) : List (Spec.QOp α) → List (Spec.QOut α)
  | [] => []
  | .enqueue x :: ops => .unit :: Queue.exec spare (q.enqueue (spare q.size) x) ops
  | .dequeue :: ops => .item q.dequeue.1 :: Queue.exec spare q.dequeue.2 ops
  | .front :: ops => .item q.front :: Queue.exec spare q ops
  | .isEmpty :: ops => .flag q.isEmpty :: Queue.exec spare q ops
  | .size :: ops => .count q.size :: Queue.exec spare q ops

theorem Slice.items_length {s : Slice α} (h : s.WF) : s.items.length = s.len := by
  unfold WF at h
  simp only [items, List.length_take, List.length_drop]; omega

theorem Slice.append_wf (n : Nat) {s : Slice α} (h : s.WF) (x : α) : (s.append n x).WF := by
  have hl := items_length h
  unfold WF at h ⊢
  unfold append
  split
  · simp only [List.length_set]; omega
  · simp only [List.length_append, List.length_cons, hl]; omega

theorem Slice.append_items (n : Nat) {s : Slice α} (h : s.WF) (x : α) : (s.append n x).items = s.items ++ [x] := by
  have hl := items_length h
  unfold WF at h
  unfold append
  split
  · rename_i hr
    have hd : (s.arr.set (s.off + s.len) x).drop s.off = (s.arr.drop s.off).set s.len x := by rw [List.set_drop]
    have ht : ((s.arr.drop s.off).set s.len x).take s.len = (s.arr.drop s.off).take s.len := by rw [List.take_set, List.set_eq_of_length_le (by simp only [List.length_take]; omega)]
    simp only [items]
    rw [hd, List.take_add_one, ht, List.getElem?_set_self (by simp only [List.length_drop]; omega)]
    rfl
  · show List.take (s.len + 1) (List.drop 0 (s.items ++ x :: List.replicate n default)) = s.items ++ [x]
    rw [List.drop_zero, show s.len + 1 = s.items.length + 1 by rw [hl]]
    rw [show s.items ++ x :: List.replicate n default = (s.items ++ [x]) ++ List.replicate n default by simp]
    rw [List.take_append_of_le_length (by simp), List.take_of_length_le (by simp)]

theorem Slice.index_zero {s : Slice α} (h : s.WF) : s.index 0 = s.items.head? := by
  unfold WF at h
  unfold index items
  split
  · rename_i hp
    rw [List.head?_take, List.head?_drop, if_neg (by omega)]; rfl
  · rename_i hp
    rw [show s.len = 0 by omega]; rfl

theorem Slice.tail_items {s : Slice α} (_ : 0 < s.len) : s.tail.items = s.items.tail := by
  unfold tail items
  rw [← List.drop_one, List.drop_take, List.drop_drop]

theorem Slice.tail_wf {s : Slice α} (h : s.WF) (hp : 0 < s.len) : s.tail.WF := by unfold WF tail at *; simp only; omega

theorem exec_fifo (spare : Nat → Nat) : ∀ (ops : List (Spec.QOp α)) (q : Queue α) (ins : List α) (taken : Nat),
    q.items.WF → q.items.items = ins.drop taken → taken ≤ ins.length → q.exec spare ops = Spec.fifo ins taken ops
  | [], _, _, _, _, _, _ => rfl
  | op :: ops, q, ins, taken, hw, hi, ht => by
    have hl : q.items.len = ins.length - taken := by rw [← Slice.items_length hw, hi, List.length_drop]
    have hh : q.items.index 0 = ins[taken]? := by rw [Slice.index_zero hw, hi, List.head?_drop]
    cases op with
    | enqueue x =>
      simp only [Queue.exec, Spec.fifo]
      rw [exec_fifo spare ops (q.enqueue (spare q.size) x) (ins ++ [x]) taken (Slice.append_wf _ hw x)
        (by simp only [Queue.enqueue]; rw [Slice.append_items _ hw, hi, List.drop_append_of_le_length ht])
        (by simp only [List.length_append]; omega)]
    | dequeue =>
      simp only [Queue.exec, Spec.fifo, Queue.dequeue]
      by_cases h0 : q.items.len = 0
      · simp only [if_pos h0]
        have : taken = ins.length := by omega
        rw [exec_fifo spare ops q ins (min (taken + 1) ins.length) hw (by rw [hi, this, Nat.min_eq_right (by omega)]) (by omega)]
        rw [List.getElem?_eq_none (by omega)]
      · simp only [if_neg h0]
        rw [hh, exec_fifo spare ops ⟨q.items.tail⟩ ins (min (taken + 1) ins.length) (Slice.tail_wf hw (by omega))
          (by simp only; rw [Slice.tail_items (by omega), hi, List.tail_drop, Nat.min_eq_left (by omega)]) (by omega)]
    | front =>
      simp only [Queue.exec, Spec.fifo, Queue.front]
      rw [hh, exec_fifo spare ops q ins taken hw hi ht]
    | isEmpty =>
      simp only [Queue.exec, Spec.fifo, Queue.isEmpty, hl]
      rw [exec_fifo spare ops q ins taken hw hi ht, decide_eq_decide.2 (show ins.length - taken = 0 ↔ taken = ins.length by omega)]
    | size =>
      simp only [Queue.exec, Spec.fifo, Queue.size, hl]
      rw [exec_fifo spare ops q ins taken hw hi ht]

/-- C67: for every sequence of operations on a new queue the callers see what a first-in first-out queue would show them, however `append` grows its arrays.
(`Front` of an empty queue panics, shown as `none`.) -/
theorem C67_fifo (spare : Nat → Nat) (ops : List (Spec.QOp α)) : (Queue.new : Queue α).exec spare ops = Spec.fifo [] 0 ops :=
  exec_fifo spare ops _ [] 0 (by simp [Slice.WF, Queue.new]) rfl (Nat.le_refl _)

/-- C67: the same for a queue built from a slice, which may be a window into a larger array. -/
theorem C67_fifo_of_slice (spare : Nat → Nat) (s : Slice α) (h : s.WF) (ops : List (Spec.QOp α)) :
    (Queue.ofSlice s).exec spare ops = Spec.fifo s.items 0 ops :=
  exec_fifo spare ops _ s.items 0 h rfl (Nat.zero_le _)

/-- A sequence with growing, wrapping and emptying. -/
example : (Queue.new : Queue Nat).exec (fun n => n) [.enqueue 1, .enqueue 2, .dequeue, .enqueue 3, .size, .front, .dequeue, .dequeue, .dequeue, .isEmpty, .enqueue 4, .dequeue] =
    [.unit, .unit, .item (some 1), .unit, .count 2, .item (some 2), .item (some 2), .item (some 3), .item none, .flag true, .unit, .item (some 4)] := by decide

/-- A slice in the middle of an array, as needed for `C67_fifo_of_slice`. -/
example : (⟨[7, 8, 9, 0], 1, 2⟩ : Slice Nat).WF ∧ (⟨[7, 8, 9, 0], 1, 2⟩ : Slice Nat).items = [8, 9] := by simp [Slice.WF, Slice.items]

end Verif
