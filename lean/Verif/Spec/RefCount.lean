import Verif.Model.RefCount
/- What reference counting promises, in terms of who holds a reference. -/
namespace WS.Spec
open WS.RC

/-- Somebody refers to object `x`: its table, a caller, an allocated object, or a thread in the
middle of giving its reference up. -/
def Referenced (h : Heap) (x : Nat) : Prop :=
  (h.objs x).inTable = true ∨ 0 < h.handles x ∨ (∃ y, (h.objs y).live = true ∧ x ∈ (h.objs y).refs) ∨ x ∈ h.dropping

/-- Number of references to `x` held by the objects below `n`. -/
def heldUpto (f : Nat → Obj) (x : Nat) : Nat → Nat
  | 0 => 0
  | n + 1 => heldUpto f x n + (f n).refs.count x

/-- The objects an effect reads or writes. -/
def touches : Act → List Nat
  | .create => []
  | .insertTable x | .acquire x | .giveUp x | .removeTable x | .decrement x => [x]
  | .link x y | .unlink x y => [x, y]

/-- A further stretch of history. -/
inductive Later : Heap → Heap → Prop where
  | refl (h : Heap) : Later h h
  | step (h h' : Heap) (a : Act) (hl : Later h h') (he : Enabled h' a) : Later h (step h' a).1

end WS.Spec
