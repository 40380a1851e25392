import Verif.Model.DList
/-
What it means for memory to hold a doubly linked list, independent of the list operations.
-/
namespace WS.DList

/-- The cells `xs`, in this order, form a well-formed doubly linked list under the header: no cell
twice, head/tail/length right, and every cell's links point to its neighbours (NULL at the ends). -/
structure IsList (s : State) (xs : List Nat) : Prop where
  nodup : xs.Nodup
  head : s.head = xs[0]?
  tail : s.tail = xs[xs.length - 1]?
  len : s.len = xs.length
  next : ∀ i x, xs[i]? = some x → (s.cell x).next = xs[i + 1]?
  prev : ∀ i x, xs[i]? = some x → (s.cell x).prev = if i = 0 then none else xs[i - 1]?

/-- Cells outside the list (and the operated-on cell `e`) are not touched. -/
def Frame (s s' : State) (xs : List Nat) (e : Nat) : Prop :=
  ∀ y, y ∉ xs → y ≠ e → s'.cell y = s.cell y

end WS.DList
