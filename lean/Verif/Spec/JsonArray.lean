import Verif.Model.JsonArray
/-
Lists as arrays of values should behave (property C60).  From Model/JsonArray only the data types `Call` and `Report` are used.
-/
namespace WS.Spec.JArr
open WS.JArr

/-- There is no memory: the allocator has none, or the list has 2^58 elements already. -/
def Refused {α : Type} (r : Reply α) (l : List α) : Prop := r = none ∨ 2 ^ 58 ≤ l.length

/-- The list after a call, and what the call reports.  A call that needs memory may fail, and then changes nothing. -/
inductive Step {α : Type} : List α → Call α → List α → Report → Prop
  | insert {l : List α} {r : Reply α} {i : Nat} {v : α} : i ≤ l.length → Step l (.insert r i v) (l.take i ++ v :: l.drop i) (.pointer true)
  | noMemory {l : List α} {r : Reply α} {i : Nat} {v : α} : i ≤ l.length → Refused r l → Step l (.insert r i v) l (.pointer false)
  | insertOutside {l : List α} {r : Reply α} {i : Nat} {v : α} : l.length < i → Step l (.insert r i v) l (.pointer false)
  | append {l : List α} {r : Reply α} {v : α} : Step l (.append r v) (l ++ [v]) (.pointer true)
  | appendNoMemory {l : List α} {r : Reply α} {v : α} : Refused r l → Step l (.append r v) l (.pointer false)
  | put {l : List α} {i : Nat} {v : α} : i < l.length → Step l (.put i v) (l.set i v) (.pointer true)
  | putOutside {l : List α} {i : Nat} {v : α} : l.length ≤ i → Step l (.put i v) l (.pointer false)
  | removeRange {l : List α} {r : Reply α} {i n : Nat} : i + n ≤ l.length → Step l (.removeRange r i n) (l.take i ++ l.drop (i + n)) (.code 0)
  | removeOutside {l : List α} {r : Reply α} {i n : Nat} : l.length < i + n → Step l (.removeRange r i n) l (.code (-1))
  | remove {l : List α} {r : Reply α} {i : Nat} : i < l.length → Step l (.remove r i) (l.take i ++ l.drop (i + 1)) (.code 0)
  | removeOneOutside {l : List α} {r : Reply α} {i : Nat} : l.length ≤ i → Step l (.remove r i) l (.code (-1))
  | clean {l : List α} : Step l .clean [] (.code 0)

/-- A history. -/
inductive Run {α : Type} : List α → List (Call α) → List α → List Report → Prop
  | nil {l : List α} : Run l [] l []
  | cons {l l' l'' : List α} {c : Call α} {cs : List (Call α)} {rep : Report} {reps : List Report} :
      Step l c l' rep → Run l' cs l'' reps → Run l (c :: cs) l'' (rep :: reps)

/-- The indices and counts of a removal do not exceed `size_t` together. -/
def Sane {α : Type} : Call α → Prop
  | .removeRange _ i n => i + n < 2 ^ 64
  | .remove _ i => i + 1 < 2 ^ 64
  | _ => True

/-- The calls that remove some elements. -/
def Removes {α : Type} : Call α → Prop
  | .removeRange _ _ _ => True
  | .remove _ _ => True
  | _ => False

/-- In the history no removal leaves the list empty, however the allocator answers. -/
def KeepsSome {α : Type} (l : List α) (cs : List (Call α)) : Prop :=
  ∀ before c after l1 l2 reps rep, cs = before ++ c :: after → Run l before l1 reps → Removes c → Step l1 c l2 rep → l2 ≠ []

end WS.Spec.JArr
