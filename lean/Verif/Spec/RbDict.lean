import Verif.Model.RbDict
/-
Specification of the JSON dictionary: an association list in order of insertion.
-/
namespace WS.Rb

/-- Entries of a tree from left to right. -/
def toList {β : Type} : Tree β → List (Key × β)
  | .nil => []
  | .node _ l k v r => toList l ++ (k, v) :: toList r

/-- Every path from the root to a leaf has `n` black nodes, and no red node has a red child. -/
inductive Balanced {β : Type} : Tree β → Nat → Prop
  | nil : Balanced .nil 0
  | red {l k v r n} : Balanced l n → Balanced r n → isRed l = false → isRed r = false → Balanced (.node .red l k v r) n
  | black {l k v r n} : Balanced l n → Balanced r n → Balanced (.node .black l k v r) (n + 1)

/-- A red-black tree: balanced, with a black root. -/
def RedBlack {β : Type} (t : Tree β) : Prop := (∃ n, Balanced t n) ∧ isRed t = false

/-- Longest path, in nodes. -/
def height {β : Type} : Tree β → Nat
  | .nil => 0
  | .node _ l _ _ r => max (height l) (height r) + 1

/-! ### the abstract dictionary -/

/-- The calls on a dictionary.  `add k alloc` is get-or-add, `set` stores through the returned pointer. -/
inductive Op (β : Type) where
  | add (k : Key) (alloc : Bool)
  | set (k : Key) (v : β)
  | remove (k : Key)

def has {β : Type} (cmp : Key → Key → Ordering) (k : Key) (l : List (Key × β)) : Bool := l.any (fun e => cmp k e.1 == .eq)

/-- Entries in order of insertion after one call. -/
def absStep {β : Type} (cmp : Key → Key → Ordering) (new : β) (l : List (Key × β)) : Op β → List (Key × β)
  | .add k alloc => if has cmp k l || !alloc then l else l ++ [(k, new)]
  | .set k v => l.map (fun e => if cmp k e.1 == .eq then (e.1, v) else e)
  | .remove k => l.filter (fun e => !(cmp k e.1 == .eq))

def absRun {β : Type} (cmp : Key → Key → Ordering) (new : β) (ops : List (Op β)) : List (Key × β) :=
  ops.foldl (absStep cmp new) []

/-- The value associated with a key. -/
def absGet {β : Type} (cmp : Key → Key → Ordering) (k : Key) (l : List (Key × β)) : Option β :=
  (l.find? (fun e => cmp k e.1 == .eq)).map (·.2)

/-! ### histories of the model -/

/-- One call; `none` is undefined behaviour. -/
def step {β : Type} (cmp : Key → Key → Ordering) (new : β) (d : Dict β) : Op β → Option (Dict β)
  | .add k alloc => (getOrAdd cmp new alloc k d).map (·.1)
  | .set k v => some { d with root := update cmp k v d.root }
  | .remove k => (remove cmp k d).map (·.1)

def runFrom {β : Type} (cmp : Key → Key → Ordering) (new : β) : List (Op β) → Dict β → Option (Dict β)
  | [], d => some d
  | o :: os, d => (step cmp new d o).bind (runFrom cmp new os)

/-- A history from an empty dictionary, with or without maintained order. -/
def run {β : Type} (cmp : Key → Key → Ordering) (new : β) (ordered : Bool) (ops : List (Op β)) : Option (Dict β) :=
  runFrom cmp new ops { order := if ordered then some [] else none }

end WS.Rb
