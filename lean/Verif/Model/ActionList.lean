import Verif.Model.DList
import Verif.Model.Basic
/-
Editing of an event's action list (src/actions.c:293-548) on top of the pointer-level lists.
-/
namespace WS

/-- One action list: the linked cells, the action each cell points to, and the labels of actions. -/
structure ActionList where
  s : DList.State
  act : Nat → Nat
  label : Nat → List Byte := fun _ => []

/-- Walk of the list, as the loops over it perform it.  The bound is the stored length, which on a
well-formed list is the whole list. -/
def ActionList.cells (l : ActionList) : List Nat := DList.walk l.s l.s.len l.s.head

/-- `wolfsentry_action_list_find_1` (src/actions.c:293-313): the first cell that points to the
action. -/
def ActionList.find (l : ActionList) (a : Nat) : Option Nat := l.cells.find? (fun x => l.act x == a)

/-- `new->action = action` in a freshly allocated cell. -/
def ActionList.setAct (l : ActionList) (c a : Nat) : ActionList :=
  { l with act := fun x => if x = c then a else l.act x }

/-- `wolfsentry_action_list_append_1` (src/actions.c:315-329).  `cell` is what `malloc` returns. -/
def ActionList.append1 (l : ActionList) (a : Nat) (cell : Option Nat) : Except Err ActionList :=
  if (l.find a).isSome then .error .itemAlreadyPresent
  else match cell with
    | none => .error .sysResourceFailed
    | some c => .ok { l.setAct c a with s := DList.append l.s c }

/-- `wolfsentry_action_list_prepend_1` (src/actions.c:353-367). -/
def ActionList.prepend1 (l : ActionList) (a : Nat) (cell : Option Nat) : Except Err ActionList :=
  if (l.find a).isSome then .error .itemAlreadyPresent
  else match cell with
    | none => .error .sysResourceFailed
    | some c => .ok { l.setAct c a with s := DList.prepend l.s c }

/-- `wolfsentry_action_list_insert_after_1` (src/actions.c:391-410).  The links of the new cell are
whatever `malloc` left there. -/
def ActionList.insertAfter1 (l : ActionList) (a point : Nat) (cell : Option Nat) : Except Err ActionList :=
  if (l.find a).isSome then .error .itemAlreadyPresent
  else match l.find point with
    | none => .error .itemNotFound
    | some p =>
      match cell with
      | none => .error .sysResourceFailed
      | some c => .ok { l.setAct c a with s := DList.insertAfter l.s (some p) c }

/-- `wolfsentry_action_list_delete` (src/actions.c:490-523): remove the first cell whose action has
the label.  `none`: a NULL pointer would be dereferenced. -/
def ActionList.delete (l : ActionList) (lab : List Byte) : Option (Except Err ActionList) :=
  match l.cells.find? (fun x => l.label (l.act x) == lab) with
  | none => some (.error .itemNotFound)
  | some c => (DList.delete l.s c).map (fun s => .ok { l with s := s })

/-- `wolfsentry_action_list_delete_all` (src/actions.c:525-548): delete each cell of the walk, the
next one being read before the current one goes away. -/
def ActionList.deleteAll (l : ActionList) : Option ActionList :=
  (l.cells.foldl (fun st c => st.bind (fun s => DList.delete s c)) (some l.s)).map (fun s => { l with s := s })

/-- The label lookups in front of the edits: `wolfsentry_action_list_append`, `_prepend`,
`_insert_after` (src/actions.c:331-351, 369-389, 412-441) first resolve labels to actions through
the action table; an unknown label is `ITEM_NOT_FOUND`. -/
def ActionList.append (l : ActionList) (resolve : List Byte → Option Nat) (lab : List Byte) (cell : Option Nat) :
    Except Err ActionList :=
  match resolve lab with
  | none => .error .itemNotFound
  | some a => l.append1 a cell

def ActionList.prepend (l : ActionList) (resolve : List Byte → Option Nat) (lab : List Byte) (cell : Option Nat) :
    Except Err ActionList :=
  match resolve lab with
  | none => .error .itemNotFound
  | some a => l.prepend1 a cell

def ActionList.insertAfter (l : ActionList) (resolve : List Byte → Option Nat) (lab point : List Byte) (cell : Option Nat) :
    Except Err ActionList :=
  match resolve lab with
  | none => .error .itemNotFound
  | some a =>
    match resolve point with
    | none => .error .itemNotFound
    | some p => l.insertAfter1 a p cell

end WS
