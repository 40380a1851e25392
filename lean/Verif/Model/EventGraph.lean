import Verif.Model.Basic
/-
The aux-event relation between events (src/events.c:605-657 and the flag set in
src/routes.c:1316-1323).

Events are heap objects numbered in order of creation; the table maps labels to objects.  Objects
that have been removed from the table but are still referenced keep their links, and numbers are
never reused, so the relation is defined on all objects ever created.  Reference counts are
`Model/RefCount.lean`; label checks are `Model/Events.lean`.
-/
namespace WS.EG

abbrev Label := List Byte

structure G where
  /-- the events table -/
  table : List (Label × Nat) := []
  next : Nat := 0
  /-- `WOLFSENTRY_EVENT_FLAG_IS_SUBEVENT` -/
  isSub : Nat → Bool := fun _ => false
  /-- `WOLFSENTRY_EVENT_FLAG_IS_PARENT_EVENT` -/
  isParent : Nat → Bool := fun _ => false
  /-- `event->aux_event` -/
  aux : Nat → Option Nat := fun _ => none

def upd {α : Type} (f : Nat → α) (x : Nat) (v : α) : Nat → α := fun y => if y = x then v else f y

/-- `wolfsentry_event_get_1` (src/events.c:320-342). -/
def G.get (g : G) (l : Label) : Option Nat := (g.table.find? (fun p => p.1 == l)).map (·.2)

/-- `wolfsentry_event_insert` (src/events.c:265-303): a new object with no flags and no aux event. -/
def create (g : G) (l : Label) : Except Err Nat × G :=
  match g.get l with
  | some _ => (.error .itemAlreadyPresent, g)
  | none => (.ok g.next, { g with table := (l, g.next) :: g.table, next := g.next + 1 })

/-- `wolfsentry_event_delete` (src/events.c:433-452). -/
def delete (g : G) (l : Label) : Except Err Unit × G :=
  match g.get l with
  | none => (.error .itemNotFound, g)
  | some _ => (.ok (), { g with table := g.table.filter (fun p => p.1 != l) })

/-- The assignment part of `wolfsentry_event_set_aux_event` (src/events.c:638-642). -/
def assign (g : G) (e : Nat) (a : Option Nat) : G :=
  { g with aux := upd g.aux e a, isSub := match a with | none => g.isSub | some x => upd g.isSub x true }

/-- `wolfsentry_event_set_aux_event` (src/events.c:605-657); `none` is a NULL aux label. -/
def setAux (g : G) (l : Label) (al : Option Label) : Except Err Unit × G :=
  match g.get l with
  | none => (.error .itemNotFound, g)
  | some e =>
    if g.isSub e then (.error .incompatibleState, g)
    else match al with
      | none => (.ok (), assign g e none)
      | some al =>
        match g.get al with
        | none => (.error .itemNotFound, g)
        | some x => if g.isParent x then (.error .incompatibleState, g) else (.ok (), assign g e (some x))

/-- A rule is inserted with this event as parent and no insert actions (src/routes.c:1316-1323). -/
def markParent (g : G) (l : Label) : G :=
  match g.get l with
  | none => g
  | some e => { g with isParent := upd g.isParent e true }

inductive Op where
  | create (l : Label)
  | delete (l : Label)
  | flush
  | setAux (l : Label) (a : Option Label)
  | markParent (l : Label)

def step (g : G) : Op → G
  | .create l => (create g l).2
  | .delete l => (delete g l).2
  | .flush => { g with table := [] }
  | .setAux l a => (setAux g l a).2
  | .markParent l => markParent g l

def run (ops : List Op) : G := ops.foldl step {}

/-- `wolfsentry_event_get_aux_event` applied repeatedly (src/events.c:315-318). -/
def follow (g : G) : Nat → Nat → Option Nat
  | 0, x => some x
  | n + 1, x => match g.aux x with
    | none => none
    | some y => follow g n y

end WS.EG
