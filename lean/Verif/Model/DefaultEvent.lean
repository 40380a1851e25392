import Verif.Model.RefCount
/-
The default event of the rule table and the life of event objects
(src/routes.c:3493-3539, src/events.c:265-303, 385-459).

Event objects are numbered in order of creation and numbers are not reused; an object whose count has
dropped to zero has been released.  `held` counts the references of callers and of rules (their parent
events), which the API functions hand out and take back; auxiliary events are left out
(`Model/EventGraph.lean`), as are IDs, configurations and action lists (`Model/Events.lean`).  Labels are
the bytes that passed the label checks (`labelCheck` of `Model/Events.lean`); a reserved label is refused
before anything happens.  Each call holds the lock throughout, so histories of calls are sequences;
allocation failures are not modelled.
-/
namespace WS.DE

abbrev Label := List Byte

structure S where
  /-- the events table -/
  table : List (Label × Nat) := []
  /-- number of event objects ever made -/
  next : Nat := 0
  /-- the label stored in the object -/
  label : Nat → Label := fun _ => []
  /-- `header.refcount` -/
  rc : Nat → Nat := fun _ => 0
  /-- references held by callers and rules -/
  held : Nat → Nat := fun _ => 0
  /-- `table->default_event` -/
  default : Option Nat := none

def upd {α : Type} (f : Nat → α) (x : Nat) (v : α) : Nat → α := fun y => if y = x then v else f y

/-- `wolfsentry_event_get_1` (src/events.c:320-342). -/
def S.get (s : S) (l : Label) : Option Nat := (s.table.find? (fun p => p.1 == l)).map (·.2)

/-- `wolfsentry_event_insert` (src/events.c:265-303): a new object with one reference, the table's. -/
def create (s : S) (l : Label) : Except Err Unit × S :=
  match s.get l with
  | some _ => (.error .itemAlreadyPresent, s)
  | none => (.ok (), { s with table := (l, s.next) :: s.table, next := s.next + 1, label := upd s.label s.next l, rc := upd s.rc s.next 1 })

/-- `WOLFSENTRY_REFCOUNT_INCREMENT` on an event. -/
def upref (s : S) (e : Nat) : Except Err Unit × S :=
  match RC.refInc (s.rc e) with
  | (n, .ok ()) => (.ok (), { s with rc := upd s.rc e n })
  | (_, .error x) => (.error x, s)

/-- `wolfsentry_event_drop_reference` (src/events.c:405-431): refused for an object without references,
otherwise one reference less; at zero the object is released. -/
def drop (s : S) (e : Nat) : Except Err Unit × S :=
  if s.rc e = 0 then (.error .internalCheckFatal, s) else (.ok (), { s with rc := upd s.rc e (s.rc e - 1) })

/-- `wolfsentry_event_delete` (src/events.c:433-452). -/
def delete (s : S) (l : Label) : Except Err Unit × S :=
  match s.get l with
  | none => (.error .itemNotFound, s)
  | some e => drop { s with table := s.table.filter (fun p => p.1 != l) } e

/-- `wolfsentry_event_flush_all` (src/events.c:454-459) with `wolfsentry_table_free_ents`
(src/wolfsentry_internal.c:529-562): the table is emptied at once, then every entry loses the table's
reference; what the drops return is ignored. -/
def flush (s : S) : Except Err Unit × S :=
  (.ok (), s.table.foldl (fun s p => (drop s p.2).2) { s with table := [] })

/-- `wolfsentry_event_get_reference` (src/events.c:385-402): the object and one more reference to it. -/
def getReference (s : S) (l : Label) : Except Err Nat × S :=
  match s.get l with
  | none => (.error .itemNotFound, s)
  | some e =>
    match upref s e with
    | (.ok (), s') => (.ok e, s')
    | (.error x, s') => (.error x, s')

/-- A caller, or a rule being made, takes a reference (src/events.c:385-402, src/routes.c:1000). -/
def take (s : S) (l : Label) : Except Err Nat × S :=
  match getReference s l with
  | (.ok e, s') => (.ok e, { s' with held := upd s'.held e (s'.held e + 1) })
  | r => r

/-- The owner of a reference gives it up. -/
def release (s : S) (e : Nat) : Except Err Unit × S :=
  if s.held e = 0 then (.ok (), s)   -- not a caller's reference: no call
  else drop { s with held := upd s.held e (s.held e - 1) } e

/-- `wolfsentry_route_table_clear_default_event` (src/routes.c:3493-3505). -/
def clearDefault (s : S) : Except Err Unit × S :=
  match s.default with
  | none => (.ok (), s)
  | some e =>
    match drop s e with
    | (.error x, s') => (.error x, s')
    | (.ok (), s') => (.ok (), { s' with default := none })

/-- `wolfsentry_route_table_set_default_event` (src/routes.c:3507-3524). -/
def setDefault (s : S) (l : Label) : Except Err Unit × S :=
  match getReference s l with
  | (.error x, s') => (.error x, s')
  | (.ok e, s1) =>
    match clearDefault s1 with
    | (.error x, s2) => (.error x, (drop s2 e).2)
    | (.ok (), s2) => (.ok (), { s2 with default := some e })

/-- `wolfsentry_route_table_get_default_event` (src/routes.c:3526-3539): `buf` is the caller's buffer,
`len` the length given; the result is the buffer afterwards.  Nothing is written on failure, and
`*event_label_len` never. -/
def getDefault (s : S) (buf : List Byte) (len : Int) : Except Err Unit × List Byte :=
  match s.default with
  | none => (.error .itemNotFound, buf)
  | some e =>
    if (s.label e).length ≥ len then (.error .bufferTooSmall, buf)
    else (.ok (), s.label e ++ 0#8 :: buf.drop ((s.label e).length + 1))

inductive Op where
  | create (l : Label)
  | delete (l : Label)
  | flush
  | take (l : Label)
  | release (e : Nat)
  | setDefault (l : Label)
  | clearDefault

/-- One call: whether it succeeded, and the state afterwards. -/
def step (s : S) : Op → Except Err Unit × S
  | .create l => create s l
  | .delete l => delete s l
  | .flush => flush s
  | .take l => ((take s l).1.map (fun _ => ()), (take s l).2)
  | .release e => release s e
  | .setDefault l => setDefault s l
  | .clearDefault => clearDefault s

/-- The state after a history of calls. -/
def run (ops : List Op) : S := ops.foldl (fun s o => (step s o).2) {}

end WS.DE
