import Verif.Model.Basic
/-
Reference counting of table objects (src/wolfsentry_internal.h:177-194; the `drop_reference`
functions in src/events.c:405-431, src/actions.c:257-272, src/routes.c:594-622, src/kv.c:84-118,
src/addr_families.c:365-391; `wolfsentry_object_checkout`/`_release` in
src/wolfsentry_util.c:3301-3316).

The model is a transition system over a heap of objects.  A reference is held by a table, by a
caller (a "handle"), or by another object (an event's `aux_event`, the actions in its lists, a
rule's `parent_event`); a reference being given up stays in `dropping` until the atomic decrement
for it is executed.  Each transition is one atomic effect, so an arbitrary interleaving of
transitions covers any number of threads calling the API concurrently: the increments and decrements
are single compare-and-swap effects (`Model/Atomic.lean`), table membership changes only under the
exclusive lock.

The recursive drops at zero (events.c:420-424, routes.c:611-612, `wolfsentry_event_free` 81-94) are
the freed object's references moving to `dropping`.  In C they are executed before the memory is
handed to the allocator, here in any order afterwards.
-/
namespace WS.RC

/-- One object: its `header.refcount`, whether its memory is still allocated, whether it is in its
table, and the references it holds to other objects. -/
structure Obj where
  rc : Nat := 0
  live : Bool := false
  inTable : Bool := false
  refs : List Nat := []

structure Heap where
  objs : Nat → Obj := fun _ => {}
  /-- number of objects ever allocated; the next one gets this number -/
  next : Nat := 0
  /-- references held by callers -/
  handles : Nat → Nat := fun _ => 0
  /-- references given up whose decrement has not been executed yet -/
  dropping : List Nat := []

def Heap.setObj (h : Heap) (x : Nat) (o : Obj) : Heap :=
  { h with objs := fun y => if y = x then o else h.objs y }
def Heap.setHandles (h : Heap) (x : Nat) (n : Nat) : Heap :=
  { h with handles := fun y => if y = x then n else h.handles y }

/-- `MAX_UINT_OF(wolfsentry_refcount_t)`, a `uint32_t` (src/wolfsentry_internal.h:29-33). -/
def maxRef : Nat := 4294967295

/-- `WOLFSENTRY_REFCOUNT_INCREMENT` (src/wolfsentry_internal.h:177-185). -/
def refInc (rc : Nat) : Nat × Except Err Unit :=
  if rc = maxRef then (rc, .error .overflowAverted) else (rc + 1, .ok ())

/-- The atomic effects. -/
inductive Act where
  /-- allocation and initialisation with `refcount = 1`, e.g. src/events.c:70 -/
  | create
  /-- `wolfsentry_table_ent_insert` takes over the creator's reference -/
  | insertTable (x : Nat)
  /-- `..._get_reference`, `wolfsentry_object_checkout`: increment -/
  | acquire (x : Nat)
  /-- a caller starts `..._drop_reference` -/
  | giveUp (x : Nat)
  /-- `wolfsentry_table_ent_delete_1` before the drop, e.g. src/events.c:446-449 -/
  | removeTable (x : Nat)
  /-- a caller stores its reference to `y` in object `x` (src/events.c:641, src/routes.c:1000,
  src/actions.c:315-328) -/
  | link (x y : Nat)
  /-- an object's reference is taken out to be dropped (src/events.c:640, src/actions.c:515-516) -/
  | unlink (x y : Nat)
  /-- one pending drop executes `WOLFSENTRY_REFCOUNT_DECREMENT` and what follows -/
  | decrement (x : Nat)

/-- What a caller needs for each effect, in terms of references only: to hold or see a reference.
(Nothing here says that the object is allocated: that is what is proved.) -/
def Enabled (h : Heap) : Act → Prop
  | .create => True
  | .insertTable x => 0 < h.handles x ∧ (h.objs x).inTable = false
  | .acquire x => (h.objs x).inTable = true ∨ 0 < h.handles x ∨ ∃ y, x ∈ (h.objs y).refs
  | .giveUp x => 0 < h.handles x
  | .removeTable x => (h.objs x).inTable = true
  | .link x y => 0 < h.handles y ∧ ((h.objs x).inTable = true ∨ 0 < h.handles x)
  | .unlink x y => y ∈ (h.objs x).refs
  | .decrement x => x ∈ h.dropping

/-- The drop at the end of a `drop_reference`: refuse a zero count, decrement, and on reaching zero
give up what the object holds and free it (src/events.c:408-427, src/routes.c:601-613). -/
def decrement (h : Heap) (x : Nat) : Heap × Except Err Unit :=
  let o := h.objs x
  if o.rc = 0 then (h, .error .internalCheckFatal)
  else if o.rc - 1 > 0 then
    (({ h with dropping := h.dropping.erase x } : Heap).setObj x { o with rc := o.rc - 1 }, .ok ())
  else
    (({ h with dropping := o.refs ++ h.dropping.erase x } : Heap).setObj x
      { o with rc := 0, live := false, refs := [] }, .ok ())

/-- `acquire` (e.g. src/events.c:391-394, src/wolfsentry_util.c:3301-3309). -/
def acquire (h : Heap) (x : Nat) : Heap × Except Err Unit :=
  match refInc (h.objs x).rc with
  | (_, .error e) => (h, .error e)
  | (rc, .ok ()) => ((h.setObj x { h.objs x with rc := rc }).setHandles x (h.handles x + 1), .ok ())

def step (h : Heap) : Act → Heap × Except Err Unit
  | .create =>
    ((({ h with next := h.next + 1 } : Heap).setObj h.next { rc := 1, live := true }).setHandles h.next 1, .ok ())
  | .insertTable x => ((h.setObj x { h.objs x with inTable := true }).setHandles x (h.handles x - 1), .ok ())
  | .acquire x => acquire h x
  | .giveUp x => ({ (h.setHandles x (h.handles x - 1)) with dropping := x :: h.dropping }, .ok ())
  | .removeTable x => ({ (h.setObj x { h.objs x with inTable := false }) with dropping := x :: h.dropping }, .ok ())
  | .link x y => ((h.setObj x { h.objs x with refs := y :: (h.objs x).refs }).setHandles y (h.handles y - 1), .ok ())
  | .unlink x y =>
    ({ (h.setObj x { h.objs x with refs := (h.objs x).refs.erase y }) with dropping := y :: h.dropping }, .ok ())
  | .decrement x => decrement h x

/-- Histories: any finite sequence of enabled effects from the empty heap. -/
inductive Reach : Heap → Prop where
  | init : Reach {}
  | step (h : Heap) (a : Act) (hr : Reach h) (he : Enabled h a) : Reach (step h a).1

/-- `wolfsentry_object_release` (src/wolfsentry_util.c:3312-3316) goes through
`object->parent_table->free_fn`; `wolfsentry_table_ent_delete_1` has set `parent_table` to NULL for an
object no longer in a table (src/wolfsentry_internal.c:494).  `none`: null-pointer dereference. -/
def objectRelease (h : Heap) (x : Nat) : Option (Heap × Except Err Unit) :=
  if (h.objs x).inTable then some (decrement { h with dropping := x :: h.dropping } x) else none

/-- `wolfsentry_route_drop_reference_1` on a rule (object `r`) that holds its parent event `e`, with
only these two counts looked at (src/routes.c:599-613): the address of the configuration is taken
from the event first; after the drop of the event, `wolfsentry_route_free_1` reads through it.
Returns the heap and whether the configuration's memory is still allocated when it is read (`true`
when the rule is not freed, so that nothing is read). -/
def routeDropReadsLive (h : Heap) (r e : Nat) : Bool :=
  if (h.objs r).rc ≠ 1 then true
  else
    let h1 := (decrement { h with dropping := e :: h.dropping } e).1
    (h1.objs e).live

end WS.RC
