/-
Pointer-level model of the intrusive doubly linked lists: `src/wolfsentry_ll.h:28-140` (action
lists, purge list, cleanup hooks) and the inlined surgery of the tables
(`src/wolfsentry_internal.c:41-62, 372-387, 420-428, 484-494`).
Cells are addressed by natural numbers; `none` is NULL.
-/
namespace WS.DList

/-- `struct wolfsentry_list_ent_header` (src/wolfsentry_ll.h:26-28). -/
structure Links where
  prev : Option Nat := none
  next : Option Nat := none
  deriving DecidableEq, Repr

/-- Memory and one list header (`struct wolfsentry_list_header`, src/wolfsentry_ll.h:30-34). -/
structure State where
  cell : Nat → Links
  head : Option Nat := none
  tail : Option Nat := none
  len : Nat := 0

/-- `x->next = v`. -/
def State.setNext (s : State) (x : Nat) (v : Option Nat) : State :=
  { s with cell := fun y => if y = x then { s.cell y with next := v } else s.cell y }

/-- `x->prev = v`. -/
def State.setPrev (s : State) (x : Nat) (v : Option Nat) : State :=
  { s with cell := fun y => if y = x then { s.cell y with prev := v } else s.cell y }

/-- `p->next = v` / `p->prev = v` through a pointer that must not be NULL. -/
def State.setNext? (s : State) (p : Option Nat) (v : Option Nat) : Option State :=
  p.map (fun x => s.setNext x v)
def State.setPrev? (s : State) (p : Option Nat) (v : Option Nat) : Option State :=
  p.map (fun x => s.setPrev x v)

/-- `wolfsentry_list_ent_prepend` (src/wolfsentry_ll.h:39-50). -/
def prepend (s : State) (e : Nat) : State :=
  let s := s.setPrev e none
  match s.head with
  | some h =>
    let s := s.setPrev h (some e)
    let s := s.setNext e (some h)
    { s with head := some e, len := s.len + 1 }
  | none =>
    let s := s.setNext e none
    { s with head := some e, tail := some e, len := s.len + 1 }

/-- `wolfsentry_list_ent_append` (src/wolfsentry_ll.h:52-63). -/
def append (s : State) (e : Nat) : State :=
  let s := s.setNext e none
  match s.tail with
  | some t =>
    let s := s.setNext t (some e)
    let s := s.setPrev e (some t)
    { s with tail := some e, len := s.len + 1 }
  | none =>
    let s := s.setPrev e none
    { s with head := some e, tail := some e, len := s.len + 1 }

/-- `wolfsentry_list_ent_insert_before` (src/wolfsentry_ll.h:65-80).  Note that in the head case
nothing is stored in `new_ent->prev`. -/
def insertBefore (s : State) (point : Option Nat) (e : Nat) : State :=
  match point with
  | none => append s e
  | some p =>
    let s := s.setNext e (some p)
    let s := match (s.cell p).prev with
      | some q =>
        let s := s.setPrev e (some q)
        s.setNext q (some e)
      | none => { s with head := some e }
    let s := s.setPrev p (some e)
    { s with len := s.len + 1 }

/-- `wolfsentry_list_ent_insert_after` (src/wolfsentry_ll.h:82-99).  Note that in the tail case
nothing is stored in `new_ent->next`. -/
def insertAfter (s : State) (point : Option Nat) (e : Nat) : State :=
  match point with
  | none => append s e
  | some p =>
    let s := s.setPrev e (some p)
    let s := match (s.cell p).next with
      | some q =>
        let s := s.setNext e (some q)
        s.setPrev q (some e)
      | none => { s with tail := some e }
    let s := s.setNext p (some e)
    { s with len := s.len + 1 }

/-- `wolfsentry_list_ent_delete` (src/wolfsentry_ll.h:101-115); `none` when a NULL pointer would be
dereferenced.  The links of the removed cell are left as they are. -/
def delete (s : State) (e : Nat) : Option State :=
  let r :=
    if s.head = some e then
      let s := { s with head := (s.cell e).next }
      match s.head with
      | some h => some (s.setPrev h none)
      | none => some { s with tail := none }
    else if s.tail = some e then
      let s := { s with tail := (s.cell e).prev }
      s.setNext? s.tail none
    else
      (s.setPrev? (s.cell e).next (s.cell e).prev).bind fun s =>
        s.setNext? (s.cell e).prev (s.cell e).next
  r.map fun s => { s with len := s.len - 1 }

/-- The splice of the table functions before cell `i`, or at the end when the scan ran off the
list (src/wolfsentry_internal.c:41-64; the by-ID list: 369-390). -/
def tableSplice (s : State) (i : Option Nat) (e : Nat) : State :=
  match i with
  | some i =>
    let s := s.setPrev e (s.cell i).prev
    let s := s.setNext e (some i)
    let s := match (s.cell i).prev with
      | some q => s.setNext q (some e)
      | none => { s with head := some e }
    let s := s.setPrev i (some e)
    { s with len := s.len + 1 }
  | none =>
    match s.tail with
    | some t =>
      let s := s.setNext t (some e)
      let s := s.setPrev e (some t)
      let s := s.setNext e none
      { s with tail := some e, len := s.len + 1 }
    | none =>
      let s := s.setPrev e none
      let s := s.setNext e none
      { s with head := some e, tail := some e, len := s.len + 1 }

/-- The unlink of the table functions (src/wolfsentry_internal.c:420-430 and 484-494), which also
clears the links of the removed cell. -/
def tableUnlink (s : State) (e : Nat) : State :=
  let p := (s.cell e).prev
  let s := match p with
    | some q => s.setNext q (s.cell e).next
    | none => { s with head := (s.cell e).next }
  let s := match (s.cell e).next with
    | some q => s.setPrev q (s.cell e).prev
    | none => { s with tail := (s.cell e).prev }
  let s := s.setPrev e none
  let s := s.setNext e none
  { s with len := s.len - 1 }

/-- The forward walk every iterator performs: follow `next` from `head`, at most `fuel` cells. -/
def walk (s : State) : Nat → Option Nat → List Nat
  | 0, _ => []
  | _, none => []
  | fuel + 1, some x => x :: walk s fuel (s.cell x).next

/-- `wolfsentry_route_purge_list_insert` (src/routes.c:2992-3002) over cells with the given expiry
times: walk to the first strictly earlier expiry and insert before it. -/
def purgeInsert (s : State) (expiry : Nat → Int) (fuel : Nat) (e : Nat) : State :=
  insertBefore s ((walk s fuel s.head).find? (fun p => decide (expiry p < expiry e))) e

/-- The removal half of `wolfsentry_route_purge_time_set` (src/routes.c:3010-3011) followed by its
insertion half (3012-3014), with the new expiry times already in `expiry`. -/
def purgeMove (s : State) (expiry : Nat → Int) (fuel : Nat) (e : Nat) : Option State :=
  (delete s e).map fun s => purgeInsert s expiry fuel e

/-- The pointer-level ordered insertion of the tables: scan from the head for the first cell that
does not compare below the new one, refuse an equal one, splice before it
(src/wolfsentry_internal.c:33-64; by ID: 362-390).  `c x` is the comparison of cell `x` with the
new cell. -/
def orderedInsert (s : State) (c : Nat → Ordering) (fuel : Nat) (e : Nat) : Option State :=
  match (walk s fuel s.head).find? (fun x => decide (c x ≠ .lt)) with
  | none => some (tableSplice s none e)
  | some i => if c i = .eq then none else some (tableSplice s (some i) e)

end WS.DList
