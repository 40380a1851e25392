import Verif.Model.RouteKey
/-
Tables and the by-ID index (src/wolfsentry_internal.c:27-69, 305-560), generic in the key type.
Each of the C tables (routes, events, actions, user values, address families by number and by
name) is a doubly linked list kept sorted by its `cmp_fn`; `ents_by_id` is a second list through
all objects of a context, sorted by ID.  Here both are `List`s; the pointer surgery is modelled
separately in `Model/DList.lean`, and `Proof/DList.lean` proves that it implements these lists.

An object in C is one allocation that sits in both lists.  Its key and ID do not change while it is
in a table, so the model puts the same value `Ent` in both lists.  Unlinking "this object" by
pointer is unlinking "the entry with this ID", which is the same thing because live IDs are unique
(property C04, part of the invariant proved in `Proof/Table.lean`).
-/
namespace WS

/-- `struct wolfsentry_table_ent_header` (src/wolfsentry_internal.h:225-239): `id`,
`parent_table` (as a table number) and the key the table's `cmp_fn` looks at. -/
structure Ent (κ : Type) where
  id : Nat
  tbl : Nat
  key : κ
  deriving DecidableEq, Repr

/-- `struct wolfsentry_table_header` (src/wolfsentry_internal.h:255-280). -/
structure Table (κ : Type) where
  ents : List (Ent κ) := []
  nEnts : Nat := 0
  nInserts : Nat := 0
  nDeletes : Nat := 0

/-- The part of `struct wolfsentry_context` that the table functions touch: all tables, the
by-ID list, and `mk_id_cb_state.id_counter` (a 32-bit counter). -/
structure Store (κ : Type) where
  tables : Nat → Table κ := fun _ => {}
  byId : List (Ent κ) := []
  nById : Nat := 0
  counter : Nat := 0

variable {κ : Type}

def Store.setTable (s : Store κ) (t : Nat) (tab : Table κ) : Store κ :=
  { s with tables := fun t' => if t' = t then tab else s.tables t' }

/-- Number of values of `wolfsentry_ent_id_t` (`uint32_t`). -/
def idModulus : Nat := 4294967296

/-- The scan and splice of `wolfsentry_table_ent_insert_by_id` (src/wolfsentry_internal.c:362-387);
`none` is the `ITEM_ALREADY_PRESENT` case. -/
def idSplice (e : Ent κ) : List (Ent κ) → Option (List (Ent κ))
  | [] => some [e]
  | i :: rest =>
    if i.id < e.id then (idSplice e rest).map (i :: ·)
    else if i.id = e.id then none
    else some (e :: i :: rest)

/-- `wolfsentry_table_ent_insert_by_id` (src/wolfsentry_internal.c:354-391). -/
def insertById (s : Store κ) (e : Ent κ) : Except Err (Store κ) :=
  if e.id = 0 then .error .invalidArg
  else match idSplice e s.byId with
    | none => .error .itemAlreadyPresent
    | some l => .ok { s with byId := l, nById := s.nById + 1 }

/-- `wolfsentry_table_ent_get_by_id` (src/wolfsentry_internal.c:393-412). -/
def getByIdScan (id : Nat) : List (Ent κ) → Except Err (Ent κ)
  | [] => .error .itemNotFound
  | i :: rest =>
    if i.id < id then getByIdScan id rest
    else if i.id = id then .ok i
    else .error .itemNotFound

def getById (s : Store κ) (id : Nat) : Except Err (Ent κ) :=
  if id = 0 then .error .invalidArg else getByIdScan id s.byId

/-- `wolfsentry_table_ent_delete_by_id_1` (src/wolfsentry_internal.c:414-439) on an object that is
in the by-ID list: unlink, adjust the count, and step the counter back when the ID is the one
before it (32-bit arithmetic). -/
def deleteById1 (s : Store κ) (e : Ent κ) : Store κ :=
  { s with
      byId := s.byId.filter (fun i => i.id != e.id),
      nById := s.nById - 1,
      counter := if (e.id + 1) % idModulus = s.counter then (s.counter + (idModulus - 1)) % idModulus
                 else s.counter }

/-- The default branch of `wolfsentry_id_allocate` (src/wolfsentry_internal.c:314-338): take the
next counter value until one is free; the value 0 reached by wrapping is refused by
`wolfsentry_table_ent_insert_by_id` with `INVALID_ARG`.  The store is returned in both cases
because the counter moves even on failure.  (With a user `mk_id_cb` the candidate comes from the
callback instead; what the callback returns is not modelled, but every candidate goes through
`insertById`.) -/
def idAllocate (s : Store κ) (t : Nat) (k : κ) : Except Err (Ent κ) × Store κ :=
  let c := (s.counter + 1) % idModulus
  match insertById { s with counter := c } { id := c, tbl := t, key := k } with
  | .ok s' => (.ok { id := c, tbl := t, key := k }, s')
  | .error .itemAlreadyPresent =>
      if s.counter + 1 < idModulus then idAllocate { s with counter := c } t k
      else (.error .itemAlreadyPresent, { s with counter := c })
  | .error x => (.error x, { s with counter := c })
termination_by idModulus - s.counter
decreasing_by
  simp only [idModulus] at *
  rename_i h
  omega

/-- Scan and splice of `wolfsentry_table_ent_insert` with `unique_p`
(src/wolfsentry_internal.c:36-62).  `none`: an equal entry is present. -/
def keySplice (cmp : κ → κ → Ordering) (e : Ent κ) : List (Ent κ) → Option (List (Ent κ))
  | [] => some [e]
  | i :: rest =>
    match cmp i.key e.key with
    | .lt => (keySplice cmp e rest).map (i :: ·)
    | .eq => none
    | .gt => some (e :: i :: rest)

/-- `wolfsentry_table_ent_insert` with `unique_p = 1`, as every caller passes
(src/wolfsentry_internal.c:27-69).  On a duplicate the new object is taken out of the by-ID list
again. -/
def tableInsert (cmp : Nat → κ → κ → Ordering) (s : Store κ) (e : Ent κ) : Except Err Unit × Store κ :=
  if e.id = 0 then (.error .invalidArg, s)
  else match keySplice (cmp e.tbl) e (s.tables e.tbl).ents with
    | none => (.error .itemAlreadyPresent, deleteById1 s e)
    | some l =>
      let tab := s.tables e.tbl
      (.ok (), s.setTable e.tbl { tab with ents := l, nEnts := tab.nEnts + 1, nInserts := tab.nInserts + 1 })

/-- `wolfsentry_table_ent_get` (src/wolfsentry_internal.c:459-476). -/
def getScan (cmp : κ → κ → Ordering) (k : κ) : List (Ent κ) → Except Err (Ent κ)
  | [] => .error .itemNotFound
  | i :: rest =>
    match cmp i.key k with
    | .lt => getScan cmp k rest
    | .eq => .ok i
    | .gt => .error .itemNotFound

def tableGet (cmp : Nat → κ → κ → Ordering) (s : Store κ) (t : Nat) (k : κ) : Except Err (Ent κ) :=
  getScan (cmp t) k (s.tables t).ents

/-- Unlinking one object from its table (src/wolfsentry_internal.c:484-494). -/
def unlink (tab : Table κ) (e : Ent κ) : Table κ :=
  { tab with ents := tab.ents.filter (fun i => i.id != e.id), nEnts := tab.nEnts - 1, nDeletes := tab.nDeletes + 1 }

/-- `wolfsentry_table_ent_delete_1` (src/wolfsentry_internal.c:478-501) for an object in a
table. -/
def tableDelete1 (s : Store κ) (e : Ent κ) : Store κ :=
  deleteById1 (s.setTable e.tbl (unlink (s.tables e.tbl) e)) e

/-- `wolfsentry_table_ent_delete` (src/wolfsentry_internal.c:503-527): find by key, then
`delete_1`. -/
def tableDelete (cmp : Nat → κ → κ → Ordering) (s : Store κ) (t : Nat) (k : κ) :
    Except Err (Ent κ) × Store κ :=
  match tableGet cmp s t k with
  | .ok e => (.ok e, tableDelete1 s e)
  | .error x => (.error x, s)

/-- `wolfsentry_table_ent_delete_by_id` (src/wolfsentry_internal.c:441-457): by-ID unlink first,
which resets the ID, then unlink from the table. -/
def tableDeleteById (s : Store κ) (id : Nat) : Except Err (Ent κ) × Store κ :=
  match getById s id with
  | .ok e =>
    let s' := deleteById1 s e
    (.ok e, s'.setTable e.tbl (unlink (s'.tables e.tbl) e))
  | .error x => (.error x, s)

/-- `wolfsentry_table_free_ents` (src/wolfsentry_internal.c:529-562), with `TABLE_HEADER_RESET`
(src/wolfsentry_internal.h:282-289). -/
def tableFlush (s : Store κ) (t : Nat) : Store κ :=
  (s.tables t).ents.foldl deleteById1 (s.setTable t {})

/-- `wolfsentry_table_filter` (src/wolfsentry_internal.c:593-621) with a filter and dropper that do
not fail: entries the filter rejects are removed in order. -/
def tableFilter (s : Store κ) (t : Nat) (keep : Ent κ → Bool) : Store κ :=
  ((s.tables t).ents.filter (fun e => !keep e)).foldl tableDelete1 s

/-- `wolfsentry_table_cursor_seek` (src/wolfsentry_internal.c:577-591): first entry not below the
key with its comparison, or the last entry with −1. -/
def cursorSeek (cmp : κ → κ → Ordering) (k : κ) (l : List (Ent κ)) : Option (Ent κ) × Ordering :=
  match l.find? (fun i => cmp i.key k != .lt) with
  | some i => (some i, cmp i.key k)
  | none => (l.getLast?, .lt)

/-- One step of a history as the API performs it. -/
inductive StoreOp (κ : Type) where
  /-- allocate an ID, then insert (e.g. src/events.c:287-297, src/kv.c:155-165,
  src/routes.c:1262-1290) -/
  | insert (t : Nat) (k : κ)
  /-- insert with a given ID (cloning: src/wolfsentry_internal.c:182, 283-287) -/
  | insertWithId (t : Nat) (k : κ) (id : Nat)
  | delete (t : Nat) (k : κ)
  | deleteById (id : Nat)
  | flush (t : Nat)
  | filter (t : Nat) (keep : Ent κ → Bool)

/-- Insertion with automatic ID. -/
def storeInsert (cmp : Nat → κ → κ → Ordering) (s : Store κ) (t : Nat) (k : κ) :
    Except Err (Ent κ) × Store κ :=
  match idAllocate s t k with
  | (.error x, s') => (.error x, s')
  | (.ok e, s') =>
    match tableInsert cmp s' e with
    | (.ok (), s'') => (.ok e, s'')
    | (.error x, s'') => (.error x, s'')

/-- Insertion with a given ID. -/
def storeInsertWithId (cmp : Nat → κ → κ → Ordering) (s : Store κ) (t : Nat) (k : κ) (id : Nat) :
    Except Err (Ent κ) × Store κ :=
  let e : Ent κ := { id := id % idModulus, tbl := t, key := k }
  match insertById s e with
  | .error x => (.error x, s)
  | .ok s' =>
    match tableInsert cmp s' e with
    | (.ok (), s'') => (.ok e, s'')
    | (.error x, s'') => (.error x, s'')

def storeStep (cmp : Nat → κ → κ → Ordering) (s : Store κ) : StoreOp κ → Store κ
  | .insert t k => (storeInsert cmp s t k).2
  | .insertWithId t k id => (storeInsertWithId cmp s t k id).2
  | .delete t k => (tableDelete cmp s t k).2
  | .deleteById id => (tableDeleteById s id).2
  | .flush t => tableFlush s t
  | .filter t keep => tableFilter s t keep

/-- The state after a history. -/
def storeRun (cmp : Nat → κ → κ → Ordering) (h : List (StoreOp κ)) : Store κ :=
  h.foldl (storeStep cmp) {}

end WS
