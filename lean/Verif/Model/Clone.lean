import Verif.Model.RouteOps
import Verif.Model.Kv
/-
Cloning a context (`wolfsentry_context_clone`, src/wolfsentry_util.c:3881-3967, with the table and
object clone functions it calls).

Objects live in a heap and refer to each other by pointer, so that "the clone refers to its own
objects" can be said.  A table is the list of pointers met when following `next` from its head; the
`prev` field of each object is kept, because `wolfsentry_coupled_table_clone` forgets to set it and
`wolfsentry_table_ent_delete_1` relies on it.  Reference counts are kept beside the heap.

Simplifications: memory is available (no allocation fails); locks are `Model/LockBal.lean`; a JSON
user value is an opaque token; what happens to the partial clone after a failure
(`wolfsentry_context_free`) is not modelled; the links of the purge list are a list of pointers.
-/
namespace WS.Cl
open WS

/-- Addresses. -/
scoped notation "Ptr" => Nat
abbrev Label := List Byte

/-- The tables of a context. -/
inductive Kind where
  | actions | afNum | afName | events | routes | kvs
  deriving DecidableEq, Repr

/-- Six action lists of an event (src/wolfsentry_internal.h:330-335). -/
structure Six (α : Type) where
  post : α
  insert : α
  match_ : α
  update : α
  delete : α
  decision : α
  deriving DecidableEq, Repr

def Six.map {α β : Type} (f : α → β) (s : Six α) : Six β :=
  ⟨f s.post, f s.insert, f s.match_, f s.update, f s.delete, f s.decision⟩

def Six.all {α : Type} (s : Six α) (P : α → Prop) : Prop :=
  P s.post ∧ P s.insert ∧ P s.match_ ∧ P s.update ∧ P s.delete ∧ P s.decision

/-- `struct wolfsentry_action` (src/wolfsentry_internal.h:293-300). -/
structure ActionO where
  label : Label
  handler : Nat := 0
  flags : Flags := 0
  flags0 : Flags := 0
  deriving DecidableEq, Repr

/-- `struct wolfsentry_event` (src/wolfsentry_internal.h:322-346).  The configuration is memory owned by
the event. -/
structure EventO where
  label : Label
  priority : Nat := 0
  flags : Flags := 0
  config : Option CfgInt := none
  lists : Six (List Ptr) := ⟨[], [], [], [], [], []⟩
  aux : Option Ptr := none
  deriving DecidableEq, Repr

/-- `struct wolfsentry_route` (src/wolfsentry_internal.h:352-387).  `body` has all fields but the event,
the ID and the address bytes; `data` is the flexible array: `off` bytes of private data, then `size`
bytes of addresses. -/
structure RouteO where
  body : Route
  event : Option Ptr := none
  off : Nat := 0
  size : Nat := 0
  data : List Byte := []
  deriving DecidableEq, Repr

/-- `struct wolfsentry_addr_family_bynumber` (src/wolfsentry_internal.h:437-446). -/
structure AfNumO where
  number : Nat
  maxBits : Nat := 0
  parser : Nat := 0
  formatter : Nat := 0
  name : Ptr
  deriving DecidableEq, Repr

/-- `struct wolfsentry_addr_family_byname` (src/wolfsentry_internal.h:456-461). -/
structure AfNameO where
  label : Label
  number : Ptr
  deriving DecidableEq, Repr

inductive Pay where
  | action (a : ActionO)
  | event (e : EventO)
  | route (r : RouteO)
  | kv (key : Label) (o : KvObj)
  | afNum (a : AfNumO)
  | afName (a : AfNameO)
  deriving DecidableEq, Repr

/-- An object: the parts of `struct wolfsentry_table_ent_header` (src/wolfsentry_internal.h:195-213) that
matter here, and its content. -/
structure Obj where
  id : Nat
  hits : Nat := 0
  prev : Option Ptr := none
  pay : Pay
  deriving DecidableEq, Repr

structure Heap where
  mem : Ptr → Option Obj
  refs : Ptr → Nat
  /-- the next address the allocator hands out -/
  next : Ptr

/-- `struct wolfsentry_table_header` (src/wolfsentry_internal.h:255-280). -/
structure Tab where
  ents : List Ptr := []
  nEnts : Nat := 0
  nInserts : Nat := 0
  nDeletes : Nat := 0
  deriving DecidableEq, Repr

/-- The fields of `struct wolfsentry_route_table` after the header (src/wolfsentry_internal.h:404-425). -/
structure RtHdr where
  purge : List Ptr := []
  maxPurgeable : Nat := 0
  maxIdle : Int := 0
  defaultEvent : Option Ptr := none
  fallthrough : Option Ptr := none
  lastAfWildcard : Option Ptr := none
  defaultPolicy : Flags := 0
  highest : Nat := 65535
  bitmaskAfs : List (Nat × Nat) := []
  deriving DecidableEq, Repr

/-- `struct wolfsentry_context` (src/wolfsentry_internal.h:475-496) without host interface, lock and
cleanup hooks. -/
structure Ctx where
  tab : Kind → Tab := fun _ => {}
  rt : RtHdr := {}
  validator : Nat := 0
  byId : List Ptr := []
  nById : Nat := 0
  config : CfgInt := {}
  config0 : CfgInt := {}
  mkId : Nat := 0
  idState : Nat := 0

def Ctx.setTab (c : Ctx) (k : Kind) (t : Tab) : Ctx := { c with tab := fun k' => if k' = k then t else c.tab k' }

/-- `WOLFSENTRY_MALLOC` and the stores that fill the new object; its reference count is 1
(`WOLFSENTRY_TABLE_ENT_HEADER_RESET`, src/wolfsentry_internal.h:215-220). -/
def Heap.alloc (h : Heap) (o : Obj) : Ptr × Heap :=
  (h.next, { mem := fun p => if p = h.next then some o else h.mem p,
             refs := fun p => if p = h.next then 1 else h.refs p, next := h.next + 1 })

/-- A store to an object. -/
def Heap.set (h : Heap) (p : Ptr) (o : Obj) : Heap := { h with mem := fun q => if q = p then some o else h.mem q }

/-- `WOLFSENTRY_REFCOUNT_INCREMENT`; overflow of the 32-bit count is not modelled. -/
def Heap.upref (h : Heap) (p : Ptr) : Heap := { h with refs := fun q => if q = p then h.refs q + 1 else h.refs q }

/-- The label the `cmp_fn` of a table looks at (src/actions.c:27-49, src/events.c:27-53,
src/addr_families.c:27-60). -/
def Heap.label (h : Heap) (p : Ptr) : Option Label :=
  match h.mem p with
  | some { pay := .action a, .. } => some a.label
  | some { pay := .event e, .. } => some e.label
  | some { pay := .afName a, .. } => some a.label
  | _ => none

/-- `wolfsentry_table_ent_get` (src/wolfsentry_internal.c:459-476) by label. -/
def Heap.find (h : Heap) (l : Label) : List Ptr → Except Err Ptr
  | [] => .error .itemNotFound
  | p :: rest =>
    match h.label p with
    | none => .error .internalCheckFatal      -- not an object of this table: cannot happen
    | some l' =>
      match labelCmp l' l with
      | .lt => h.find l rest
      | .eq => .ok p
      | .gt => .error .itemNotFound

def Heap.idOf (h : Heap) (p : Ptr) : Nat := match h.mem p with | some o => o.id | none => 0

/-- The scan and splice of `wolfsentry_table_ent_insert_by_id` (src/wolfsentry_internal.c:362-387). -/
def Heap.idSplice (h : Heap) (n : Ptr) : List Ptr → Option (List Ptr)
  | [] => some [n]
  | i :: rest =>
    if h.idOf i < h.idOf n then (h.idSplice n rest).map (i :: ·)
    else if h.idOf i = h.idOf n then none
    else some (n :: i :: rest)

/-- `wolfsentry_table_ent_insert_by_id` (src/wolfsentry_internal.c:354-391). -/
def insertById (h : Heap) (d : Ctx) (n : Ptr) : Except Err Ctx :=
  if h.idOf n = 0 then .error .invalidArg
  else match h.idSplice n d.byId with
    | none => .error .itemAlreadyPresent
    | some l => .ok { d with byId := l, nById := d.nById + 1 }

/-- Linking the new object at the end of the table (src/wolfsentry_internal.c:175-181): its `prev` is the
object linked before it. -/
def link (h : Heap) (d : Ctx) (k : Kind) (n : Ptr) : Heap × Ctx :=
  (match h.mem n with
   | some o => h.set n { o with prev := (d.tab k).ents.getLast? }
   | none => h,
   d.setTab k { d.tab k with ents := (d.tab k).ents ++ [n] })

/-- The flags of a clone (`WOLFSENTRY_CLONE_FLAG_*`, wolfsentry/wolfsentry.h). -/
structure CloneFlags where
  asAtCreation : Bool := false
  noRoutes : Bool := false

/-- `wolfsentry_action_clone` (src/actions.c:101-126). -/
def actionClone (f : CloneFlags) (a : ActionO) : Pay := .action (if f.asAtCreation then { a with flags := a.flags0 } else a)

/-- `wolfsentry_event_clone_bare` (src/events.c:127-173): action lists and aux event are left empty. -/
def eventCloneBare (e : EventO) : Pay := .event { e with lists := ⟨[], [], [], [], [], []⟩, aux := none }

/-- The configuration that applies to a rule in the source context (src/routes.c:1126). -/
def ruleConfig (h : Heap) (s : Ctx) (r : RouteO) : CfgInt :=
  match r.event.bind h.mem with
  | some { pay := .event e, .. } => e.config.getD s.config
  | _ => s.config

/-- The copying in `wolfsentry_route_clone` (src/routes.c:1146-1162): everything when the private data
area has the configured size; else a zeroed area of that size, and the first `size` bytes of the source's
`data` as addresses. -/
def routeCopy (privSize : Nat) (r : RouteO) : RouteO :=
  if r.off = privSize then r
  else { r with off := privSize, data := List.replicate privSize 0#8 ++ r.data.take r.size }

/-- The event a cloned rule refers to (src/routes.c:1166-1178): the event of the destination with the same
label. -/
def routeEvent (h : Heap) (d : Ctx) (r : RouteO) : Except Err (Option Ptr × Heap) :=
  match r.event with
  | none => .ok (none, h)
  | some e =>
    match h.label e with
    | none => .error .internalCheckFatal
    | some l =>
      match h.find l (d.tab .events).ents with
      | .error x => .error x
      | .ok e' => .ok (some e', h.upref e')

/-- One call of `clone_fn` in `wolfsentry_table_clone` (src/wolfsentry_internal.c:130-155, 173):
`wolfsentry_action_clone`, `wolfsentry_event_clone_bare`, `wolfsentry_route_clone` (src/routes.c:1113-1180)
and `wolfsentry_kv_clone` (src/kv.c:490-528).  The header is reset but for ID and hit count. -/
def cloneOne (f : CloneFlags) (s : Ctx) (h : Heap) (d : Ctx) (p : Ptr) : Except Err (Ptr × Heap) :=
  match h.mem p with
  | none => .error .internalCheckFatal
  | some o =>
    match o.pay with
    | .action a => .ok (h.alloc { id := o.id, hits := o.hits, pay := actionClone f a })
    | .event e => .ok (h.alloc { id := o.id, hits := o.hits, pay := eventCloneBare e })
    | .kv k v => .ok (h.alloc { id := o.id, hits := o.hits, pay := .kv k v })
    | .route r =>
      match routeEvent h d r with
      | .error x => .error x
      | .ok (e, h) =>
        .ok (h.alloc { id := o.id, hits := o.hits,
                       pay := .route { routeCopy (ruleConfig h s r).config.privSize r with event := e } })
    | _ => .error .invalidArg

/-- Expiry of a rule. -/
def Heap.expiry (h : Heap) (p : Ptr) : Int :=
  match h.mem p with
  | some { pay := .route r, .. } => r.body.data.purgeAfter
  | _ => 0

/-- The extra work for rules (src/wolfsentry_internal.c:185-194).  A failed bitmask reference only warns. -/
def noteRoute (h : Heap) (rt : RtHdr) (n : Ptr) : RtHdr :=
  match h.mem n with
  | some { pay := .route r, .. } =>
    let rt := if r.body.flags.has RF.SA_FAMILY_WILDCARD then { rt with lastAfWildcard := some n } else rt
    let rt := if r.body.flags.has (RF.REMOTE_ADDR_BITMASK ||| RF.LOCAL_ADDR_BITMASK) then
        (match upref r.body.family rt.bitmaskAfs with
         | .ok l => { rt with bitmaskAfs := l }
         | .error _ => rt)
      else rt
    if r.body.data.purgeAfter ≠ 0 then
      { rt with purge := purgeSplice h.expiry n r.body.data.purgeAfter rt.purge }
    else rt
  | _ => rt

/-- The loop of `wolfsentry_table_clone` (src/wolfsentry_internal.c:169-195). -/
def cloneLoop (f : CloneFlags) (s : Ctx) (k : Kind) : List Ptr → Heap → Ctx → Except Err (Heap × Ctx)
  | [], h, d => .ok (h, d)
  | p :: ps, h, d =>
    match cloneOne f s h d p with
    | .error x => .error x
    | .ok (n, h) =>
      let (h, d) := link h d k n
      match insertById h d n with
      | .error x => .error x
      | .ok d =>
        let d := if k = .routes then { d with rt := noteRoute h d.rt n } else d
        cloneLoop f s k ps h d

/-- One action list in `wolfsentry_action_list_clone` (src/actions.c:436-485): each action is looked up by
label in the destination. -/
def cloneList (d : Ctx) : List Ptr → List Ptr → Heap → Except Err (List Ptr × Heap)
  | [], acc, h => .ok (acc, h)
  | a :: rest, acc, h =>
    match h.label a with
    | none => .error .internalCheckFatal
    | some l =>
      match h.find l (d.tab .actions).ents with
      | .error x => .error x
      | .ok a' => cloneList d rest (acc ++ [a']) (h.upref a')

/-- The aux event in `wolfsentry_event_clone_resolve` (src/events.c:252-260). -/
def resolveAux (d : Ctx) (aux : Option Ptr) (h : Heap) : Except Err (Option Ptr × Heap) :=
  match aux with
  | none => .ok (none, h)
  | some x =>
    match h.label x with
    | none => .error .internalCheckFatal
    | some l =>
      match h.find l (d.tab .events).ents with
      | .error e => .error e
      | .ok x' => .ok (some x', h.upref x')

/-- `wolfsentry_event_clone_resolve` (src/events.c:175-263). -/
def eventResolve (d : Ctx) (p n : Ptr) (h : Heap) : Except Err Heap :=
  match h.mem p with
  | some { pay := .event e, .. } =>
    match cloneList d e.lists.post [] h with
    | .error x => .error x
    | .ok (l1, h) =>
    match cloneList d e.lists.insert [] h with
    | .error x => .error x
    | .ok (l2, h) =>
    match cloneList d e.lists.match_ [] h with
    | .error x => .error x
    | .ok (l3, h) =>
    match cloneList d e.lists.update [] h with
    | .error x => .error x
    | .ok (l4, h) =>
    match cloneList d e.lists.delete [] h with
    | .error x => .error x
    | .ok (l5, h) =>
    match cloneList d e.lists.decision [] h with
    | .error x => .error x
    | .ok (l6, h) =>
    match resolveAux d e.aux h with
    | .error x => .error x
    | .ok (aux, h) =>
      match h.mem n with
      | some o =>
        match o.pay with
        | .event e' => .ok (h.set n { o with pay := .event { e' with lists := ⟨l1, l2, l3, l4, l5, l6⟩, aux := aux } })
        | _ => .error .internalCheckFatal
      | _ => .error .internalCheckFatal
  | _ => .error .internalCheckFatal

/-- `wolfsentry_table_clone_map` (src/wolfsentry_internal.c:71-99) with `wolfsentry_event_clone_resolve`. -/
def resolveLoop (d : Ctx) : List Ptr → List Ptr → Heap → Except Err Heap
  | [], [], h => .ok h
  | p :: ps, n :: ns, h =>
    match eventResolve d p n h with
    | .error x => .error x
    | .ok h => resolveLoop d ps ns h
  | _, _, _ => .error .internalCheckFatal

/-- `wolfsentry_table_clone` (src/wolfsentry_internal.c:101-211) after the header has been cloned. -/
def tableClone (f : CloneFlags) (s : Ctx) (k : Kind) (h : Heap) (d : Ctx) : Except Err (Heap × Ctx) :=
  if (d.tab k).ents ≠ [] then .error .busy
  else match cloneLoop f s k (s.tab k).ents h d with
    | .error x => .error x
    | .ok (h, d) =>
      let d := d.setTab k { d.tab k with nEnts := (s.tab k).nEnts }
      if k = .events then
        if (s.tab k).nEnts ≠ (d.tab k).nEnts then .error .invalidArg
        else match resolveLoop d (s.tab .events).ents (d.tab .events).ents h with
          | .error x => .error x
          | .ok h => .ok (h, d)
      else .ok (h, d)

/-- The scan and splice of `wolfsentry_table_ent_insert` with `unique_p` by name
(src/wolfsentry_internal.c:36-62). -/
def Heap.nameSplice (h : Heap) (n : Ptr) (l : Label) : List Ptr → Option (List Ptr)
  | [] => some [n]
  | i :: rest =>
    match h.label i with
    | none => none
    | some l' =>
      match labelCmp l' l with
      | .lt => (h.nameSplice n l rest).map (i :: ·)
      | .eq => none
      | .gt => some (n :: i :: rest)

/-- The `prev` stores of `wolfsentry_table_ent_insert` (src/wolfsentry_internal.c:47-62): the new object and
its successor. -/
def fixPrev (h : Heap) (prev : Option Ptr) : List Ptr → Heap
  | [] => h
  | p :: rest =>
    fixPrev (match h.mem p with | some o => h.set p { o with prev := prev } | none => h) (some p) rest

/-- `wolfsentry_addr_family_clone` (src/addr_families.c:307-336): both objects of the pair, pointing at each
other. -/
def afClone (h : Heap) (p : Ptr) : Except Err (Ptr × Ptr × Heap) :=
  match h.mem p with
  | some o1 =>
    match o1.pay with
    | .afNum a =>
      match h.mem a.name with
      | some o2 =>
        match o2.pay with
        | .afName b =>
          let n1 := h.next
          let n2 := h.next + 1
          let (_, h) := h.alloc { id := o1.id, hits := o1.hits, pay := .afNum { a with name := n2 } }
          let (_, h) := h.alloc { id := o2.id, hits := o2.hits, pay := .afName { b with number := n1 } }
          .ok (n1, n2, h)
        | _ => .error .internalCheckFatal
      | none => .error .internalCheckFatal
    | _ => .error .internalCheckFatal
  | none => .error .internalCheckFatal

/-- The loop of `wolfsentry_coupled_table_clone` (src/wolfsentry_internal.c:267-289).  The `prev` of the
by-number object stays NULL.  (`fixPrev` rewrites the `prev` of every by-name object; the C code writes
only the two that change, with the same result.) -/
def coupledLoop : List Ptr → Heap → Ctx → Except Err (Heap × Ctx)
  | [], h, d => .ok (h, d)
  | p :: ps, h, d =>
    match afClone h p with
    | .error x => .error x
    | .ok (n1, n2, h) =>
      let d := d.setTab .afNum { d.tab .afNum with ents := (d.tab .afNum).ents ++ [n1] }
      match insertById h d n1 with
      | .error x => .error x
      | .ok d =>
        match insertById h d n2 with
        | .error x => .error x
        | .ok d =>
          match h.label n2 with
          | none => .error .internalCheckFatal
          | some l =>
            match h.nameSplice n2 l (d.tab .afName).ents with
            | none => .error .itemAlreadyPresent
            | some names =>
              coupledLoop ps (fixPrev h none names)
                (d.setTab .afName { ents := names, nEnts := (d.tab .afName).nEnts + 1,
                                    nInserts := (d.tab .afName).nInserts + 1, nDeletes := (d.tab .afName).nDeletes })

/-- `wolfsentry_coupled_table_clone` (src/wolfsentry_internal.c:214-302). -/
def coupledClone (s : Ctx) (h : Heap) (d : Ctx) : Except Err (Heap × Ctx) :=
  if (d.tab .afNum).ents ≠ [] ∨ (d.tab .afName).ents ≠ [] then .error .busy
  else match coupledLoop (s.tab .afNum).ents h d with
    | .error x => .error x
    | .ok (h, d) =>
      let d := d.setTab .afNum { d.tab .afNum with nEnts := (s.tab .afNum).nEnts }
      if (d.tab .afName).nEnts ≠ (s.tab .afName).nEnts then .error .internalCheckFatal
      else .ok (h, d)

/-- `wolfsentry_route_table_clone_header` (src/routes.c:4613-4668) into a new table, whose default event and
fallthrough rule are NULL. -/
def routeHeaderClone (f : CloneFlags) (s : Ctx) (h : Heap) (d : Ctx) : Except Err (Heap × Ctx) :=
  let rt := { d.rt with maxPurgeable := s.rt.maxPurgeable, defaultPolicy := s.rt.defaultPolicy }
  match (match s.rt.defaultEvent with
         | none => Except.ok (h, rt)
         | some e =>
           match h.label e with
           | none => .error Err.internalCheckFatal
           | some l =>
             match h.find l (d.tab .events).ents with
             | .error x => .error x
             | .ok e' => .ok (h.upref e', { rt with defaultEvent := some e' })) with
  | .error x => .error x
  | .ok (h, rt) =>
    let (h, rt) := match s.rt.fallthrough with
      | none => (h, rt)
      | some r => (h.upref r, { rt with fallthrough := some r })
    .ok (h, { d with rt := if f.noRoutes then rt else { rt with highest := s.rt.highest } })

/-- `wolfsentry_context_clone` (src/wolfsentry_util.c:3881-3967): the heap afterwards and the new context.
Cloning a table whose `clone_header` does nothing is `tableClone` alone; the user-value header copies the
validator (src/kv.c:1178-1197). -/
def contextClone (f : CloneFlags) (s : Ctx) (h : Heap) : Except Err (Heap × Ctx) :=
  let d : Ctx := { mkId := s.mkId, idState := s.idState,
                   config := if f.asAtCreation then s.config0 else s.config, config0 := s.config0 }
  match tableClone f s .actions h d with
  | .error x => .error x
  | .ok (h, d) =>
  match coupledClone s h d with
  | .error x => .error x
  | .ok (h, d) =>
  if f.asAtCreation then .ok (h, d)
  else
  match tableClone f s .events h d with
  | .error x => .error x
  | .ok (h, d) =>
  match routeHeaderClone f s h d with
  | .error x => .error x
  | .ok (h, d) =>
  match (if f.noRoutes then .ok (h, d) else tableClone f s .routes h d) with
  | .error x => .error x
  | .ok (h, d) =>
  tableClone f s .kvs h { d with validator := s.validator }

/-- The unlinking in `wolfsentry_table_ent_delete_1` (src/wolfsentry_internal.c:484-494): without a `prev`
the object is taken for the first, and the table starts after it. -/
def unlinkEnt (h : Heap) (t : Tab) (p : Ptr) : Tab :=
  match h.mem p with
  | none => t
  | some o =>
    { t with nEnts := t.nEnts - 1, nDeletes := t.nDeletes + 1,
             ents := match o.prev with
               | none => (t.ents.dropWhile (fun q => q != p)).tail
               | some _ => t.ents.erase p }

end WS.Cl
