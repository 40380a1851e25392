/-
Threads that look up, use, replace, delete and release the objects of one context (events, actions, address families, user values, the default
event) at the same time, one access to shared memory per step.

Modelled: the order in which each function takes the lock, looks up, counts references, reads the object and gives the lock back
(src/actions.c:182-270, src/events.c:382-455, src/addr_families.c:365-440, 478-512, 805-840, src/kv.c:84-118, 180-255, 257-345, 530-553, 715-1100,
src/routes.c:3493-3542), the reference counts (src/wolfsentry_internal.h:177-194).
Simplified: labels and values are numbers; the lock is what C30-C32 say of it, a reader/writer lock with recursion; the templates and new objects a
function has not yet put in the table are its own and not shown; read-only values and failing allocations end a call early and are left out; flushing
is a series of deletions under one lock and left out.
-/
namespace WS.OR

/-- Who a reference belongs to (not in the code: bookkeeping for the proofs; no step depends on it). -/
inductive Owner
  | table
  | dflt
  | thread (t : Nat)
  deriving DecidableEq

/-- An object: `struct wolfsentry_table_ent_header` and contents (src/wolfsentry_internal.h:198-215).  `linked`: parent_table is not NULL. -/
structure Ob where
  key : Nat := 0
  val : Nat := 0
  rc : Nat := 0
  linked : Bool := false
  live : Bool := false
  owners : List Owner := []

/-- Where a thread is in a call: the access it makes next. -/
inductive Pc
  | idle
  /-- the caller's own WOLFSENTRY_SHARED / _MUTEX / _UNLOCK (wolfsentry.h) -/
  | cShare | cMutex | cUnlock
  /-- the caller reads an object it has a reference to -/
  | useRead (x : Nat)
  /-- wolfsentry_action_get_reference, _event_get_reference, _addr_family_ntop: src/actions.c:223-252, src/events.c:382-405,
  src/addr_families.c:818-829 -/
  | refLock (k : Nat) | refFind (k : Nat) | refIncr (x : Nat) | refUnlock (x : Nat)
  /-- wolfsentry_kv_get_reference (wolfsentry_user_value_get_string, _bytes, _json): src/kv.c:257-328, 954-967 -/
  | kvLock (k : Nat) | kvFind (k : Nat) | kvUnlock (x : Nat) | kvIncr (x : Nat) | kvRead (x : Nat)
  /-- wolfsentry_user_value_get_bool, _uint, _sint, _float, _type, _mutability, wolfsentry_addr_family_pton: src/kv.c:257-295, 330-346,
  715-727, 793-925; src/addr_families.c:498-513 -/
  | valLock (k : Nat) | valFind (k : Nat) | valUnlock (k x : Nat) | valRead (k x : Nat)
  /-- wolfsentry_action_delete, _event_delete, _addr_family_handler_delete, _user_value_delete: src/actions.c:200-213, src/events.c:436-451,
  src/addr_families.c:394-416, src/kv.c:530-553 -/
  | delLock (k : Nat) | delFind (k : Nat) | delUnlink (x : Nat) | delDecr (x : Nat) | delFree (x : Nat)
  /-- wolfsentry_kv_set (storing with overwriting): src/kv.c:220-255 -/
  | setLock (k v : Nat) | setFind (k v : Nat) | setUnlink (k v x : Nat) | setDecr (k v x : Nat) | setFree (k v x : Nat)
  /-- wolfsentry_kv_insert, wolfsentry_event_insert, wolfsentry_action_insert: src/kv.c:160-181 -/
  | insLock (k v : Nat) | insFind (k v : Nat)
  /-- the new object enters the table -/
  | link (k v : Nat)
  /-- the lock is given back and the call ends -/
  | unlock
  /-- wolfsentry_route_table_set_default_event, _clear_default_event: src/routes.c:3493-3525 -/
  | dsetLock (k : Nat) | dsetFind (k : Nat) | dsetIncr (x : Nat)
  | dclrLock | dDecr (new : Option Nat) | dFree (x : Nat) (new : Option Nat) | dPut (new : Option Nat)
  /-- wolfsentry_route_table_get_default_event: src/routes.c:3527-3541 -/
  | dgetTest | dgetLock | dgetRead
  /-- wolfsentry_action_drop_reference, _event_, _addr_family_, _kv_ (wolfsentry_user_value_release_record): src/actions.c:254-270,
  src/events.c:408-431, src/addr_families.c:365-391, src/kv.c:84-118 -/
  | relTest (x : Nat) | relType (x : Nat) | relDecr (x : Nat) | relFree (x : Nat)
  deriving DecidableEq

/-- A thread: where it is, how often it holds the lock and whether exclusively, the references it has been given, the value last given. -/
structure Th where
  pc : Pc := .idle
  held : Nat := 0
  excl : Bool := false
  bag : List Nat := []
  out : Option (Nat × Nat) := none

/-- All threads and the shared memory. -/
structure St where
  obs : Nat → Ob := fun _ => {}
  next : Nat := 0
  table : Nat → Option Nat := fun _ => none
  dflt : Option Nat := none
  th : Nat → Th := fun _ => {}

def St.setTh (s : St) (t : Nat) (f : Th → Th) : St := { s with th := fun u => if u = t then f (s.th u) else s.th u }
def St.setOb (s : St) (x : Nat) (f : Ob → Ob) : St := { s with obs := fun y => if y = x then f (s.obs y) else s.obs y }
def St.go (s : St) (t : Nat) (p : Pc) : St := s.setTh t fun h => { h with pc := p }
def St.acquire (s : St) (t : Nat) : St := s.setTh t fun h => { h with held := h.held + 1 }
def St.acquireX (s : St) (t : Nat) : St := s.setTh t fun h => { h with held := h.held + 1, excl := true }
/-- Giving the lock back once (wolfsentry_lock_unlock: the last release ends exclusive use, C31). -/
def St.release (s : St) (t : Nat) : St := s.setTh t fun h => { h with held := h.held - 1, excl := h.excl && decide (1 < h.held) }

/-- The largest reference count (`wolfsentry_refcount_t` is 32 bits wide). -/
def rcMax : Nat := 4294967295

/-- A reference more (WOLFSENTRY_REFCOUNT_INCREMENT below the maximum). -/
def Ob.more (o : Ob) (w : Owner) : Ob := { o with rc := o.rc + 1, owners := w :: o.owners }
/-- A reference less (WOLFSENTRY_REFCOUNT_DECREMENT above zero). -/
def Ob.less (o : Ob) (w : Owner) : Ob := { o with rc := o.rc - 1, owners := o.owners.erase w }
/-- WOLFSENTRY_FREE. -/
def Ob.freed (o : Ob) : Ob := { o with live := false }
/-- wolfsentry_table_ent_delete_1 (src/wolfsentry_util.c): out of the table, parent_table NULL.  The table's reference goes to the thread. -/
def Ob.unlinked (o : Ob) (t : Nat) : Ob := { o with linked := false, owners := .thread t :: o.owners.erase .table }

/-- After a reference has been dropped: WOLFSENTRY_FREE if it was the last one. -/
def afterDrop (o : Ob) (free rest : Pc) : Pc := if o.rc = 1 then free else rest

/-- One access.  `reread`: the compiled code reads `parent_table` anew after having compared it with NULL (as the source does). -/
def exec (reread : Bool) (s : St) (t : Nat) : Pc → St
  | .idle => s
  | .cShare => (s.acquire t).go t .idle
  | .cMutex => (s.acquireX t).go t .idle
  | .cUnlock => (s.release t).go t .idle
  | .useRead x => (s.setTh t fun h => { h with out := some ((s.obs x).key, (s.obs x).val) }).go t .idle
  | .refLock k => (s.acquire t).go t (.refFind k)
  | .refFind k => match s.table k with
    | none => s.go t .unlock
    | some x => s.go t (.refIncr x)
  | .refIncr x => if (s.obs x).rc < rcMax then (s.setOb x (·.more (.thread t))).go t (.refUnlock x) else s.go t .unlock
  | .refUnlock x => ((s.release t).setTh t fun h => { h with bag := x :: h.bag }).go t .idle
  | .kvLock k => (s.acquire t).go t (.kvFind k)
  | .kvFind k => match s.table k with
    | none => s.go t .unlock
    | some x => s.go t (.kvUnlock x)
  | .kvUnlock x => (s.release t).go t (.kvIncr x)
  | .kvIncr x => if (s.obs x).rc < rcMax then (s.setOb x (·.more (.thread t))).go t (.kvRead x) else s.go t .idle
  | .kvRead x => (s.setTh t fun h => { h with bag := x :: h.bag, out := some ((s.obs x).key, (s.obs x).val) }).go t .idle
  | .valLock k => (s.acquire t).go t (.valFind k)
  | .valFind k => match s.table k with
    | none => s.go t .unlock
    | some x => s.go t (.valUnlock k x)
  | .valUnlock k x => (s.release t).go t (.valRead k x)
  | .valRead k x => (s.setTh t fun h => { h with out := some (k, (s.obs x).val) }).go t .idle
  | .delLock k => (s.acquireX t).go t (.delFind k)
  | .delFind k => match s.table k with
    | none => s.go t .unlock
    | some x => s.go t (.delUnlink x)
  | .delUnlink x =>
    ({ s.setOb x (·.unlinked t) with table := fun k => if k = (s.obs x).key then none else s.table k } : St).go t (.delDecr x)
  | .delDecr x => (s.setOb x (·.less (.thread t))).go t (afterDrop (s.obs x) (.delFree x) .unlock)
  | .delFree x => (s.setOb x (·.freed)).go t .unlock
  | .setLock k v => (s.acquireX t).go t (.setFind k v)
  | .setFind k v => match s.table k with
    | none => s.go t (.link k v)
    | some x => if (s.obs x).val = v then s.go t .unlock else s.go t (.setUnlink k v x)
  | .setUnlink k v x =>
    ({ s.setOb x (·.unlinked t) with table := fun j => if j = (s.obs x).key then none else s.table j } : St).go t (.setDecr k v x)
  | .setDecr k v x => (s.setOb x (·.less (.thread t))).go t (afterDrop (s.obs x) (.setFree k v x) (.link k v))
  | .setFree k v x => (s.setOb x (·.freed)).go t (.link k v)
  | .insLock k v => (s.acquireX t).go t (.insFind k v)
  | .insFind k v => match s.table k with
    | none => s.go t (.link k v)
    | some _ => s.go t .unlock
  | .link k v =>
    ({ s.setOb s.next (fun _ => { key := k, val := v, rc := 1, linked := true, live := true, owners := [.table] }) with
        next := s.next + 1, table := fun j => if j = k then some s.next else s.table j } : St).go t .unlock
  | .unlock => (s.release t).go t .idle
  | .dsetLock k => (s.acquireX t).go t (.dsetFind k)
  | .dsetFind k => match s.table k with
    | none => s.go t .unlock
    | some x => s.go t (.dsetIncr x)
  | .dsetIncr x => if (s.obs x).rc < rcMax then (s.setOb x (·.more (.thread t))).go t (.dDecr (some x)) else s.go t .unlock
  | .dclrLock => (s.acquireX t).go t (.dDecr none)
  | .dDecr new => match s.dflt with
    | none => s.go t (.dPut new)
    | some x => ({ s.setOb x (·.less .dflt) with dflt := none } : St).go t (afterDrop (s.obs x) (.dFree x new) (.dPut new))
  | .dFree x new => (s.setOb x (·.freed)).go t (.dPut new)
  | .dPut new => match new with
    | none => s.go t .unlock
    | some x => ({ s.setOb x (fun o => { o with owners := .dflt :: o.owners.erase (.thread t) }) with dflt := some x } : St).go t .unlock
  | .dgetTest => match s.dflt with
    | none => s.go t .idle
    | some _ => s.go t .dgetLock
  | .dgetLock => (s.acquire t).go t .dgetRead
  | .dgetRead => (s.setTh t fun h => { h with out := s.dflt.map fun x => ((s.obs x).key, (s.obs x).val) }).go t .unlock
  | .relTest x => if (s.obs x).linked && reread then s.go t (.relType x) else s.go t (.relDecr x)
  | .relType x => s.go t (.relDecr x)
  | .relDecr x => (s.setOb x (·.less (.thread t))).go t (afterDrop (s.obs x) (.relFree x) .idle)
  | .relFree x => (s.setOb x (·.freed)).go t .idle

/-- Steps that wait for the lock in shared mode: nobody else has it exclusively (C30). -/
def sharedPc : Pc → Bool
  | .cShare | .refLock _ | .kvLock _ | .valLock _ | .dgetLock => true
  | _ => false
/-- Steps that wait for the lock in exclusive mode: nobody else has it (C30; also when the thread itself has it in shared mode, C32). -/
def exclPc : Pc → Bool
  | .cMutex | .delLock _ | .setLock _ _ | .insLock _ _ | .dsetLock _ | .dclrLock => true
  | _ => false

/-- When a step can be taken. -/
def Granted (s : St) (t : Nat) : Prop :=
  (sharedPc (s.th t).pc = true → ∀ u, u ≠ t → (s.th u).excl = false) ∧ (exclPc (s.th t).pc = true → ∀ u, u ≠ t → (s.th u).held = 0)

/-- The calls. -/
inductive Call
  | share | mutex | unlock
  | use (x : Nat)
  | getReference (k : Nat)
  | getRecord (k : Nat)
  | getValue (k : Nat)
  | delete (k : Nat)
  | store (k v : Nat) (overwrite : Bool)
  | setDefault (k : Nat) | clearDefault | getDefault
  | release (x : Nat)

/-- What a caller has to see to: it gives back only locks it has, and uses and releases only references it has. -/
def Honest (s : St) (t : Nat) : Call → Prop
  | .unlock => 0 < (s.th t).held
  | .use x | .release x => x ∈ (s.th t).bag
  | _ => True

/-- The first step of a call. -/
def begin : Call → Pc
  | .share => .cShare
  | .mutex => .cMutex
  | .unlock => .cUnlock
  | .use x => .useRead x
  | .getReference k => .refLock k
  | .getRecord k => .kvLock k
  | .getValue k => .valLock k
  | .delete k => .delLock k
  | .store k v ow => if ow then .setLock k v else .insLock k v
  | .setDefault k => .dsetLock k
  | .clearDefault => .dclrLock
  | .getDefault => .dgetTest
  | .release x => .relTest x

/-- A call begins; a released reference is no longer the caller's. -/
def start (s : St) (t : Nat) (c : Call) : St :=
  (s.setTh t fun h => { h with bag := match c with | .release x => h.bag.erase x | _ => h.bag }).go t (begin c)

/-- Any thread takes a step; a thread between calls begins one that `P` allows. -/
inductive Step (reread : Bool) (P : St → Nat → Call → Prop) : St → St → Prop
  | run {s : St} (t : Nat) : (s.th t).pc ≠ .idle → Granted s t → Step reread P s (exec reread s t (s.th t).pc)
  | call {s : St} (t : Nat) (c : Call) : (s.th t).pc = .idle → Honest s t c → P s t c → Step reread P s (start s t c)

/-- The states that can be reached from an empty context. -/
inductive Reach (reread : Bool) (P : St → Nat → Call → Prop) : St → Prop
  | init : Reach reread P {}
  | step {s s' : St} : Reach reread P s → Step reread P s s' → Reach reread P s'

end WS.OR
