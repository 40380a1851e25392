/-
Lock skeletons of the API functions (C33).

Every wolfSentry function that takes or gives back a context lock does so through the macros of
wolfsentry/wolfsentry_errcodes.h:215-320 (WOLFSENTRY_MUTEX_OR_RETURN, WOLFSENTRY_SHARED_OR_RETURN,
WOLFSENTRY_UNLOCK_AND_RERETURN_IF_ERROR, …) or by calling wolfsentry_context_lock_* /
wolfsentry_context_unlock directly.  This file keeps, for each function, exactly its lock
operations, its returns (success or error) and its calls; every other condition of the C code is a
nondeterministic choice (`alt`), so the runs of a skeleton include all runs of the C function.

Simplifications: shared and exclusive acquisitions are both "one level" (that one unlock undoes one
lock of either kind, recursively, is part of the lock model, Verif/Model/RwLock.lean); an unlock of
a held level succeeds; promotion of a shared hold to exclusive (shared2mutex) changes the kind, not
the number of levels, and is not an event; reservations are not counted.  User callbacks (action
handlers, validators, cleanup handlers, address parsers) may lock and unlock as they like as long
as they return with the holds they were called with.
-/
namespace WS.LockBal

/-- The two contexts a function can operate on: its own context argument, and the other one
(`dest_context`, the clone, or `wolfsentry2`). -/
inductive Lk | own | other
  deriving DecidableEq, Repr

/-- What happens to a lock. -/
inductive Ev | acq (l : Lk) | rel (l : Lk)
  deriving DecidableEq, Repr

/-- How a statement ends: falls through, or returns from the function with success or error. -/
inductive Out | fall | ret (ok : Bool)
  deriving DecidableEq, Repr

/-- Number of levels held on lock `l` after a sequence of events, starting with `n`; `none` when a
lock is released that is not held. -/
def replay (l : Lk) : List Ev → Nat → Option Nat
  | [], n => some n
  | .acq k :: t, n => if k = l then replay l t (n + 1) else replay l t n
  | .rel k :: t, n =>
    if k = l then (match n with | 0 => none | m + 1 => replay l t m) else replay l t n

/-- Skeleton statements. -/
inductive Cmd
  /-- no lock operation -/
  | skip
  /-- try to lock; continue with the first statement when granted, the second when refused -/
  | acq (l : Lk) (granted refused : Cmd)
  /-- unlock -/
  | rel (l : Lk)
  /-- return with success (`true`) or an error (`false`) -/
  | ret (ok : Bool)
  | seq (a b : Cmd)
  /-- nondeterministic choice -/
  | alt (a b : Cmd)
  /-- any number of iterations -/
  | loop (a : Cmd)
  /-- call a function, then continue according to its result -/
  | call (f onOk onErr : Cmd)
  /-- call into user code -/
  | callback

/-- Runs: `Run c tr o` — executing `c` can perform the lock events `tr` and end with `o`. -/
inductive Run : Cmd → List Ev → Out → Prop
  | skip : Run .skip [] .fall
  | granted {l a b t o} (h : Run a t o) : Run (.acq l a b) (.acq l :: t) o
  | refused {l a b t o} (h : Run b t o) : Run (.acq l a b) t o
  | rel {l} : Run (.rel l) [.rel l] .fall
  | ret {b} : Run (.ret b) [] (.ret b)
  | seqFall {a b t u o} (h : Run a t .fall) (k : Run b u o) : Run (.seq a b) (t ++ u) o
  | seqRet {a b t r} (h : Run a t (.ret r)) : Run (.seq a b) t (.ret r)
  | altL {a b t o} (h : Run a t o) : Run (.alt a b) t o
  | altR {a b t o} (h : Run b t o) : Run (.alt a b) t o
  | loopDone {a} : Run (.loop a) [] .fall
  | loopMore {a t u o} (h : Run a t .fall) (k : Run (.loop a) u o) : Run (.loop a) (t ++ u) o
  | loopRet {a t r} (h : Run a t (.ret r)) : Run (.loop a) t (.ret r)
  | callOk {f a b t u o q} (h : Run f t q) (hq : q ≠ .ret false) (k : Run a u o) :
      Run (.call f a b) (t ++ u) o
  | callErr {f a b t u o} (h : Run f t (.ret false)) (k : Run b u o) : Run (.call f a b) (t ++ u) o
  | callback {t} (h : ∀ l n, replay l t n = some n) : Run .callback t .fall

/-! ## Macros -/

open Cmd

/-- Statements in sequence. -/
def block : List Cmd → Cmd
  | [] => skip
  | c :: cs => seq c (block cs)

/-- `WOLFSENTRY_MUTEX_OR_RETURN` / `WOLFSENTRY_SHARED_OR_RETURN` (wolfsentry_errcodes.h:239-262). -/
def lockOrRet (l : Lk) : Cmd := acq l skip (ret false)
/-- An early error return without lock operations: `WOLFSENTRY_ERROR_RETURN` under some condition,
or `WOLFSENTRY_RERETURN_IF_ERROR` (wolfsentry_errcodes.h:314) of a lock-free computation; also the
`WOLFSENTRY_HAVE_A_LOCK_OR_RETURN` family. -/
def mayFail : Cmd := alt skip (ret false)
/-- `WOLFSENTRY_UNLOCK_AND_RERETURN_IF_ERROR` (wolfsentry_errcodes.h:316) or
`WOLFSENTRY_ERROR_UNLOCK_AND_RETURN` under some condition. -/
def mayFailUnlock (l : Lk) : Cmd := alt skip (block [rel l, ret false])
/-- `WOLFSENTRY_UNLOCK_AND_RETURN_OK` (wolfsentry_errcodes.h:312). -/
def unlockOk (l : Lk) : Cmd := block [rel l, ret true]
/-- `WOLFSENTRY_ERROR_UNLOCK_AND_RETURN(name)` (wolfsentry_errcodes.h:287). -/
def unlockErr (l : Lk) : Cmd := block [rel l, ret false]
/-- `WOLFSENTRY_ERROR_UNLOCK_AND_RERETURN(ret)` (wolfsentry_errcodes.h:295), `ret` either way. -/
def unlockRet (l : Lk) : Cmd := block [rel l, alt (ret true) (ret false)]
/-- `WOLFSENTRY_ERROR_RERETURN(f(...))`. -/
def tail (f : Cmd) : Cmd := call f (ret true) (ret false)
/-- `ret = f(...); WOLFSENTRY_RERETURN_IF_ERROR(ret)`. -/
def try_ (f : Cmd) : Cmd := call f skip (ret false)
/-- `ret = f(...); WOLFSENTRY_UNLOCK_AND_RERETURN_IF_ERROR(ret)`. -/
def tryUnlock (l : Lk) (f : Cmd) : Cmd := call f skip (unlockErr l)
/-- `WOLFSENTRY_WARN_ON_FAILURE(f(...))`, or a call whose result only matters later. -/
def ignore (f : Cmd) : Cmd := call f skip skip
/-- `if (…) f;` -/
def maybe (f : Cmd) : Cmd := alt skip f
/-- Return either way without lock operations. -/
def retEither : Cmd := alt (ret true) (ret false)

/-! ## Actions (src/actions.c) -/

/-- `wolfsentry_action_insert_1` (actions.c:128-162). -/
def actionInsert1 (l : Lk) : Cmd := block [lockOrRet l, unlockRet l]
/-- `wolfsentry_action_insert` (actions.c:164-177). -/
def actionInsert (l : Lk) : Cmd := block [mayFail, tail (actionInsert1 l)]
/-- `wolfsentry_action_drop_reference` (actions.c:253-268): no lock operations. -/
def actionDrop : Cmd := retEither
/-- `wolfsentry_action_delete` (actions.c:179-214). -/
def actionDelete (l : Lk) : Cmd := block [mayFail, lockOrRet l, maybe (ignore actionDrop), unlockRet l]
/-- `wolfsentry_action_flush_all` (actions.c:216-221); table_free_ents drops each action. -/
def actionFlushAll (l : Lk) : Cmd := block [lockOrRet l, loop (ignore actionDrop), unlockRet l]
/-- `wolfsentry_action_get_reference` (actions.c:234-251). -/
def actionGetReference (l : Lk) : Cmd := block [mayFail, lockOrRet l, unlockRet l]
/-- `wolfsentry_action_list_append` (actions.c:330-350). -/
def actionListAppend (l : Lk) : Cmd :=
  block [lockOrRet l, tryUnlock l (actionGetReference l),
    maybe (block [ignore actionDrop, unlockErr l]), unlockOk l]
/-- `wolfsentry_action_list_prepend` (actions.c:367-385). -/
def actionListPrepend (l : Lk) : Cmd :=
  block [lockOrRet l, tryUnlock l (actionGetReference l),
    maybe (block [ignore actionDrop, unlockErr l]), unlockOk l]
/-- `wolfsentry_action_list_insert_after` (actions.c:407-434).  The result of dropping the
reference to the anchor action is returned *without* unlocking (actions.c:427-428). -/
def actionListInsertAfter (l : Lk) : Cmd :=
  block [lockOrRet l, tryUnlock l (actionGetReference l),
    call (actionGetReference l) skip (block [ignore actionDrop, unlockErr l]),
    try_ actionDrop,
    maybe (block [ignore actionDrop, unlockErr l]), unlockOk l]
/-- `wolfsentry_action_list_delete` (actions.c:487-520). -/
def actionListDelete (l : Lk) : Cmd :=
  block [lockOrRet l, mayFailUnlock l, ignore actionDrop, unlockOk l]
/-- `wolfsentry_action_list_delete_all` (actions.c:522-543). -/
def actionListDeleteAll (l : Lk) : Cmd :=
  block [lockOrRet l, loop (ignore actionDrop), unlockOk l]
/-- `wolfsentry_action_list_clone` (actions.c:436-485): shared lock on the own context, exclusive
lock on the destination; on refcount overflow only the own context is unlocked (actions.c:473). -/
def actionListClone : Cmd :=
  block [lockOrRet .own, acq .other skip (unlockErr .own),
    loop (mayFailUnlock .own),
    maybe (ignore (actionListDeleteAll .other)),
    rel .other, unlockRet .own]
/-- `wolfsentry_action_list_dispatch` (actions.c:545-643): user handlers in turn. -/
def actionListDispatch : Cmd :=
  block [mayFail, mayFail, maybe (ret true), loop (block [callback, maybe retEither]), ret true]

/-! ## Events (src/events.c) -/

/-- `wolfsentry_event_free` (events.c:80-91): the six action lists are emptied. -/
def eventFree (l : Lk) : Cmd := loop (ignore (actionListDeleteAll l))
/-- `wolfsentry_event_drop_reference` (events.c:406-429).  It recurses into the auxiliary event
before freeing; the lock operations of the recursion are those of freeing the events of the chain
one after the other, hence the loop. -/
def eventDrop (l : Lk) : Cmd :=
  block [mayFail, maybe (ret true), loop (ignore (eventFree l)), mayFail, ignore (eventFree l), ret true]
/-- `wolfsentry_event_insert` (events.c:265-300). -/
def eventInsert (l : Lk) : Cmd :=
  block [mayFail, lockOrRet l, mayFailUnlock l,
    maybe (block [ignore (eventFree l), unlockErr l]),
    maybe (block [ignore (eventFree l), unlockErr l]), unlockRet l]
/-- `wolfsentry_event_get_config` (events.c:344-357): on an unknown label it returns with the lock
held (events.c:351). -/
def eventGetConfig (l : Lk) : Cmd := block [lockOrRet l, mayFail, unlockRet l]
/-- `wolfsentry_event_update_config` (events.c:359-380): same (events.c:366). -/
def eventUpdateConfig (l : Lk) : Cmd :=
  block [lockOrRet l, mayFail, mayFailUnlock l, unlockRet l]
/-- `wolfsentry_event_get_reference` (events.c:382-404): takes the lock only when the caller has
none. -/
def eventGetReference (l : Lk) : Cmd :=
  alt (block [lockOrRet l, mayFailUnlock l, mayFailUnlock l, unlockOk l]) (block [mayFail, retEither])
/-- `wolfsentry_event_delete` (events.c:432-451). -/
def eventDelete (l : Lk) : Cmd :=
  block [mayFail, lockOrRet l, mayFailUnlock l, mayFailUnlock l, ignore (eventDrop l), unlockRet l]
/-- `wolfsentry_event_flush_all` (events.c:453-458). -/
def eventFlushAll (l : Lk) : Cmd := block [lockOrRet l, loop (ignore (eventDrop l)), unlockRet l]
/-- `wolfsentry_event_action_change_1` (events.c:462-523) with the list operation `f`. -/
def eventActionChange (l : Lk) (f : Cmd) : Cmd :=
  block [lockOrRet l, mayFailUnlock l, mayFailUnlock l, call f (unlockOk l) (unlockErr l)]
/-- `wolfsentry_event_action_prepend` (events.c:525-544). -/
def eventActionPrepend (l : Lk) : Cmd := tail (eventActionChange l (actionListPrepend l))
/-- `wolfsentry_event_action_append` (events.c:546-564). -/
def eventActionAppend (l : Lk) : Cmd := tail (eventActionChange l (actionListAppend l))
/-- `wolfsentry_event_action_insert_after` (events.c:566-586). -/
def eventActionInsertAfter (l : Lk) : Cmd := tail (eventActionChange l (actionListInsertAfter l))
/-- `wolfsentry_event_action_delete` (events.c:588-606). -/
def eventActionDelete (l : Lk) : Cmd := tail (eventActionChange l (actionListDelete l))
/-- `wolfsentry_event_set_aux_event` (events.c:608-657): when the first label is unknown it returns
with the lock held (events.c:621). -/
def eventSetAux (l : Lk) : Cmd :=
  block [lockOrRet l, try_ (eventGetReference l), maybe (ignore (eventGetReference l)),
    maybe (ignore (eventDrop l)), ignore (eventDrop l), maybe (ignore (eventDrop l)), unlockRet l]
/-- `wolfsentry_event_action_list_start` (events.c:660-706): needs a lock held by the caller; on a
bad list selector it *releases the caller's lock* (events.c:700). -/
def eventActionListStart (l : Lk) : Cmd := block [mayFail, mayFail, maybe (unlockErr l), mayFail, ret true]
/-- `wolfsentry_event_action_list_next` / `_done` (events.c:708-734). -/
def eventActionListNext : Cmd := block [mayFail, mayFail, ret true]

/-! ## User values (src/kv.c) -/

/-- `wolfsentry_kv_set_mutability` (kv.c:118-140). -/
def kvSetMutability (l : Lk) : Cmd :=
  block [lockOrRet l, maybe (unlockOk l), maybe (unlockOk l), unlockErr l]
/-- `wolfsentry_kv_insert` (kv.c:167-181): validator callback, then the lock. -/
def kvInsert (l : Lk) : Cmd := block [maybe (block [callback, mayFail]), lockOrRet l, unlockRet l]
/-- `wolfsentry_kv_set` (kv.c:220-254). -/
def kvSet (l : Lk) : Cmd :=
  block [maybe (block [callback, mayFail]), lockOrRet l, mayFailUnlock l, mayFailUnlock l,
    maybe (unlockOk l), mayFailUnlock l, unlockRet l]
/-- `wolfsentry_kv_get_1` (kv.c:256-277). -/
def kvGet1 (l : Lk) : Cmd := block [lockOrRet l, mayFailUnlock l, mayFailUnlock l, unlockOk l]
/-- `wolfsentry_kv_get_2` (kv.c:279-295). -/
def kvGet2 (l : Lk) : Cmd := block [mayFail, tail (kvGet1 l)]
/-- `wolfsentry_kv_get_reference_1` (kv.c:297-308). -/
def kvGetReference1 (l : Lk) : Cmd := block [try_ (kvGet1 l), mayFail, ret true]
/-- `wolfsentry_kv_get_reference` (kv.c:310-327): when the key record cannot be built it unlocks
although it holds nothing (kv.c:321). -/
def kvGetReference (l : Lk) : Cmd := block [maybe (unlockErr l), tail (kvGetReference1 l)]
/-- `wolfsentry_kv_get_type` (kv.c:329-346). -/
def kvGetType (l : Lk) : Cmd := block [mayFail, try_ (kvGet1 l), ret true]
/-- `wolfsentry_kv_drop_reference` (kv.c:84-116): no lock operations. -/
def kvDrop : Cmd := retEither
/-- `wolfsentry_kv_delete` (kv.c:530-553). -/
def kvDelete (l : Lk) : Cmd :=
  block [mayFail, lockOrRet l, mayFailUnlock l, mayFailUnlock l, mayFailUnlock l, ignore kvDrop, unlockRet l]
/-- `wolfsentry_kv_set_validator` (kv.c:572-592): the new validator is applied to every value under
the lock. -/
def kvSetValidator (l : Lk) : Cmd :=
  block [lockOrRet l, maybe (block [loop callback, mayFailUnlock l]), unlockOk l]
/-- `wolfsentry_user_value_store_*` (kv.c:746-765, 768-790, 810-830, 847-868, 885-906, 923-951,
970-993, 996-1029, 1063-1084): build the record, set or insert it, free it on error. -/
def userValueStore (l : Lk) : Cmd := block [mayFail, alt (ignore (kvSet l)) (ignore (kvInsert l)), retEither]
/-- `wolfsentry_user_value_get_{bool,uint,sint,float,mutability}` (kv.c:715-727, 793-807, 833-844,
871-882, 909-920). -/
def userValueGetScalar (l : Lk) : Cmd := block [try_ (kvGet2 l), mayFail, ret true]
/-- `wolfsentry_user_value_get_{string,bytes,json}` (kv.c:954-967, 1032-1045, 1049-1060). -/
def userValueGetRecord (l : Lk) : Cmd := block [try_ (kvGetReference l), ret true]
/-- `wolfsentry_user_value_set_mutability` (kv.c:702-713). -/
def userValueSetMutability (l : Lk) : Cmd := block [try_ (kvGet2 l), tail (kvSetMutability l)]
/-- `wolfsentry_user_value_release_record` (kv.c:1088-1095). -/
def userValueRelease : Cmd := tail kvDrop
/-- `wolfsentry_user_values_iterate_*` (kv.c:1098-1154). -/
def userValuesIterate : Cmd := block [mayFail, retEither]

/-! ## Address families (src/addr_families.c) -/

/-- `wolfsentry_addr_family_insert` (addr_families.c:73-184).  Over-long names, allocation failures
and a refused lock all reach the common exit, which unlocks (addr_families.c:110, 116, 123, 146,
183). -/
def afInsert (l : Lk) : Cmd :=
  block [mayFail, maybe (unlockErr l), maybe (unlockErr l), maybe (unlockErr l),
    acq l skip (unlockErr l), unlockRet l]
/-- `wolfsentry_addr_family_handler_install` (addr_families.c:445-455). -/
def afInstall (l : Lk) : Cmd := tail (afInsert l)
/-- `wolfsentry_addr_family_get_parser` / `_get_formatter` (addr_families.c:214-256). -/
def afGetParser (l : Lk) : Cmd := block [mayFail, lockOrRet l, mayFailUnlock l, unlockOk l]
/-- `wolfsentry_addr_family_handler_remove_bynumber` / `_byname` (addr_families.c:394-475). -/
def afRemove (l : Lk) : Cmd :=
  tail (block [lockOrRet l, mayFailUnlock l, mayFailUnlock l, mayFailUnlock l, unlockRet l])
/-- `wolfsentry_addr_family_pton` (addr_families.c:478-): with an empty table no lock is taken. -/
def afPton (l : Lk) : Cmd := block [mayFail, maybe (block [lockOrRet l, rel l, maybe (ret true), mayFail]), retEither]
/-- `wolfsentry_addr_family_ntop` (addr_families.c:801-836). -/
def afNtop (l : Lk) : Cmd :=
  block [mayFail, maybe (block [lockOrRet l, maybe (block [mayFailUnlock l, unlockOk l]), mayFailUnlock l, rel l]),
    retEither]
/-- `wolfsentry_addr_family_max_addr_bits` (addr_families.c:870-893). -/
def afMaxAddrBits (l : Lk) : Cmd := block [maybe (ret true), lockOrRet l, unlockRet l]
/-- `wolfsentry_addr_family_drop_reference` (addr_families.c:365-391): no lock operations. -/
def afDrop : Cmd := retEither

/-! ## Rules (src/routes.c) -/

/-- `wolfsentry_route_drop_reference` (routes.c:594-637). -/
def routeDrop (l : Lk) : Cmd := block [mayFail, maybe (ret true), maybe (ignore (eventDrop l)), ret true]
/-- `wolfsentry_route_delete_0` (routes.c:2120-2222). -/
def routeDelete0 (l : Lk) : Cmd :=
  block [mayFail, maybe (ret true), mayFail, maybe (ignore actionListDispatch), ignore (routeDrop l), ret true]
/-- `wolfsentry_route_stale_purge_1` (routes.c:3018-3120).  When the caller has neither the mutex
nor a reservation the function locks for itself (`got_lock`) and gives that level back on every
exit; otherwise it neither locks nor unlocks. -/
def stalePurge1 (l : Lk) : Cmd :=
  block [mayFail, mayFail,
    alt (block [lockOrRet l,
          loop (block [mayFailUnlock l, call (routeDelete0 l) skip (unlockErr l)]),
          rel l, retEither])
        (block [loop (block [mayFail, try_ (routeDelete0 l)]), retEither])]
/-- `wolfsentry_route_stale_purge`, `_one`, `_one_opportunistically` (routes.c:3122-3145). -/
def stalePurge (l : Lk) : Cmd := tail (stalePurge1 l)
/-- `wolfsentry_route_insert_1` (routes.c:1202-1344). -/
def routeInsert1 (l : Lk) : Cmd :=
  block [mayFail, maybe (try_ (stalePurge l)), mayFail, maybe retEither, mayFail,
    maybe (ignore actionListDispatch), retEither]
/-- `wolfsentry_route_insert_2`, `_insert_by_exports_2` (routes.c:1346-1452).  Creating the rule
takes a reference to the parent event; failures drop what was made. -/
def routeInsert2 (l : Lk) : Cmd :=
  block [mayFail, maybe (block [maybe (ignore (routeDrop l)), ret false]), ignore (routeInsert1 l),
    maybe (ignore (routeDrop l)), retEither]
/-- `wolfsentry_route_insert_into_table`, `_by_exports_into_table`, `_into_table_and_check_out`
(routes.c:1454-1480, 1482-1504, 1548-1574). -/
def routeInsert (l : Lk) : Cmd :=
  block [lockOrRet l, maybe (tryUnlock l (eventGetReference l)), ignore (routeInsert2 l),
    maybe (ignore (eventDrop l)), unlockRet l]
/-- The main-table forms `wolfsentry_route_insert`, `_insert_by_exports`, `_insert_and_check_out`
(routes.c:1506-1546, 1576-1599). -/
def routeInsertMain (l : Lk) : Cmd := tail (routeInsert l)
/-- `wolfsentry_route_table_default_policy_set` (routes.c:1981-1991). -/
def policySetTable (l : Lk) : Cmd := block [mayFail, lockOrRet l, unlockOk l]
/-- `wolfsentry_route_default_policy_set` (routes.c:1993-2009). -/
def policySet (l : Lk) : Cmd := block [lockOrRet l, mayFailUnlock l, ignore (policySetTable l), unlockRet l]
/-- Getters and setters that need the caller's lock: default policy, purge limits, main table,
iteration (routes.c:1971-1979, 2011-2089, 3611-3691). -/
def routeNeedsLock : Cmd := block [mayFail, retEither]
/-- `wolfsentry_route_get_reference` (routes.c:2091-2118). -/
def routeGetReference (l : Lk) : Cmd :=
  block [lockOrRet l, maybe (tryUnlock l (eventGetReference l)), maybe (ignore (eventDrop l)),
    mayFailUnlock l, unlockRet l]
/-- `wolfsentry_route_delete_from_table` (routes.c:2249-2277) through `wolfsentry_route_delete_1`. -/
def routeDelete (l : Lk) : Cmd :=
  block [lockOrRet l, maybe (tryUnlock l (eventGetReference l)),
    ignore (block [mayFail, mayFail, tail (routeDelete0 l)]), maybe (ignore (eventDrop l)), unlockRet l]
/-- `wolfsentry_route_delete` (routes.c:2279-2302). -/
def routeDeleteMain (l : Lk) : Cmd := tail (routeDelete l)
/-- `wolfsentry_route_delete_by_id` (routes.c:2304-2341). -/
def routeDeleteById (l : Lk) : Cmd :=
  block [lockOrRet l, maybe (tryUnlock l (eventGetReference l)), maybe (ignore (routeDelete0 l)),
    maybe (ignore (eventDrop l)), unlockRet l]
/-- `wolfsentry_route_event_dispatch_0` (routes.c:2350-2640): opportunistic garbage collection
(routes.c:2421) and up to four action lists (routes.c:2428, 2458, 2608, 2623). -/
def dispatch0 (l : Lk) : Cmd :=
  block [mayFail, ignore (stalePurge1 l), maybe (ignore actionListDispatch),
    maybe (ignore actionListDispatch), maybe (ignore actionListDispatch),
    maybe (ignore actionListDispatch), retEither]
/-- `wolfsentry_route_event_dispatch_1` (routes.c:2642-2773). -/
def dispatch1 (l : Lk) : Cmd :=
  block [mayFail, lockOrRet l, maybe (call (eventGetReference l) skip (maybe (unlockErr l))),
    maybe (block [mayFailUnlock l, ignore (dispatch0 l)]),
    maybe (ignore (routeDrop l)), maybe (ignore (routeDrop l)), maybe (ignore (eventDrop l)),
    maybe (unlockOk l), unlockRet l]
/-- `wolfsentry_route_event_dispatch`, `_with_table`, `_with_inited_result`,
`_with_table_with_inited_result` (routes.c:2775-2857). -/
def dispatchApi (l : Lk) : Cmd := block [mayFail, tail (dispatch1 l)]
/-- `wolfsentry_route_event_dispatch_by_id` (routes.c:2859-2926): an unknown event label returns
with the lock held (routes.c:2877). -/
def dispatchById (l : Lk) : Cmd :=
  block [mayFail, tail (block [lockOrRet l, maybe (try_ (eventGetReference l)), maybe (ignore (dispatch0 l)),
    maybe (ignore (eventDrop l)), unlockRet l])]
/-- `wolfsentry_route_event_dispatch_by_route` (routes.c:2928-2990): same (routes.c:2945). -/
def dispatchByRoute (l : Lk) : Cmd :=
  block [mayFail, tail (block [lockOrRet l, maybe (try_ (eventGetReference l)), maybe (ignore (dispatch0 l)),
    maybe (ignore (eventDrop l)), unlockRet l])]
/-- `wolfsentry_route_flush_table` (routes.c:3176-3195): delete every rule. -/
def routeFlush (l : Lk) : Cmd := block [lockOrRet l, mayFailUnlock l, loop (tryUnlock l (routeDelete0 l)), unlockRet l]
/-- `wolfsentry_route_bulk_clear_insert_action_status` (routes.c:3209-3221). -/
def bulkClear (l : Lk) : Cmd := block [lockOrRet l, unlockRet l]
/-- `wolfsentry_route_bulk_insert_actions` (routes.c:3253-3267). -/
def bulkInsert (l : Lk) : Cmd := block [lockOrRet l, loop (ignore actionListDispatch), unlockRet l]
/-- `wolfsentry_route_table_clear_default_event` (routes.c:3493-3505). -/
def clearDefaultEvent (l : Lk) : Cmd := block [lockOrRet l, maybe (tryUnlock l (eventDrop l)), unlockOk l]
/-- `wolfsentry_route_table_set_default_event` (routes.c:3507-3524). -/
def setDefaultEvent (l : Lk) : Cmd :=
  block [lockOrRet l, tryUnlock l (eventGetReference l),
    call (clearDefaultEvent l) skip (block [ignore (eventDrop l), unlockErr l]), unlockOk l]
/-- `wolfsentry_route_table_get_default_event` (routes.c:3526-3539). -/
def getDefaultEvent (l : Lk) : Cmd := block [mayFail, lockOrRet l, mayFailUnlock l, unlockOk l]

/-! ## Context (src/wolfsentry_util.c) -/

/-- `wolfsentry_defaultconfig_get` / `_update` (wolfsentry_util.c:3446-3464). -/
def defaultConfig (l : Lk) : Cmd := block [lockOrRet l, unlockRet l]
/-- `wolfsentry_cleanup_push` (wolfsentry_util.c:3728-3751). -/
def cleanupPush (l : Lk) : Cmd := block [lockOrRet l, maybe (unlockOk l), mayFailUnlock l, unlockOk l]
/-- `wolfsentry_cleanup_pop` (wolfsentry_util.c:3753-3769). -/
def cleanupPop (l : Lk) : Cmd := block [lockOrRet l, mayFailUnlock l, maybe callback, unlockOk l]
/-- `wolfsentry_cleanup_all` (wolfsentry_util.c:3771-3786). -/
def cleanupAll (l : Lk) : Cmd := block [lockOrRet l, loop (ignore (cleanupPop l)), alt (unlockOk l) (unlockErr l)]
/-- `wolfsentry_context_flush` (wolfsentry_util.c:3788-3803). -/
def contextFlush (l : Lk) : Cmd :=
  block [lockOrRet l, tryUnlock l (routeFlush l), tryUnlock l (eventFlushAll l), loop (ignore kvDrop), unlockRet l]
/-- `wolfsentry_context_free` (wolfsentry_util.c:3805-3837).  Needs the caller's mutex; the three
BUSY exits release it (3811-3815).  On success the lock is destroyed with the context, which ends
the caller's hold: shown as a release. -/
def contextFree (l : Lk) : Cmd :=
  block [mayFail, maybe (unlockErr l), maybe (unlockErr l), maybe (unlockErr l),
    try_ (cleanupAll l), try_ (routeFlush l), try_ (actionFlushAll l), try_ (eventFlushAll l),
    mayFail, mayFail, mayFail, rel l, ret true]
/-- `wolfsentry_shutdown` (wolfsentry_util.c:3839-3851): takes the mutex, frees, and on BUSY — when
`contextFree` has already released — releases once more; on other failures it does not release. -/
def shutdown (l : Lk) : Cmd :=
  block [lockOrRet l, call (contextFree l) (ret true) (block [alt (rel l) skip, ret false])]
/-- `wolfsentry_table_clone` of the tables (src/wolfsentry_internal.c:101-292): the only lock
operations are those of cloning the action lists of events (events.c:172-262). -/
def tablesClone : Cmd := block [mayFail, loop (maybe (try_ actionListClone)), ret true]
/-- `wolfsentry_context_clone` (wolfsentry_util.c:3880-3967): the clone is returned locked. -/
def contextClone : Cmd :=
  block [lockOrRet .own, mayFailUnlock .own,
    acq .other (call tablesClone (unlockOk .own) (block [ignore (contextFree .other), unlockErr .own]))
      (block [ignore (contextFree .other), unlockErr .own])]
/-- `wolfsentry_context_exchange` (wolfsentry_util.c:3969-4048). -/
def contextExchange : Cmd :=
  block [mayFail, lockOrRet .own, acq .other skip (unlockErr .own), rel .own, rel .other, retEither]

/-! ## Configuration loading (src/json/load_config.c) -/

/-- `wolfsentry_config_json_init_ex` (load_config.c:1707-1872), own context only (calls on the clone
are of the functions above).  The lock is kept on success; the failure of
`wolfsentry_defaultconfig_get` returns with it held (load_config.c:1825-1826). -/
def jsonInit : Cmd :=
  block [mayFail, lockOrRet .own,
    maybe (call contextClone skip (unlockErr .own)),
    mayFailUnlock .own, try_ (defaultConfig .own),
    maybe (tryUnlock .own (alt (routeFlush .own) (contextFlush .own))), ret true]
/-- `wolfsentry_config_json_fini` with an open load handle (load_config.c:1938-2023): one level is
given back at the end, on every path. -/
def jsonFiniOpen : Cmd :=
  block [maybe (block [ignore contextExchange, maybe (ignore (bulkClear .own)), maybe (ignore (bulkInsert .own))]),
    rel .own, retEither]
/-- `wolfsentry_config_json_fini` (load_config.c:1927-2023): a null handle is refused first. -/
def jsonFini : Cmd := block [mayFail, jsonFiniOpen]

/-! ## lwIP glue (src/lwip/packet_filter_glue.c) -/

/-- `wolfsentry_install_lwip_filter_ethernet_callback`, `_ip_callbacks`, `_udp_callback`
(packet_filter_glue.c:1160-1222, 1304-1321). -/
def lwipGood (l : Lk) : Cmd := block [lockOrRet l, maybe (tryUnlock l (cleanupPush l)), unlockOk l]
/-- `wolfsentry_install_lwip_filter_icmp_callbacks`, `_tcp_callback` (packet_filter_glue.c:1231-1295):
the failure of `wolfsentry_cleanup_push` is returned with the lock held (1239, 1281). -/
def lwipBad (l : Lk) : Cmd := block [lockOrRet l, maybe (try_ (cleanupPush l)), unlockOk l]
/-- With a zero mask no cleanup is pushed. -/
def lwipZero (l : Lk) : Cmd := block [lockOrRet l, unlockOk l]
/-- `wolfsentry_install_lwip_filter_callbacks` (packet_filter_glue.c:1330-1366). -/
def lwipAll (l : Lk) : Cmd :=
  let undo := block [ignore (lwipZero l), ignore (lwipZero l), ignore (lwipZero l), ignore (lwipZero l),
    ignore (lwipZero l), unlockErr l]
  block [lockOrRet l, call (lwipGood l) skip undo, call (lwipGood l) skip undo, call (lwipBad l) skip undo,
    call (lwipBad l) skip undo, call (lwipGood l) skip undo, unlockOk l]

/-! ## The API -/

/-- The functions whose lock use is checked, by name. -/
def api : List (String × Cmd) :=
  [("action_insert", actionInsert .own), ("action_delete", actionDelete .own),
   ("action_flush_all", actionFlushAll .own), ("action_get_reference", actionGetReference .own),
   ("action_drop_reference", actionDrop),
   ("action_list_append", actionListAppend .own), ("action_list_prepend", actionListPrepend .own),
   ("action_list_insert_after", actionListInsertAfter .own), ("action_list_delete", actionListDelete .own),
   ("action_list_delete_all", actionListDeleteAll .own), ("action_list_clone", actionListClone),
   ("action_list_dispatch", actionListDispatch),
   ("event_insert", eventInsert .own), ("event_get_config", eventGetConfig .own),
   ("event_update_config", eventUpdateConfig .own), ("event_get_reference", eventGetReference .own),
   ("event_drop_reference", eventDrop .own), ("event_delete", eventDelete .own),
   ("event_flush_all", eventFlushAll .own), ("event_action_prepend", eventActionPrepend .own),
   ("event_action_append", eventActionAppend .own), ("event_action_insert_after", eventActionInsertAfter .own),
   ("event_action_delete", eventActionDelete .own), ("event_set_aux_event", eventSetAux .own),
   ("event_action_list_start", eventActionListStart .own), ("event_action_list_next", eventActionListNext),
   ("event_action_list_done", eventActionListNext),
   ("user_value_set_validator", kvSetValidator .own), ("user_value_set_mutability", userValueSetMutability .own),
   ("user_value_get_mutability", userValueGetScalar .own), ("user_value_get_type", kvGetType .own),
   ("user_value_delete", kvDelete .own), ("user_value_store_null", userValueStore .own),
   ("user_value_store_bool", userValueStore .own), ("user_value_get_bool", userValueGetScalar .own),
   ("user_value_store_uint", userValueStore .own), ("user_value_get_uint", userValueGetScalar .own),
   ("user_value_store_sint", userValueStore .own), ("user_value_get_sint", userValueGetScalar .own),
   ("user_value_store_double", userValueStore .own), ("user_value_get_float", userValueGetScalar .own),
   ("user_value_store_string", userValueStore .own), ("user_value_get_string", userValueGetRecord .own),
   ("user_value_store_bytes", userValueStore .own), ("user_value_store_bytes_base64", userValueStore .own),
   ("user_value_get_bytes", userValueGetRecord .own), ("user_value_store_json", userValueStore .own),
   ("user_value_get_json", userValueGetRecord .own), ("user_value_release_record", userValueRelease),
   ("user_values_iterate", userValuesIterate),
   ("addr_family_handler_install", afInstall .own), ("addr_family_get_parser", afGetParser .own),
   ("addr_family_get_formatter", afGetParser .own), ("addr_family_handler_remove_bynumber", afRemove .own),
   ("addr_family_handler_remove_byname", afRemove .own), ("addr_family_pton", afPton .own),
   ("addr_family_ntop", afNtop .own), ("addr_family_max_addr_bits", afMaxAddrBits .own),
   ("addr_family_drop_reference", afDrop),
   ("route_drop_reference", routeDrop .own), ("route_insert_into_table", routeInsert .own),
   ("route_insert_by_exports_into_table", routeInsert .own),
   ("route_insert_into_table_and_check_out", routeInsert .own), ("route_insert", routeInsertMain .own),
   ("route_insert_by_exports", routeInsertMain .own), ("route_insert_and_check_out", routeInsertMain .own),
   ("route_table_default_policy_set", policySetTable .own), ("route_default_policy_set", policySet .own),
   ("route_get_main_table", routeNeedsLock), ("route_table_max_purgeable_routes_set", routeNeedsLock),
   ("route_get_reference", routeGetReference .own), ("route_delete_from_table", routeDelete .own),
   ("route_delete", routeDeleteMain .own), ("route_delete_by_id", routeDeleteById .own),
   ("route_event_dispatch_with_table", dispatchApi .own), ("route_event_dispatch", dispatchApi .own),
   ("route_event_dispatch_with_table_with_inited_result", dispatchApi .own),
   ("route_event_dispatch_with_inited_result", dispatchApi .own),
   ("route_event_dispatch_by_id", dispatchById .own),
   ("route_event_dispatch_by_id_with_inited_result", dispatchById .own),
   ("route_event_dispatch_by_route", dispatchByRoute .own),
   ("route_event_dispatch_by_route_with_inited_result", dispatchByRoute .own),
   ("route_stale_purge", stalePurge .own), ("route_stale_purge_one", stalePurge .own),
   ("route_stale_purge_one_opportunistically", stalePurge .own), ("route_flush_table", routeFlush .own),
   ("route_bulk_clear_insert_action_status", bulkClear .own), ("route_bulk_insert_actions", bulkInsert .own),
   ("route_table_clear_default_event", clearDefaultEvent .own),
   ("route_table_set_default_event", setDefaultEvent .own),
   ("route_table_get_default_event", getDefaultEvent .own),
   ("defaultconfig_get", defaultConfig .own), ("defaultconfig_update", defaultConfig .own),
   ("cleanup_push", cleanupPush .own), ("cleanup_pop", cleanupPop .own), ("cleanup_all", cleanupAll .own),
   ("context_flush", contextFlush .own), ("context_exchange", contextExchange),
   ("install_lwip_filter_ethernet_callback", lwipGood .own), ("install_lwip_filter_ip_callbacks", lwipGood .own),
   ("install_lwip_filter_icmp_callbacks", lwipBad .own), ("install_lwip_filter_tcp_callback", lwipBad .own),
   ("install_lwip_filter_udp_callback", lwipGood .own), ("install_lwip_filter_callbacks", lwipAll .own)]

/-- The functions with an exit that leaves a lock held that they took. -/
def leaky : List String :=
  ["action_list_insert_after", "action_list_clone", "event_get_config", "event_update_config",
   "event_action_insert_after", "event_set_aux_event",
   "route_event_dispatch_by_id", "route_event_dispatch_by_id_with_inited_result",
   "route_event_dispatch_by_route", "route_event_dispatch_by_route_with_inited_result",
   "install_lwip_filter_icmp_callbacks", "install_lwip_filter_tcp_callback", "install_lwip_filter_callbacks"]

/-- The functions with an exit that releases a lock they did not take. -/
def overReleasing : List String :=
  ["event_action_list_start", "user_value_get_string", "user_value_get_bytes", "user_value_get_json",
   "addr_family_handler_install"]

end WS.LockBal
