import Verif.Model.RouteTable
import Verif.Model.Actions
/-
Creating, inserting, deleting and purging rules (src/routes.c:144-187, 552-569, 639-783, 1190-1400,
2117-2226, 2992-3197, 3286-3334).

Conventions: a rule object that is in a table is the entry of `T.ents` with its ID; pointers to rules
are IDs.  Times are unbounded integers (microseconds): the 64-bit overflow of sums of times is not
modelled here.  Locks, allocation failure, private data and reference counts are left out
(reference counts are modelled in `Model/Refcount.lean`).  The purge list is a sequence; that the
pointer surgery implements the sequence operations, and when it does not, is C05.
-/
namespace WS

/-! ### Access to rules by ID -/

/-- Dereference of a pointer to a rule of the table. -/
def RouteTable.get? (T : RouteTable) (id : Nat) : Option Route := T.ents.find? (fun r => r.id == id)

/-- Store to the rule object in place. -/
def RouteTable.update (T : RouteTable) (r : Route) : RouteTable :=
  { T with ents := T.ents.map (fun x => if x.id = r.id then r else x) }

/-- `route->meta.purge_after` through a pointer. -/
def RouteTable.expiry (T : RouteTable) (id : Nat) : Int :=
  match T.get? id with
  | some r => r.data.purgeAfter
  | none => 0

/-! ### Bitmask families (src/routes.c:144-187) -/

/-- `WOLFSENTRY_MAX_BITMASK_MATCHED_AFS` (wolfsentry/wolfsentry_settings.h:257-258). -/
def maxBitmaskAfs : Nat := 4

/-- The scan of `wolfsentry_bitmask_matching_upref` (src/routes.c:153-163): the entry of the family
gets one more reference (16-bit count).  `none`: no entry of that family. -/
def uprefScan (af : Nat) : List (Nat × Nat) → Option (Except Err (List (Nat × Nat)))
  | [] => none
  | (a, n) :: rest =>
    if a = af then
      if n = 65535 then some (.error .overflowAverted) else some (.ok ((a, n + 1) :: rest))
    else (uprefScan af rest).map (fun x => x.map ((a, n) :: ·))

/-- `wolfsentry_bitmask_matching_upref` (src/routes.c:153-171). -/
def upref (af : Nat) (afs : List (Nat × Nat)) : Except Err (List (Nat × Nat)) :=
  match uprefScan af afs with
  | some r => r
  | none => if afs.length ≥ maxBitmaskAfs then .error .bufferTooSmall else .ok (afs ++ [(af, 1)])

/-- `wolfsentry_bitmask_matching_downref` (src/routes.c:173-187): one reference less; an entry that
reaches zero is overwritten with the last one. -/
def downref (af : Nat) (afs : List (Nat × Nat)) : Except Err (List (Nat × Nat)) :=
  match afs.findIdx? (fun p => p.1 == af) with
  | none => .error .itemNotFound
  | some i =>
    let n := (afs.getD i (0, 0)).2
    if n - 1 = 0 then
      let last := afs.getD (afs.length - 1) (0, 0)
      .ok (if i < afs.length - 1 then (afs.set i last).dropLast else afs.dropLast)
    else .ok (afs.set i (af, n - 1))

/-- The rule has a bitmask address (the test of src/routes.c:1293 and 2164). -/
def Route.hasBitmask (r : Route) : Bool := r.flags.has (RF.REMOTE_ADDR_BITMASK ||| RF.LOCAL_ADDR_BITMASK)

/-! ### Creation (src/routes.c:639-783) -/

/-- `struct wolfsentry_sockaddr` (wolfsentry/wolfsentry.h:1133-1146): family and protocol with an
endpoint.  `addr` holds `BITS_TO_BYTES(addr_len)` bytes. -/
structure SockAddr where
  family : Nat := 0
  proto : Nat := 0
  ep : Endpoint := {}
  deriving DecidableEq, Repr

/-- `wolfsentry_route_check_flags_sensical` (src/routes.c:1190-1200); the same test is in
`wolfsentry_route_init` (676-684). -/
def flagsSensical (f : Flags) : Bool :=
  !((f.has RF.SA_FAMILY_WILDCARD &&
      (!f.has RF.SA_REMOTE_ADDR_WILDCARD || !f.has RF.SA_LOCAL_ADDR_WILDCARD || !f.has RF.SA_PROTO_WILDCARD)) ||
    (f.has RF.SA_PROTO_WILDCARD &&
      (!f.has RF.SA_REMOTE_PORT_WILDCARD || !f.has RF.SA_LOCAL_PORT_WILDCARD)))

/-- Address bytes ANDed with the mask in the second half (src/routes.c:730-734, 746-750). -/
def maskAddr (a : List Byte) (n : Nat) : List Byte :=
  (List.zipWith (fun x m => x &&& m) (a.take n) (a.drop n)) ++ a.drop n

/-- Last byte of a prefix address with the padding cleared as the code does it (src/routes.c:738-742,
754-758): with `k` left-over bits, if any of the low `k` bits is set, keep the bits from `k` up. -/
def padByte (b : Byte) (k : Nat) : Byte :=
  if b &&& (0xff#8 >>> (8 - k)) ≠ 0 then b &&& (0xff#8 <<< k) else b

/-- Padding of a prefix address of `bits` bits. -/
def padAddr (a : List Byte) (bits : Nat) : List Byte :=
  if bits % 8 = 0 then a
  else a.set (bitsToBytes bits - 1) (padByte (a.getD (bitsToBytes bits - 1) 0) (bits % 8))

/-- Normalisation of one endpoint. -/
def initEndpoint (e : Endpoint) (bitmask : Bool) : Endpoint :=
  { e with addr := if bitmask then maskAddr e.addr (bitsToBytes e.bits / 2) else padAddr e.addr e.bits }

/-- `wolfsentry_route_init` (src/routes.c:639-783) on an object of sufficient size. -/
def routeInit (ev : Option Event) (remote loc : SockAddr) (flags : Flags) : Except Err Route :=
  if bitsToBytes remote.ep.bits + bitsToBytes loc.ep.bits > 65535 then .error .numericArgTooBig
  else if !flags.has (RF.DIRECTION_IN ||| RF.DIRECTION_OUT) then .error .invalidArg
  else if flags.has RF.REMOTE_ADDR_BITMASK ∧ remote.ep.bits % 16 ≠ 0 then .error .invalidArg
  else if flags.has RF.LOCAL_ADDR_BITMASK ∧ loc.ep.bits % 16 ≠ 0 then .error .invalidArg
  else if !flagsSensical flags then .error .invalidArg
  else .ok
    { event := ev, flags := flags, family := remote.family, proto := remote.proto,
      remote := initEndpoint remote.ep (flags.has RF.REMOTE_ADDR_BITMASK),
      loc := initEndpoint loc.ep (flags.has RF.LOCAL_ADDR_BITMASK) }

/-- The check in front of the creation of a rule to insert (src/routes.c:1361-1363). -/
def routeNewForInsert (ev : Option Event) (remote loc : SockAddr) (flags : Flags) : Except Err Route :=
  if remote.family ≠ loc.family ∨ remote.proto ≠ loc.proto then .error .invalidArg
  else routeInit ev remote loc flags

/-- `clamp_wildcard_fields_to_zero` (src/routes.c:552-569). -/
def clampWildcards (r : Route) : Route :=
  let ra := if r.flags.has RF.SA_REMOTE_ADDR_WILDCARD then r.remote.addr.map (fun _ => 0#8) else r.remote.addr
  let la := if r.flags.has RF.SA_LOCAL_ADDR_WILDCARD then r.loc.addr.map (fun _ => 0#8) else r.loc.addr
  { r with
      family := if r.flags.has RF.SA_FAMILY_WILDCARD then 0 else r.family
      proto := if r.flags.has RF.SA_PROTO_WILDCARD then 0 else r.proto
      remote := { r.remote with
        addr := ra
        port := if r.flags.has RF.SA_REMOTE_PORT_WILDCARD then 0 else r.remote.port
        iface := if r.flags.has RF.REMOTE_INTERFACE_WILDCARD then 0 else r.remote.iface }
      loc := { r.loc with
        addr := la
        port := if r.flags.has RF.SA_LOCAL_PORT_WILDCARD then 0 else r.loc.port
        iface := if r.flags.has RF.LOCAL_INTERFACE_WILDCARD then 0 else r.loc.iface } }

/-! ### Actions attached to a rule's insertion and deletion -/

/-- The handlers of insert and delete actions, as functions of the rule and the results.
Simplification: they do not touch the table. -/
structure RuleActs where
  disabled : Nat → Bool := fun _ => false
  handler : ActionType → Nat → Route → Flags → Route × Flags × Option Err := fun _ _ r a => (r, a, none)

def RuleActs.env (A : RuleActs) : ActEnv Route where
  rule := fun r => r
  setRule := fun _ r => r
  disabled := fun _ i => A.disabled i
  countHit := fun r _ => r
  handler := A.handler

/-- `WOLFSENTRY_EVENTCONFIG` in force for a rule: its event's or the context's (src/routes.c:1213). -/
def configOf (g : EventConfig) (ev : Option Event) : EventConfig := (ev.bind (·.config)).getD g

/-! ### Purge list (src/routes.c:2992-3017) -/

/-- The walk of `wolfsentry_route_purge_list_insert` over the list: before the first entry with a
strictly earlier expiry. -/
def purgeSplice (expiry : Nat → Int) (id : Nat) (t : Int) : List Nat → List Nat
  | [] => [id]
  | x :: rest => if expiry x < t then id :: x :: rest else x :: purgeSplice expiry id t rest

/-- `wolfsentry_route_purge_list_insert` (src/routes.c:2992-3002). -/
def RouteTable.purgeInsert (T : RouteTable) (id : Nat) (t : Int) : RouteTable :=
  { T with purgeList := purgeSplice T.expiry id t T.purgeList }

/-- `wolfsentry_list_ent_delete` on the purge list. -/
def RouteTable.purgeRemove (T : RouteTable) (id : Nat) : RouteTable :=
  { T with purgeList := T.purgeList.filter (fun x => x != id) }

/-- Change of a rule's expiry with requeueing: `wolfsentry_route_purge_time_set` (src/routes.c:3004-3017),
also inlined at 1278-1283 and 2146-2150. -/
def RouteTable.setExpiry (T : RouteTable) (r : Route) (t : Int) : RouteTable :=
  let T := if r.data.purgeAfter ≠ 0 then T.purgeRemove r.id else T
  let T := T.update { r with data := { r.data with purgeAfter := t } }
  if t ≠ 0 then T.purgeInsert r.id t else T

/-- What a hit does to the expiry of a rule that has one (src/routes.c:2396-2420): if the new expiry
(`last hit + idle time + 60 s`) is at least 60 s later than the old one it is stored, and the rule is
requeued — unless it is the last of the queue, which then keeps its place. -/
def RouteTable.hitExpiry (T : RouteTable) (r : Route) (idle lastHit : Int) : RouteTable :=
  let t := lastHit + idle + 60000000
  if r.data.purgeAfter ≠ 0 ∧ t - r.data.purgeAfter ≥ 60000000 then
    let T1 := T.update { r with data := { r.data with purgeAfter := t } }
    if T.purgeList.getLast? = some r.id then T1 else (T1.purgeRemove r.id).purgeInsert r.id t
  else T

/-! ### Deletion (src/routes.c:2117-2226) -/

/-- Recomputation of `highest_priority_route_in_table` over the remaining rules
(src/routes.c:2197-2213), with its early exit. -/
def recomputeHighest (old : Nat) : List Route → Nat → Nat
  | [], n => n
  | r :: rest, n =>
    if r.effPriority < n then
      if r.effPriority ≤ old then r.effPriority else recomputeHighest old rest r.effPriority
    else recomputeHighest old rest n

/-- 60 s in microseconds (src/routes.c:2141, and `WOLFSENTRY_ROUTE_PURGE_MARGIN_SECONDS`). -/
def sixtySeconds : Int := 60000000

/-- What a deletion did. -/
inductive DelOk where
  | deleted | deferred
  deriving DecidableEq, Repr

/-- Unlinking part of `wolfsentry_route_delete_0` (src/routes.c:2154-2170, 2187-2217): out of the
table, bitmask reference, purge list, `last_af_wildcard_route` (whose `prev` link the unlink has
cleared) and highest priority. -/
def RouteTable.removeRule (T : RouteTable) (r : Route) : RouteTable :=
  let ents := T.ents.filter (fun x => x.id != r.id)
  { T with
      ents := ents
      bitmaskAfs := if r.hasBitmask then (match downref r.family T.bitmaskAfs with | .ok l => l | .error _ => T.bitmaskAfs)
                    else T.bitmaskAfs
      purgeList := if r.data.purgeAfter ≠ 0 then T.purgeList.filter (fun x => x != r.id) else T.purgeList
      lastAfWildcard := if T.lastAfWildcard = some r.id then none else T.lastAfWildcard
      highestPriority := if r.effPriority = T.highestPriority then recomputeHighest T.highestPriority ents 65535
                         else T.highestPriority }

/-- Delete actions of the rule's event, on the unlinked rule (src/routes.c:2172-2185); failures are
only logged. -/
def deleteActions (g : EventConfig) (A : RuleActs) (r : Route) (ares : Flags) : RunRes Route :=
  match r.event with
  | some e =>
    if e.deleteActions.length > 0 then listDispatch A.env g e .delete r ares
    else { called := [], st := r, ares := ares, err := none }
  | none => { called := [], st := r, ares := ares, err := none }

/-- `wolfsentry_route_delete_0` (src/routes.c:2117-2226) on a rule of the table. -/
def delete0 (g : EventConfig) (A : RuleActs) (T : RouteTable) (r : Route) (ares : Flags) (defer : Bool) :
    RouteTable × Flags × DelOk :=
  if defer ∧ r.data.connectionCount > 0 then
    let r1 := { r with flags := r.flags ||| RF.PENDING_DELETE }
    let t := r.data.lastHitTime + sixtySeconds
    (if r.data.purgeAfter < t then (T.update r1).setExpiry r1 t else T.update r1, ares, .deferred)
  else
    let r1 := { r with flags := r.flags &&& ~~~RF.IN_TABLE }
    let d := deleteActions g A r1 ares
    (T.removeRule r, d.ares, .deleted)

/-- `wolfsentry_route_delete_1` (src/routes.c:2228-2257): exact lookup, then deletion with deferral. -/
def deleteByKey (g : EventConfig) (A : RuleActs) (T : RouteTable) (key : Route) (ares : Flags) :
    RouteTable × Flags × Except Err DelOk :=
  match lookup T key true none 0 with
  | some (.ok (r, _)) =>
    let d := delete0 g A T r ares true
    (d.1, d.2.1, .ok d.2.2)
  | some (.error e) => (T, ares, .error e)
  | none => (T, ares, .error .itemNotFound)

/-- `wolfsentry_route_delete_by_id` (src/routes.c:2309-2342) for an ID of a rule of this table. -/
def deleteById (g : EventConfig) (A : RuleActs) (T : RouteTable) (id : Nat) (ares : Flags) :
    RouteTable × Flags × Except Err DelOk :=
  match T.get? id with
  | some r =>
    let d := delete0 g A T r ares true
    (d.1, d.2.1, .ok d.2.2)
  | none => (T, ares, .error .itemNotFound)

/-- `wolfsentry_route_flush_table` (src/routes.c:3172-3197, with 3155-3170): delete every rule, in
order, without deferral, clearing the stop bit each time. -/
def flushTable (g : EventConfig) (A : RuleActs) (T : RouteTable) (ares : Flags) : RouteTable × Flags :=
  T.ents.foldl (fun (x : RouteTable × Flags) r =>
    let d := delete0 g A x.1 r (x.2 &&& ~~~AR.STOP) false
    (d.1, d.2.1)) (T, ares)

/-! ### Purging (src/routes.c:3019-3150) -/

/-- How `wolfsentry_route_stale_purge_1` is called: all, one, one opportunistically (locks only),
one unconditionally. -/
inductive PurgeMode where
  | all | one | opportunistic | unconditional
  deriving DecidableEq, Repr

/-- The test that makes the loop skip the stalest rule — with `continue`, so that it looks at the
same rule again (src/routes.c:3073-3078). -/
def purgeSkip (T : RouteTable) (now : Int) (r : Route) : Bool :=
  decide (r.data.connectionCount > 0) && !r.flags.has RF.PENDING_DELETE &&
    (decide (T.maxPurgeableIdleTime = 0) || decide (now - r.data.lastHitTime > T.maxPurgeableIdleTime))

/-- The loop of `wolfsentry_route_stale_purge_1` (src/routes.c:3068-3101).  It need not terminate in C,
so the model takes fuel; `none` means the fuel ran out (or a dangling pointer was followed).
Result: table, results word, number of rules removed. -/
def purgeLoop (g : EventConfig) (A : RuleActs) (mode : PurgeMode) (now : Int) :
    (fuel : Nat) → RouteTable → Flags → Nat → Option (RouteTable × Flags × Nat)
  | 0, _, _, _ => none
  | fuel + 1, T, ares, n =>
    match T.purgeList.getLast? with
    | none => some (T, ares, n)
    | some id =>
      match T.get? id with
      | none => none
      | some r =>
        if mode ≠ .unconditional ∧ r.data.purgeAfter > now then some (T, ares, n)
        else if mode ≠ .unconditional ∧ purgeSkip T now r = true then purgeLoop g A mode now fuel T ares n
        else
          let d := delete0 g A T r ares false
          let ares' := d.2.1 &&& ~~~AR.STOP
          if mode = .all then purgeLoop g A mode now fuel d.1 ares' (n + 1)
          else some (d.1, ares', n + 1)

/-- `wolfsentry_route_stale_purge_1` (src/routes.c:3019-3112) with a table and the locks available. -/
def stalePurge (g : EventConfig) (A : RuleActs) (mode : PurgeMode) (now : Int) (fuel : Nat) (T : RouteTable) (ares : Flags) :
    Option (RouteTable × Flags × Except Err Unit) :=
  match T.purgeList.getLast? with
  | none => some (T, ares, .error .already)
  | some id =>
    if mode ≠ .unconditional ∧ T.expiry id > now then some (T, ares, .error .already)
    else
      match purgeLoop g A mode now fuel T ares 0 with
      | none => none
      | some (T', ares', n) => some (T', ares', if n > 0 then .ok () else .error .already)

/-! ### Insertion (src/routes.c:1202-1345) -/

/-- Scan and splice of the sorted table (src/wolfsentry_internal.c:36-62), as `keySplice` of
`Model/Table.lean`.  `none`: a rule with the same key is there. -/
def routeSplice (r : Route) : List Route → Option (List Route)
  | [] => some [r]
  | x :: rest =>
    match routeKeyCmp x r with
    | .lt => (routeSplice r rest).map (x :: ·)
    | .eq => none
    | .gt => some (r :: x :: rest)

inductive InsOk where
  | inserted | alreadyOk (id : Nat)
  deriving DecidableEq, Repr

structure InsRes where
  T : RouteTable
  /-- the rule object passed in, as it is left -/
  rule : Route
  ares : Flags
  res : Except Err InsOk
  /-- insert actions called -/
  called : List Nat := []
  /-- the error comes from the insert actions -/
  actionsFailed : Bool := false

/-- Everything up to the table: flag changes of the configuration, checks, clamping, counters,
expiry (src/routes.c:1213-1246). -/
def insertPrepare (g : EventConfig) (now : Int) (r0 : Route) (ares : Flags) : Except Err Route :=
  let c := configOf g r0.event
  let f := (r0.flags &&& ~~~c.routeFlagsToClear) ||| c.routeFlagsToAdd
  if !flagsSensical f then .error .invalidArg
  else if f.hasAll RF.IN_TABLE then .error .itemAlreadyPresent
  else if r0.data.purgeAfter ≠ 0 ∧ r0.data.purgeAfter ≤ now then .error .invalidArg
  else
    let r := clampWildcards { r0 with flags := f }
    let d := r.data
    .ok { r with data := { d with
      insertTime := now
      derogatoryCount := if ares.has AR.DEROGATORY then (d.derogatoryCount + 1) % 65536 else d.derogatoryCount
      commendableCount := if ares.has AR.COMMENDABLE then (d.commendableCount + 1) % 65536 else d.commendableCount
      connectionCount := if ares.has AR.CONNECT ∧ f.has RF.DONT_COUNT_CURRENT_CONNECTIONS = false
        then (d.connectionCount + 1) % 65536 else d.connectionCount
      purgeAfter := if c.routeIdleTimeForPurge > 0 ∧ d.purgeAfter = 0 then now + c.routeIdleTimeForPurge
        else d.purgeAfter } }

/-- Eviction of the stalest rule when the purge list is full (src/routes.c:1248-1261). -/
def insertEvict (g : EventConfig) (A : RuleActs) (now : Int) (T : RouteTable) (r : Route) : Option (RouteTable × Except Err Unit) :=
  if r.data.purgeAfter ≠ 0 ∧ T.maxPurgeableRoutes > 0 ∧ T.purgeList.length ≥ T.maxPurgeableRoutes then
    (stalePurge g A .unconditional now 1 T 0).map (fun x => (x.1, x.2.2))
  else some (T, .ok ())

/-- After the splice: `last_af_wildcard_route` and the highest priority (src/routes.c:1328-1342). -/
def RouteTable.noteInserted (T : RouteTable) (r : Route) : RouteTable :=
  { T with
      lastAfWildcard :=
        if r.flags.has RF.SA_FAMILY_WILDCARD then
          (match T.lastAfWildcard.bind T.get? with
          | none => some r.id
          | some l => if routeKeyCmp r l = .lt then some r.id else T.lastAfWildcard)
        else T.lastAfWildcard
      highestPriority := if r.effPriority < T.highestPriority then r.effPriority else T.highestPriority }

/-- Insert actions of the rule's event (src/routes.c:1302-1326). -/
def insertActions (g : EventConfig) (A : RuleActs) (r : Route) (ares : Flags) : RunRes Route :=
  match r.event with
  | some e =>
    if e.insertActions.length > 0 then listDispatch A.env g e .insert r ares
    else { called := [], st := r, ares := ares, err := none }
  | none => { called := [], st := r, ares := ares, err := none }

/-- The prepared rule with its ID, marked as in the table (src/routes.c:1263-1265). -/
def enterTable (r0 : Route) (id : Nat) : Route := { r0 with id := id, flags := r0.flags ||| RF.IN_TABLE }

/-- Bitmask references after inserting `r` (src/routes.c:1292-1298). -/
def insertAfs (T : RouteTable) (r : Route) : Except Err (List (Nat × Nat)) :=
  if r.hasBitmask then upref r.family T.bitmaskAfs else .ok T.bitmaskAfs

/-- The rest of `wolfsentry_route_insert_1` once the rule is prepared and room has been made
(src/routes.c:1262-1345).  `newId` is what `wolfsentry_id_allocate` returns (C04). -/
def insertCommit (g : EventConfig) (A : RuleActs) (T : RouteTable) (r0 : Route) (newId : Except Err Nat) (ares : Flags) : InsRes :=
  match newId with
  | .error e => { T := T, rule := r0, ares := ares, res := .error e }
  | .ok id =>
    let r := enterTable r0 id
    match routeSplice r T.ents with
    | none =>
      -- a rule with the same key is there
      let rule := { r0 with id := 0, flags := r0.flags &&& ~~~RF.IN_TABLE }
      match T.ents.find? (fun x => routeKeyCmp x r == .eq) with
      | none => { T := T, rule := rule, ares := ares, res := .error .itemNotFound }
      | some old =>
        if old.flags.has RF.PENDING_DELETE then
          let old' := { old with flags := old.flags &&& ~~~RF.PENDING_DELETE }
          { T := (T.update old').setExpiry old' r0.data.purgeAfter, rule := rule, ares := ares, res := .ok (.alreadyOk old.id) }
        else { T := T, rule := rule, ares := ares, res := .error .itemAlreadyPresent }
    | some ents =>
      let T1 := { T with ents := ents }
      match insertAfs T r with
      | .error e => { T := T, rule := { r with id := 0 }, ares := ares, res := .error e }
      | .ok afs =>
        let T2 := { T1 with bitmaskAfs := afs }
        let a := insertActions g A r (ares ||| AR.INSERTED)
        match a.err with
        | none =>
          let T3 := T2.update a.st
          let T4 := if a.st.data.purgeAfter ≠ 0 then T3.purgeInsert a.st.id a.st.data.purgeAfter else T3
          { T := T4.noteInserted a.st, rule := a.st, ares := a.ares, res := .ok .inserted, called := a.called }
        | some e =>
          -- unlinked again, but queued and noted all the same
          let T3 := { T2 with ents := T.ents }
          let T4 := if a.st.data.purgeAfter ≠ 0 then T3.purgeInsert a.st.id a.st.data.purgeAfter else T3
          { T := T4.noteInserted a.st, rule := { a.st with flags := a.st.flags &&& ~~~RF.IN_TABLE },
            ares := a.ares, res := .error e, called := a.called, actionsFailed := true }

/-- `wolfsentry_route_insert_1` (src/routes.c:1202-1345).  `none` only when the eviction follows a
dangling pointer. -/
def insert1 (g : EventConfig) (A : RuleActs) (T : RouteTable) (r0 : Route) (now : Except Err Int) (newId : Except Err Nat)
    (ares : Flags) : Option InsRes :=
  match now with
  | .error e =>
    -- the checks before the clock is read
    (match insertPrepare g 0 { r0 with data := { r0.data with purgeAfter := 0 } } ares with
    | .error x => some { T := T, rule := r0, ares := ares, res := .error x }
    | .ok _ => some { T := T, rule := r0, ares := ares, res := .error e })
  | .ok t =>
    match insertPrepare g t r0 ares with
    | .error e => some { T := T, rule := r0, ares := ares, res := .error e }
    | .ok r =>
      match insertEvict g A t T r with
      | none => none
      | some (T1, .error e) => some { T := T1, rule := r, ares := ares, res := .error e }
      | some (T1, .ok ()) => some (insertCommit g A T1 r newId ares)

/-! ### Flags (src/routes.c:3286-3334) -/

/-- `wolfsentry_route_update_flags` (src/routes.c:3303-3334): new rule, results, and the reported
flags before and after. -/
def updateFlags (r : Route) (set clear : Flags) (now : Except Err Int) (ares : Flags) :
    Except Err (Route × Flags × Flags × Flags) :=
  if (set &&& (RF.PENALTYBOXED ||| RF.GREENLISTED)) = (RF.PENALTYBOXED ||| RF.GREENLISTED) then .error .invalidArg
  else if (set ||| clear).has (RF.PENDING_DELETE ||| RF.IN_TABLE) then .error .notPermitted
  else if r.flags.has RF.IN_TABLE ∧ (set ||| clear).has RF.IMMUTABLE_FLAGS then .error .notPermitted
  else
    let f := Flags.setClear r.flags set clear
    let boxedAt := match now with
      | .ok t => if f.has RF.PENALTYBOXED ∧ r.flags.has RF.PENALTYBOXED = false then t else r.data.lastPenaltyboxTime
      | .error _ => r.data.lastPenaltyboxTime
    .ok ({ r with flags := f, data := { r.data with lastPenaltyboxTime := boxedAt } },
      if f ≠ r.flags then ares ||| AR.UPDATE else ares, r.flags, f)

/-- `wolfsentry_route_table_default_policy_set` (src/routes.c:1981-1990). -/
def defaultPolicySet (T : RouteTable) (p : Flags) : Except Err RouteTable :=
  if p &&& ~~~AR.DEFAULT_POLICY_MASK ≠ 0 then .error .invalidArg else .ok { T with defaultPolicy := p }

/-- `wolfsentry_route_table_max_purgeable_routes_set` (src/routes.c:2049-2069): store the limit and, if
it was lowered below the number of purgeable rules, purge what has expired.  `none`: the purge does
not return. -/
def maxPurgeableSet (g : EventConfig) (A : RuleActs) (now : Int) (fuel : Nat) (T : RouteTable) (n : Nat) :
    Option (RouteTable × Except Err Unit) :=
  let T' := { T with maxPurgeableRoutes := n }
  if T.maxPurgeableRoutes > n ∧ T.purgeList.length > n then
    (stalePurge g A .all now fuel T' 0).map (fun x => (x.1, x.2.2))
  else some (T', .ok ())

/-! ### Bulk insert actions (src/routes.c:3199-3268) -/

/-- `wolfsentry_route_bulk_clear_insert_action_status` (src/routes.c:3199-3224). -/
def bulkClearInsertStatus (T : RouteTable) : RouteTable :=
  { T with ents := T.ents.map (fun r => { r with flags := r.flags &&& ~~~RF.INSERT_ACTIONS_CALLED }) }

/-- `wolfsentry_table_map` (src/wolfsentry_internal.c:623-645) with `wolfsentry_route_call_insert_action`
(src/routes.c:3230-3252): `ALREADY` is not an error.  Result: rules, results word, error, and for
each rule whose handlers were called its ID with the actions called. -/
def bulkInsertLoop (g : EventConfig) (A : RuleActs) : List Route → Flags →
    List Route × Flags × Option Err × List (Nat × List Nat)
  | [], ares => ([], ares, none, [])
  | r :: rest, ares =>
    let a := insertActions g A r ares
    match a.err with
    | some e =>
      if e = .already then
        let q := bulkInsertLoop g A rest a.ares
        (a.st :: q.1, q.2.1, q.2.2.1, (r.id, a.called) :: q.2.2.2)
      else (a.st :: rest, a.ares, some e, [(r.id, a.called)])
    | none =>
      let q := bulkInsertLoop g A rest a.ares
      (a.st :: q.1, q.2.1, q.2.2.1, (r.id, a.called) :: q.2.2.2)

/-- `wolfsentry_route_bulk_insert_actions` (src/routes.c:3254-3268). -/
def bulkInsertActions (g : EventConfig) (A : RuleActs) (T : RouteTable) (ares : Flags) :
    RouteTable × Flags × Option Err × List (Nat × List Nat) :=
  let q := bulkInsertLoop g A T.ents ares
  ({ T with ents := q.1 }, q.2.1, q.2.2.1, q.2.2.2)

end WS
