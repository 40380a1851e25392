import Verif.Model.Dispatch
/-
Rule objects as they lie in memory, their export and re-creation from an export
(src/routes.c:785-946, 1007-1064, 1403-1510, 3269-3291, 3413-3491, 3541-3605; layout:
src/wolfsentry_internal.h:352-394), and the built-in action `%track-peer-v1`
(src/action_builtins.c:33-151).

Simplifications: reference counts are left out (Model/RefCount.lean); extra ports are never stored by
the pinned code, so they are left out; the test code under `WOLFSENTRY_ROUTE_INIT_TEST_FOR_UNINITED_DATA`
is left out.
-/
namespace WS

/-- `struct wolfsentry_route` with its data area (src/wolfsentry_internal.h:352-387): the private data
of `off` bytes (`data_addr_offset`), then the remote address, then the local address, then what the
allocation has more. -/
structure RouteObj where
  event : Option Event := none
  flags : Flags := 0
  family : Nat := 0
  proto : Nat := 0
  rport : Nat := 0
  rbits : Nat := 0
  riface : Nat := 0
  lport : Nat := 0
  lbits : Nat := 0
  liface : Nat := 0
  info : RouteMeta := {}
  off : Nat := 0
  data : List Byte := []
  deriving DecidableEq, Repr

/-- `WOLFSENTRY_ROUTE_REMOTE_ADDR(r)`, the bytes in use (src/wolfsentry_internal.h:389-391). -/
def RouteObj.remoteAddr (o : RouteObj) : List Byte := (o.data.drop o.off).take (bitsToBytes o.rbits)

/-- `WOLFSENTRY_ROUTE_LOCAL_ADDR(r)`: behind the remote address, wherever the remote length says that
ends (src/wolfsentry_internal.h:392-394). -/
def RouteObj.localAddr (o : RouteObj) : List Byte := (o.data.drop (o.off + bitsToBytes o.rbits)).take (bitsToBytes o.lbits)

/-- What the rest of the library reads from the object. -/
def RouteObj.view (o : RouteObj) : Route :=
  { event := o.event, flags := o.flags, family := o.family, proto := o.proto,
    remote := { port := o.rport, bits := o.rbits, iface := o.riface, addr := o.remoteAddr },
    loc := { port := o.lport, bits := o.lbits, iface := o.liface, addr := o.localAddr },
    data := o.info }

/-- `memcpy` into the data area. -/
def writeAt (data : List Byte) (pos : Nat) (bytes : List Byte) : List Byte :=
  data.take pos ++ bytes ++ data.drop (pos + bytes.length)

/-- `struct wolfsentry_route_exports` (wolfsentry/wolfsentry.h:1118-1147); the endpoints carry the bytes
`remote_address` and `local_address` point to. -/
structure RouteExports where
  label : Option (List Byte) := none
  flags : Flags := 0
  family : Nat := 0
  proto : Nat := 0
  remote : Endpoint := {}
  loc : Endpoint := {}
  info : RouteMeta := {}
  /-- `private_data` (NULL: none) -/
  priv : Option (List Byte) := none
  /-- `private_data_size` -/
  privSize : Nat := 0
  deriving DecidableEq, Repr

/-- `route_private_data_size` and `route_private_data_padding` of the configuration in force for the
event (src/wolfsentry_internal.h:315-320); the size includes the padding (C41). -/
structure PrivCfg where
  size : Option Event → Nat := fun _ => 0
  padding : Option Event → Nat := fun _ => 0

/-- `wolfsentry_route_get_private_data` (src/routes.c:3269-3283). -/
def getPrivateData (P : PrivCfg) (o : RouteObj) : Except Err (List Byte) :=
  if P.size o.event = 0 then .error .dataMissing
  else .ok ((o.data.drop (P.padding o.event)).take (P.size o.event - P.padding o.event))

/-- `wolfsentry_route_export` (src/routes.c:3567-3605), with `wolfsentry_route_get_metadata` (3463-3483).
Label pointers always point to the event's label. -/
def routeExport (P : PrivCfg) (o : RouteObj) : RouteExports :=
  { label := o.event.map (·.label), flags := o.flags, family := o.family, proto := o.proto,
    remote := { port := o.rport, bits := o.rbits, iface := o.riface, addr := o.remoteAddr },
    loc := { port := o.lport, bits := o.lbits, iface := o.liface, addr := o.localAddr },
    info := o.info,
    priv := if P.size o.event = 0 then none
      else some ((o.data.drop (P.padding o.event)).take (P.size o.event - P.padding o.event)),
    privSize := if P.size o.event = 0 then 0 else P.size o.event - P.padding o.event }

/-- `wolfsentry_route_reset_metadata_exports` (src/routes.c:3485-3491). -/
def resetMetadata (x : RouteExports) : RouteExports :=
  { x with info := { x.info with purgeAfter := 0, connectionCount := 0, derogatoryCount := 0, commendableCount := 0 } }

/-- The private part of the data area (src/routes.c:862-869): the private data at its start, zeroes
behind. -/
def privArea (x : RouteExports) (off : Nat) : List Byte :=
  match x.priv with
  | some p => p.take x.privSize ++ List.replicate (off - x.privSize) 0
  | none => List.replicate off 0

/-- Mask or padding applied to the stored address of `bits` bits at `pos` (src/routes.c:889-921). -/
def normaliseAt (data : List Byte) (pos bits : Nat) (bitmask : Bool) : List Byte :=
  let a := (data.drop pos).take (bitsToBytes bits)
  writeAt data pos (if bitmask then maskAddr a (bitsToBytes bits / 2) else padAddr a bits)

/-- The stores of `wolfsentry_route_init_by_exports` into the data area (src/routes.c:862-921) of an
allocation that holds `mem`. -/
def fillData (x : RouteExports) (off : Nat) (mem : List Byte) : List Byte :=
  let rb := bitsToBytes x.remote.bits
  let d := if off > 0 then writeAt mem 0 (privArea x off) else mem
  let d := if x.remote.bits > 0 then writeAt d off x.remote.addr else d
  let d := if x.loc.bits > 0 then writeAt d (off + rb) x.loc.addr else d
  let d := normaliseAt d off x.remote.bits (x.flags.has RF.REMOTE_ADDR_BITMASK)
  normaliseAt d (off + rb) x.loc.bits (x.flags.has RF.LOCAL_ADDR_BITMASK)

/-- `wolfsentry_route_init_by_exports` (src/routes.c:785-946): `off` is `data_addr_offset`, `mem` the data
area of the new object as the allocator left it. -/
def initByExports (ev : Option Event) (x : RouteExports) (off : Nat) (mem : List Byte) : Except Err RouteObj :=
  if bitsToBytes x.remote.bits + bitsToBytes x.loc.bits > 65535 then .error .numericArgTooBig
  else if x.privSize > off then .error .invalidArg
  else if off > 65535 then .error .numericArgTooBig
  else if mem.length < off + bitsToBytes x.remote.bits + bitsToBytes x.loc.bits then .error .bufferTooSmall
  else if !x.flags.has (RF.DIRECTION_IN ||| RF.DIRECTION_OUT) then .error .invalidArg
  else if x.flags.has RF.REMOTE_ADDR_BITMASK ∧ x.remote.bits % 16 ≠ 0 then .error .invalidArg
  else if x.flags.has RF.LOCAL_ADDR_BITMASK ∧ x.loc.bits % 16 ≠ 0 then .error .invalidArg
  else if !flagsSensical x.flags then .error .invalidArg
  else .ok
    { event := ev, flags := x.flags &&& ~~~RF.INTERNAL_FLAGS, family := x.family, proto := x.proto,
      rport := x.remote.port, rbits := x.remote.bits, riface := x.remote.iface,
      lport := x.loc.port, lbits := x.loc.bits, liface := x.loc.iface,
      info := { purgeAfter := x.info.purgeAfter, connectionCount := x.info.connectionCount,
                derogatoryCount := x.info.derogatoryCount, commendableCount := x.info.commendableCount },
      off := off, data := fillData x off mem }

/-- `wolfsentry_route_new_by_exports` (src/routes.c:1007-1064).  `alloc n`: the allocator's block of `n`
bytes for the data area (the header in front of it is left out), or none. -/
def newByExports (P : PrivCfg) (alloc : Nat → Option (List Byte)) (ev : Option Event) (x : RouteExports) : Except Err RouteObj :=
  if x.privSize ≠ 0 ∧ x.privSize ≠ P.size ev - P.padding ev then .error .invalidArg
  else if x.flags.has RF.REMOTE_ADDR_BITMASK ∧ x.remote.bits % 16 ≠ 0 then .error .invalidArg
  else if x.flags.has RF.LOCAL_ADDR_BITMASK ∧ x.loc.bits % 16 ≠ 0 then .error .invalidArg
  else if bitsToBytes x.remote.bits + bitsToBytes x.loc.bits > 65535 then .error .stringArgTooLong
  else
    match alloc (bitsToBytes x.remote.bits + bitsToBytes x.loc.bits + P.size ev) with
    | none => .error .sysResourceFailed
    | some mem => initByExports ev x (P.size ev) mem

/-- What a call needs from its surroundings. -/
structure InsEnv where
  g : EventConfig := {}
  acts : RuleActs := {}
  priv : PrivCfg := {}
  /-- whether the lock is obtained (src/routes.c:1493) -/
  lock : Except Err Unit := .ok ()
  /-- event lookup by label -/
  resolve : List Byte → Except Err Event := fun _ => .error .itemNotFound
  alloc : Nat → Option (List Byte) := fun n => some (List.replicate n 0)
  now : Except Err Int := .ok 0
  newId : Except Err Nat := .ok 1

/-- What the caller of an insertion by exports gets. -/
structure ExpRes where
  T : RouteTable
  /-- `*action_results`: `none` when it was not written -/
  ares : Option Flags := none
  res : Except Err InsOk
  /-- the new object as it was created -/
  obj : Option RouteObj := none
  /-- the rule as it entered the table -/
  rule : Route := {}
  called : List Nat := []
  actionsFailed : Bool := false

/-- The event an export names (src/routes.c:1495-1498). -/
def eventOf (resolve : List Byte → Except Err Event) : Option (List Byte) → Except Err (Option Event)
  | none => .ok none
  | some l => (resolve l).map some

/-- `wolfsentry_route_insert_by_exports_into_table` (src/routes.c:1482-1506) with
`wolfsentry_route_insert_by_exports_2` (1403-1451).  `none` only when the eviction of the stalest rule
follows a dangling pointer. -/
def insertByExports (N : InsEnv) (T : RouteTable) (x : RouteExports) : Option ExpRes :=
  match N.lock with
  | .error e => some { T := T, res := .error e }
  | .ok () =>
    match eventOf N.resolve x.label with
    | .error e => some { T := T, res := .error e }
    | .ok ev =>
      match newByExports N.priv N.alloc ev x with
      | .error e => some { T := T, ares := some 0, res := .error e }
      | .ok o =>
        (insert1 N.g N.acts T o.view N.now N.newId 0).map fun i =>
          { T := i.T, ares := some i.ares, res := i.res, obj := some o, rule := i.rule, called := i.called, actionsFailed := i.actionsFailed }

/-! ### `wolfsentry_route_set_wildcard` (src/routes.c:3413-3456) -/

/-- `wolfsentry_route_set_wildcard` (src/routes.c:3413-3456). -/
def setWildcard (o : RouteObj) (w : Flags) : Except Err RouteObj :=
  if o.flags.has RF.IN_TABLE then .error .notPermitted
  else
    let o := if w.has RF.PARENT_EVENT_WILDCARD then { o with flags := o.flags ||| RF.PARENT_EVENT_WILDCARD } else o
    let o := if w.has RF.REMOTE_INTERFACE_WILDCARD then { o with flags := o.flags ||| RF.REMOTE_INTERFACE_WILDCARD, riface := 0 } else o
    let o := if w.has RF.LOCAL_INTERFACE_WILDCARD then { o with flags := o.flags ||| RF.LOCAL_INTERFACE_WILDCARD, liface := 0 } else o
    let o := if w.has RF.SA_FAMILY_WILDCARD then { o with flags := o.flags ||| RF.SA_FAMILY_WILDCARD, family := 0 } else o
    let o := if w.has RF.SA_REMOTE_ADDR_WILDCARD then { o with flags := o.flags ||| RF.SA_REMOTE_ADDR_WILDCARD, rbits := 0 } else o
    let o := if w.has RF.SA_LOCAL_ADDR_WILDCARD then { o with flags := o.flags ||| RF.SA_LOCAL_ADDR_WILDCARD, lbits := 0 } else o
    let o := if w.has RF.SA_PROTO_WILDCARD then { o with flags := o.flags ||| RF.SA_PROTO_WILDCARD, proto := 0 } else o
    let o := if w.has RF.SA_REMOTE_PORT_WILDCARD then { o with flags := o.flags ||| RF.SA_REMOTE_PORT_WILDCARD, rport := 0 } else o
    let o := if w.has RF.SA_LOCAL_PORT_WILDCARD then { o with flags := o.flags ||| RF.SA_LOCAL_PORT_WILDCARD, lport := 0 } else o
    .ok o

/-! ### The built-in action (src/action_builtins.c:33-151) -/

/-- What the action needs besides its arguments. -/
structure TrackEnv where
  /-- surroundings of the insertion; the allocated ID depends on what is in the table -/
  ins : RouteTable → InsEnv := fun _ => {}
  /-- `wolfsentry_event_get_aux_event` (src/events.c) -/
  aux : Event → Option Event := fun _ => none
  /-- what the stack holds at `insert_action_results`, which is not initialised
  (src/action_builtins.c:50) -/
  junk : Flags := 0

/-- The label the new rule gets its event by (src/action_builtins.c:98-111): the auxiliary event of the
rule's event, else the rule's event.  Labels hold no NUL, so `WOLFSENTRY_LENGTH_NULL_TERMINATED` is the
whole label. -/
def trackLabel (aux : Event → Option Event) (rule : Route) : Option (List Byte) :=
  match rule.event with
  | none => none
  | some e =>
    match aux e with
    | some x => some x.label
    | none => some e.label

/-- The export handed to the insertion (src/action_builtins.c:84-118). -/
def trackExports (P : PrivCfg) (aux : Event → Option Event) (target : RouteObj) (rule : Route) : RouteExports :=
  resetMetadata { routeExport P target with label := trackLabel aux rule, priv := none, privSize := 0 }

/-- `wolfsentry_builtin_action_track_peer` (src/action_builtins.c:33-134) on the table `T`, for the traffic
`target` that met `rule`.  It always returns success.  `none` as in `insertByExports`. -/
def trackPeer (X : TrackEnv) (target : RouteObj) (rule : Route) (T : RouteTable) (a : Flags) : Option (RouteTable × Flags) :=
  if target.flags.has (RF.IN_TABLE ||| RF.PENDING_DELETE) then some (T, a)
  else
    (insertByExports (X.ins T) T (trackExports (X.ins T).priv X.aux target rule)).map fun r =>
      (r.T, a ||| r.ares.getD X.junk)

/-- The action as a handler in a dispatch for the traffic `target`.  Simplification: when the eviction
follows a dangling pointer the world is left alone (excluded for the tables that calls can produce, C14). -/
def trackHandler {σ : Type} (X : TrackEnv) (target : RouteObj) (ref : RuleRef) (w : World σ) (a : Flags) : World σ × Flags × Option Err :=
  match w.get ref with
  | none => (w, a, none)
  | some r =>
    match trackPeer X target r w.T a with
    | none => (w, a, none)
    | some (T, a') => ({ w with T := T }, a', none)

end WS
