import Verif.Model.ConfigText
import Verif.Model.Context
import Verif.Model.RouteOps
/-
Loading a configuration into a context: the library calls of the loader on a context, cloning, the commit of a load
(src/json/load_config.c:1698-2070; src/wolfsentry_util.c:3786-3970).

A context is held by value: rules carry their event, so a change to an event is a change in every place that refers to it;
a rule is taken to refer to the event of the table with its event's label, if there is one.
Simplifications: memory and locks are available (clone and lock failures: C45, C19, C82); address families, the ID index
and the links between events (`aux_event`) are left out; clock and ID generator are functions of the number of calls made
and of the generator's state; how user values are stored is a parameter (C16).
-/
namespace WS.LT
open WS WS.Conf WS.Sax WS.Time WS.ConfNum

/-- `struct wolfsentry_context` (src/wolfsentry_internal.h:475-496), without lock, cleanup hooks, address families and ID
index.  `hpi` stands for the bytes of the host platform interface, `mkIdCb` for the ID callback; actions are label and
identity. -/
structure Cx where
  hpi : Nat := 0
  mkIdCb : Nat := 0
  idState : Nat := 0
  config : CfgInt := {}
  config0 : CfgInt := {}
  events : List Event := []
  actions : List (List Byte × Nat) := []
  routes : RouteTable := {}
  values : List (List Byte × UserValue) := []
  /-- the default event has been taken out of the table of events, which may have another one with its label -/
  dfltStale : Bool := false

/-- Handlers that were run for a rule, in order. -/
structure Ran where
  type : ActionType
  rule : Nat
  actions : List Nat
  deriving DecidableEq, Repr

/-- A context, the handlers run so far (oldest first), and the number of library calls made. -/
structure World where
  cx : Cx
  ran : List Ran := []
  tick : Nat := 0

/-- What the library depends on: layout, handlers, clock, `wolfsentry_id_allocate` (state to ID and new state), the table of
user values, and the external functions of the loader. -/
structure Host where
  plat : Plat
  acts : RuleActs := {}
  clock : Nat → Except Err Int
  newId : Nat → Except Err (Nat × Nat)
  store : List (List Byte × UserValue) → List Byte → UserValue → Except Err (List (List Byte × UserValue))
  ext : Env Unit

/-- A `struct wolfsentry_eventconfig` in the two forms used by the models (wolfsentry/wolfsentry.h:1212-1241). -/
def toCfg (c : EventConfig) : Cfg where
  privSize := c.privateDataSize
  privAlign := c.privateDataAlignment
  maxConn := c.maxConnectionCount
  derogThreshold := c.derogatoryThreshold
  boxDuration := c.penaltyboxDuration
  idleForPurge := c.routeIdleTimeForPurge
  cfgFlags := c.flags
  flagsAdd := c.routeFlagsToAdd
  flagsClear := c.routeFlagsToClear
  filterSet := c.filterBitsSet
  filterUnset := c.filterBitsUnset
  resAdd := c.resBitsToAdd
  resClear := c.resBitsToClear

/-- The other direction (wolfsentry/wolfsentry.h:1212-1241). -/
def ofCfg (c : Cfg) : EventConfig where
  privateDataSize := c.privSize
  privateDataAlignment := c.privAlign
  maxConnectionCount := c.maxConn
  derogatoryThreshold := c.derogThreshold
  penaltyboxDuration := c.boxDuration
  routeIdleTimeForPurge := c.idleForPurge
  flags := c.cfgFlags
  routeFlagsToAdd := c.flagsAdd
  routeFlagsToClear := c.flagsClear
  filterBitsSet := c.filterSet
  filterBitsUnset := c.filterUnset
  resBitsToAdd := c.resAdd
  resBitsToClear := c.resClear

/-- The configuration in force for rules without one of their own (`wolfsentry->config.config`). -/
def Cx.global (c : Cx) : EventConfig := ofCfg c.config.config

/-! ### Handlers run by the operations of the rule table -/

/-- A run is noted only when a handler was called. -/
def note (t : ActionType) (id : Nat) (called : List Nat) : List Ran := if called = [] then [] else [⟨t, id, called⟩]

/-- The delete handlers `wolfsentry_route_delete_0` runs for a rule (src/routes.c:2172-2185). -/
def deleteRuns (g : EventConfig) (A : RuleActs) (r : Route) (ares : Flags) : List Ran :=
  note .delete r.id (deleteActions g A { r with flags := r.flags &&& ~~~RF.IN_TABLE } ares).called

/-- `wolfsentry_route_flush_table` (src/routes.c:3172-3197): table, results, handlers run. -/
def flush (g : EventConfig) (A : RuleActs) (T : RouteTable) (ares : Flags) : RouteTable × Flags × List Ran :=
  T.ents.foldl (fun (x : RouteTable × Flags × List Ran) r =>
    let ares := x.2.1 &&& ~~~AR.STOP
    let d := delete0 g A x.1 r ares false
    (d.1, d.2.1, x.2.2 ++ deleteRuns g A r ares)) (T, ares, [])

/-- The delete handlers run by the loop of `wolfsentry_route_stale_purge_1` (src/routes.c:3068-3101), which is `purgeLoop`. -/
def purgeRuns (g : EventConfig) (A : RuleActs) (mode : PurgeMode) (now : Int) : Nat → RouteTable → Flags → List Ran
  | 0, _, _ => []
  | fuel + 1, T, ares =>
    match T.purgeList.getLast? with
    | none => []
    | some id =>
      match T.get? id with
      | none => []
      | some r =>
        if mode ≠ .unconditional ∧ r.data.purgeAfter > now then []
        else if mode ≠ .unconditional ∧ purgeSkip T now r = true then purgeRuns g A mode now fuel T ares
        else
          let d := delete0 g A T r ares false
          deleteRuns g A r ares ++
            (if mode = .all then purgeRuns g A mode now fuel d.1 (d.2.1 &&& ~~~AR.STOP) else [])

/-- The handlers run by `wolfsentry_route_insert_1` (src/routes.c:1248-1261, 1302-1326): those of the rule that is evicted,
then the insert handlers. -/
def insertRuns (g : EventConfig) (A : RuleActs) (T : RouteTable) (r0 : Route) (now : Except Err Int) (newId : Except Err Nat) :
    List Ran :=
  match now with
  | .error _ => []
  | .ok t =>
    match insertPrepare g t r0 0 with
    | .error _ => []
    | .ok r =>
      (if r.data.purgeAfter ≠ 0 ∧ T.maxPurgeableRoutes > 0 ∧ T.purgeList.length ≥ T.maxPurgeableRoutes then
        purgeRuns g A .unconditional t 1 T 0 else []) ++
      (match insert1 g A T r0 now newId 0 with
       | some res => note .insert res.rule.id res.called
       | none => [])

/-! ### The library calls of the loader -/

/-- `label` and `label_len` as the loader passes them. -/
def arg (l : List Byte) : LabelArg := { mem := some l, len := l.length }

/-- `wolfsentry_event_get_1` (src/events.c:320-342). -/
def Cx.event (c : Cx) (l : List Byte) : Except Err Event :=
  match labelCheck (arg l) with
  | .error e => .error e
  | .ok t => match c.events.find? (fun e => e.label == t) with
    | some e => .ok e
    | none => .error .itemNotFound

/-- A store to an event object: seen through the table of events, the rules and the default event. -/
def Cx.setEvent (c : Cx) (e : Event) : Cx :=
  let up (x : Event) : Event := if x.label == e.label then e else x
  { c with
      events := c.events.map up
      routes := { c.routes with
        ents := c.routes.ents.map (fun r => { r with event := r.event.map up })
        defaultEvent := if c.dfltStale then c.routes.defaultEvent else c.routes.defaultEvent.map up } }

/-- The splice of a new event into the sorted table (src/wolfsentry_internal.c:36-62, src/events.c:27-53). -/
def eventSplice (e : Event) : List Event → Option (List Event)
  | [] => some [e]
  | x :: rest =>
    match labelCmp x.label e.label with
    | .lt => (eventSplice e rest).map (x :: ·)
    | .eq => none
    | .gt => some (e :: x :: rest)

/-- `wolfsentry_id_allocate` (src/wolfsentry_internal.c:378-419): the ID and the context with the new generator state. -/
def Host.allocId (H : Host) (c : Cx) : Except Err Nat × Cx :=
  match H.newId c.idState with
  | .error e => (.error e, c)
  | .ok (id, s) => (.ok id, { c with idState := s })

/-- `wolfsentry_event_insert` (src/events.c:265-303). -/
def eventInsertC (H : Host) (c : Cx) (l : List Byte) (prio : Nat) (conf : Option EventConfig) : Cx × Option Err :=
  match labelIsBuiltin (arg l) with
  | .ok true => (c, some .notPermitted)
  | _ =>
    match labelCheck (arg l) with
    | .error e => (c, some e)
    | .ok t =>
      match newEventCfg H.plat (conf.map toCfg) with
      | .error e => (c, some e)
      | .ok i =>
        match H.allocId c with
        | (.error e, c) => (c, some e)
        | (.ok _, c) =>
          match eventSplice { label := t, priority := prio, config := i.map (fun i => ofCfg i.config) } c.events with
          | none => (c, some .itemAlreadyPresent)
          | some es => ({ c with events := es }, none)

/-- The action list of an event with one more action (src/actions.c:315-329): refused when it is there. -/
def appendAction (e : Event) (t : ActionType) (a : Nat) : Except Err Event :=
  if (e.actions t).contains a then .error .itemAlreadyPresent
  else .ok (match t with
    | .post => { e with postActions := e.postActions ++ [a] }
    | .insert => { e with insertActions := e.insertActions ++ [a] }
    | .match_ => { e with matchActions := e.matchActions ++ [a] }
    | .update => { e with updateActions := e.updateActions ++ [a] }
    | .delete => { e with deleteActions := e.deleteActions ++ [a] }
    | .decision => { e with decisionActions := e.decisionActions ++ [a] })

/-- `wolfsentry_event_action_append` (src/events.c:461-560) with `wolfsentry_action_list_append` (src/actions.c:331-351). -/
def actionAppendC (c : Cx) (l : List Byte) (t : ActionType) (al : List Byte) : Cx × Option Err :=
  match c.event l with
  | .error e => (c, some e)
  | .ok ev =>
    match labelCheck (arg al) with
    | .error e => (c, some e)
    | .ok al =>
      match c.actions.find? (fun a => a.1 == al) with
      | none => (c, some .itemNotFound)
      | some a =>
        match appendAction ev t a.2 with
        | .error e => (c, some e)
        | .ok ev' => (c.setEvent ev', none)

/-- The loop over the actions of another event (src/json/load_config.c:1190-1211). -/
def copyLoop (l : List Byte) (t : ActionType) : List Nat → Cx → Cx × Option Err
  | [], c => (c, none)
  | a :: as, c =>
    match c.actions.find? (fun x => x.2 == a) with
    | none => (c, some .itemNotFound)
    | some x =>
      match actionAppendC c l t x.1 with
      | (c, some e) => (c, some e)
      | (c, none) => copyLoop l t as c

/-- A socket address of the loader as `wolfsentry_route_insert` reads it (src/routes.c:639-783): the bytes its bit length calls
for. -/
def sockaddr (s : Sa) : SockAddr where
  family := s.family
  proto := s.proto
  ep := { addr := s.addr.take (bitsToBytes s.addrLen), bits := s.addrLen, port := s.port, iface := s.iface }

/-- `wolfsentry_route_insert` (src/routes.c:1454-1480, 1350-1400): the rule goes into the table, or is freed. -/
def routeInsertC (H : Host) (w : World) (remote loc : Sa) (flags : Flags) (l : List Byte) : World × Option Err :=
  let c := w.cx
  match (if l = [] then Except.ok none else (c.event l).map some) with
  | .error e => (w, some e)
  | .ok ev =>
    match routeNewForInsert ev (sockaddr remote) (sockaddr loc) flags with
    | .error e => (w, some e)
    | .ok r0 =>
      let now := H.clock w.tick
      let a := H.allocId c
      match insert1 c.global H.acts c.routes r0 now a.1 0 with
      | none => (w, some .internalCheckFatal)      -- a dangling pointer in the purge list: excluded by C39
      | some res =>
        ({ w with cx := { a.2 with routes := res.T }
                  ran := w.ran ++ insertRuns c.global H.acts c.routes r0 now a.1 },
         match res.res with | .ok _ => none | .error e => some e)

/-- `wolfsentry_route_table_max_purgeable_routes_set` (src/routes.c:2049-2069).  A purge that does not return (C63) is an
error here. -/
def maxPurgeableC (H : Host) (w : World) (n : Nat) : World × Option Err :=
  let c := w.cx
  match H.clock w.tick with
  | .error e =>
    ({ w with cx := { c with routes := { c.routes with maxPurgeableRoutes := n } } },
     if c.routes.maxPurgeableRoutes > n ∧ c.routes.purgeList.length > n then some e else none)
  | .ok now =>
    let fuel := 2 * c.routes.purgeList.length + 2
    match maxPurgeableSet c.global H.acts now fuel c.routes n with
    | none => (w, some .internalCheckFatal)
    | some (T, res) =>
      ({ w with cx := { c with routes := T }
                ran := w.ran ++ (if c.routes.maxPurgeableRoutes > n ∧ c.routes.purgeList.length > n then
                  (match c.routes.purgeList.getLast? with
                   | none => []
                   | some id => if c.routes.expiry id > now then []
                     else purgeRuns c.global H.acts .all now fuel { c.routes with maxPurgeableRoutes := n } 0) else []) },
       match res with | .ok _ => none | .error e => some e)

/-- The library call the loader makes, on the context it loads into (callers: src/json/load_config.c:480-535, 540-566, 982-998,
1093-1269, 1295-1500). -/
def libCall (H : Host) (w0 : World) (call : Call) : World × Option Err :=
  let w : World := { w0 with tick := w0.tick + 1 }
  let c := w.cx
  let put (x : Cx × Option Err) : World × Option Err := ({ w with cx := x.1 }, x.2)
  match call with
  | .defaultConfigUpdate conf =>
    put (match cfgUpdate H.plat (some (toCfg conf)) c.config with
      | .error e => (c, some e)
      | .ok i => ({ c with config := i }, none))
  | .defaultPolicySet p =>
    put (match WS.defaultPolicySet c.routes p with
      | .error e => (c, some e)
      | .ok T => ({ c with routes := T }, none))
  | .maxPurgeableRoutes n => maxPurgeableC H w n
  | .maxPurgeableIdleTime t => put ({ c with routes := { c.routes with maxPurgeableIdleTime := t } }, none)
  | .setDefaultEvent l =>
    put (match c.event l with
      | .error e => (c, some e)
      | .ok e => ({ c with routes := { c.routes with defaultEvent := some e }, dfltStale := false }, none))
  | .routeInsert remote loc flags l => routeInsertC H w remote loc flags l
  | .eventInsert l prio conf => put (eventInsertC H c l prio conf)
  | .eventUpdateConfig l conf =>
    put (match c.event l with
      | .error e => (c, some e)
      | .ok ev =>
        match cfgLoad H.plat (some (toCfg conf)) {} with
        | .error e => (c, some e)
        | .ok i => (c.setEvent { ev with config := some (ofCfg i.config) }, none))
  | .setAuxEvent l aux =>
    put (match c.event l with
      | .error e => (c, some e)
      | .ok _ => match c.event aux with
        | .error e => (c, some e)
        | .ok _ => (c, none))
  | .actionAppend l t al => put (actionAppendC c l t al)
  | .copyActions l t src =>
    put (match c.event src with
      | .error e => (c, some e)
      | .ok ev => copyLoop l t ev.postActions c)
  | .store k v =>
    put (match H.store c.values k v with
      | .error e => (c, some e)
      | .ok vs => ({ c with values := vs }, none))

/-- The loader's environment: the library and the external functions. -/
def Host.env (H : Host) : Env World where
  call := libCall H
  pton4 := H.ext.pton4
  pton6 := H.ext.pton6
  protoByName := H.ext.protoByName
  protoByNumber := H.ext.protoByNumber
  servByName := H.ext.servByName
  famByName := H.ext.famByName
  famMaxBits := H.ext.famMaxBits
  famParser := H.ext.famParser
  strtod := H.ext.strtod
  domRefuses := H.ext.domRefuses

/-! ### Operations on contexts -/

/-- `wolfsentry_context_inhibit_actions` (src/wolfsentry_util.c:3853-3863). -/
def inhibit (c : Cx) : Cx :=
  { c with config := { c.config with config := { c.config.config with cfgFlags := c.config.config.cfgFlags ||| EF.INHIBIT_ACTIONS } } }

/-- `wolfsentry_context_enable_actions` (src/wolfsentry_util.c:3865-3875). -/
def enable (c : Cx) : Cx :=
  { c with config := { c.config with config := { c.config.config with cfgFlags := c.config.config.cfgFlags &&& ~~~EF.INHIBIT_ACTIONS } } }

/-- `WOLFSENTRY_CLONE_FLAG_*` (wolfsentry/wolfsentry.h:1563-1569). -/
inductive CloneHow where
  | none | noRoutes | asAtCreation
  deriving DecidableEq, Repr

/-- The bookkeeping of `wolfsentry_table_clone` for one copied rule (src/wolfsentry_internal.c:185-194). -/
def noteClone (T : RouteTable) (r : Route) : RouteTable :=
  let T := if r.flags.has RF.SA_FAMILY_WILDCARD then { T with lastAfWildcard := some r.id } else T
  let T := if r.hasBitmask then
      (match upref r.family T.bitmaskAfs with
       | .ok l => { T with bitmaskAfs := l }
       | .error _ => T)
    else T
  if r.data.purgeAfter ≠ 0 then T.purgeInsert r.id r.data.purgeAfter else T

/-- The event of a table with the label of `e` (`wolfsentry_table_ent_get`, src/wolfsentry_internal.c:64-99). -/
def sameLabel (evs : List Event) (e : Event) : Option Event := evs.find? (fun x => x.label == e.label)

/-- The rule table of the clone (src/routes.c:4613-4668, src/wolfsentry_internal.c:101-211): idle limit not copied; a new table
for a clone as at creation. -/
def cloneRoutes (h : CloneHow) (evs : List Event) (T : RouteTable) : RouteTable :=
  match h with
  | .asAtCreation => {}
  | _ =>
    let D : RouteTable :=
      { maxPurgeableRoutes := T.maxPurgeableRoutes, defaultPolicy := T.defaultPolicy, defaultEvent := T.defaultEvent.bind (sameLabel evs),
        fallthroughRoute := T.fallthroughRoute }
    match h with
    | .none => T.ents.foldl noteClone { D with ents := T.ents, highestPriority := T.highestPriority }
    | _ => D

/-- `wolfsentry_context_clone` (src/wolfsentry_util.c:3881-3970) by value; that the clone is made of its own objects, and the
source untouched, is C45 (`Model/Clone.lean`).  Simplification: the rules' private data is left out. -/
def clone (h : CloneHow) (c : Cx) : Cx :=
  { hpi := c.hpi, mkIdCb := c.mkIdCb, idState := c.idState
    config := if h = .asAtCreation then c.config0 else c.config
    config0 := c.config0
    actions := c.actions
    events := if h = .asAtCreation then [] else c.events
    routes := cloneRoutes h c.events c.routes
    values := if h = .asAtCreation then [] else c.values }

/-- The event of the rule, if any, is in the table of events, by its label: the clone of the rule finds its event
(src/routes.c:1168-1180). -/
def eventKnown (c : Cx) (r : Route) : Bool :=
  match r.event with
  | some e => (sameLabel c.events e).isSome
  | none => true

/-- The default event can be found in the clone (src/routes.c:4629-4647). -/
def dfltKnown (c : Cx) : Bool :=
  match c.routes.defaultEvent with
  | some e => (sameLabel c.events e).isSome
  | none => true

/-- Can the clone be made (memory aside)? -/
def cloneable (h : CloneHow) (c : Cx) : Bool :=
  match h with
  | .asAtCreation => true
  | .noRoutes => dfltKnown c
  | .none => dfltKnown c && c.routes.ents.all (eventKnown c)

/-- What is seen of a clone that cannot be made: the rules cloned before the one that fails are flushed with the clone, in which
actions are not yet inhibited (src/wolfsentry_internal.c:167-211, src/wolfsentry_util.c:3960-3968, src/json/load_config.c:1791-1805). -/
def cloneUndo (A : RuleActs) (h : CloneHow) (c : Cx) : List Ran :=
  if h = .none && dfltKnown c then (flush c.global A { ents := c.routes.ents.takeWhile (eventKnown c) } 0).2.2 else []

/-- `wolfsentry_context_exchange` (src/wolfsentry_util.c:3973-4048): result and the two contexts (`ctxExchange` of
`Model/Context.lean` for the parts kept here). -/
def exchange (a b : Cx) : Option Err × Cx × Cx :=
  if a.hpi ≠ b.hpi ∨ a.mkIdCb ≠ b.mkIdCb then (some .invalidArg, a, b)
  else
    let b := { b with routes := copyMetadata a.routes b.routes }
    (none,
     { a with idState := b.idState, config := b.config, config0 := b.config0, events := b.events, actions := b.actions,
              routes := b.routes, values := b.values, dfltStale := b.dfltStale },
     { b with idState := a.idState, config := a.config, config0 := a.config0, events := a.events, actions := a.actions,
              routes := a.routes, values := a.values, dfltStale := a.dfltStale })

/-- The rule part of a flush: rules gone, delete handlers run (src/routes.c:3172-3197). -/
def flushRules (A : RuleActs) (w : World) : World :=
  let f := flush w.cx.global A w.cx.routes 0
  { w with cx := { w.cx with routes := f.1 }, ran := w.ran ++ f.2.2 }

/-- `wolfsentry_context_flush` (src/wolfsentry_util.c:3788-3803). -/
def contextFlush (A : RuleActs) (w : World) : World :=
  let w := flushRules A w
  { w with cx := { w.cx with events := [], values := [], dfltStale := true } }

/-- `wolfsentry_context_free` (src/wolfsentry_util.c:3805-3840): what is seen of it is the delete handlers of the rules. -/
def contextFree (A : RuleActs) (w : World) : World :=
  let w := flushRules A w
  { w with cx := { w.cx with actions := [], events := [], values := [] } }

/-! ### A load -/

/-- The load flags (wolfsentry/wolfsentry_json.h:55-75) that matter here; `fini` is set by a failing feed. -/
structure LoadFlags where
  noFlush : Bool := false
  dryRun : Bool := false
  thenCommit : Bool := false
  noRules : Bool := false
  onlyRoutes : Bool := false
  fini : Bool := false
  deriving DecidableEq, Repr

/-- Does the load work on a clone (load_config.c:1791)? -/
def LoadFlags.onClone (f : LoadFlags) : Bool := f.dryRun || f.thenCommit

/-- The kind of clone (load_config.c:1792-1799). -/
def LoadFlags.how (f : LoadFlags) : CloneHow :=
  if f.noFlush then .none else if f.onlyRoutes then .noRoutes else .asAtCreation

/-- `struct wolfsentry_json_process_state` (load_config.c:47-130) while a load is under way: the context given (`actual`), the
context worked on is in the parser's user data; for a load in place `actual` is not looked at. -/
structure Session where
  flags : LoadFlags
  json : Config
  actual : Cx
  parser : Parser (World × Res State)
  finiRet : Int := 0

/-- The parser configuration of a load without one (load_config.c:1715-1738). -/
def defaultJson : Config where
  maxTotalLen := 0
  maxTotalValues := 0
  maxNumberLen := 20
  maxStringLen := 16384
  maxKeyLen := 32
  maxNesting := 16
  flags := 15#32

/-- `wolfsentry_config_json_init_ex` (load_config.c:1698-1877). -/
def initLoad (H : Host) (f : LoadFlags) (json : Option Config) (w : World) : World × Except Err Session :=
  let json := json.getD defaultJson
  if json.maxKeyLen > 32 then (w, .error .numericArgTooBig)
  else if f.fini then (w, .error .invalidArg)
  else if f.onClone && !cloneable f.how w.cx then ({ w with ran := w.ran ++ cloneUndo H.acts f.how w.cx }, .error .itemNotFound)
  else
    let target : World := if f.onClone then { w with cx := inhibit (clone f.how w.cx) } else w
    let st := start f.noRules (ofCfg (cfgGet target.cx.config))
    let target := if f.onClone ∨ f.noFlush then target
      else if f.onlyRoutes then flushRules H.acts target else contextFlush H.acts target
    (if f.onClone then w else target,
     .ok { flags := f, json := json, actual := w.cx, parser := Sax.init (target, .ok st) })

/-- `wolfsentry_centijson_errcode_translate` (load_config.c) seen from the API: the loader's own error if it has one, else an
error of the parser.  Simplification: parser errors are all one code here (C80 has the table). -/
def sessionErr (r : Res State) : Err :=
  match r with
  | .err e => e
  | _ => .configParser

/-- `wolfsentry_config_json_feed` (load_config.c:1892-1924): a failure ends the parse; later feeds are refused. -/
def feedLoad (H : Host) (tail : Tail) (s : Session) (chunk : List Byte) : Session × Option Err :=
  if s.flags.fini then (s, some .invalidArg)
  else
    let p := feed s.json (loader H.env tail) s.parser chunk
    if p.err < 0 then
      let r := fini s.json (loader H.env tail) p
      ({ s with parser := { p with user := r.user }, finiRet := r.ret, flags := { s.flags with fini := true } },
       some (sessionErr r.user.2))
    else ({ s with parser := p }, none)

/-- The commit (load_config.c:1952-2000) of the loaded clone `nw`: result, the context given, and what is left in the clone.
Both tables of the comparison of deletions (1957-1966) are that of the context given, so it never makes a difference. -/
def commit (H : Host) (f : LoadFlags) (actual : Cx) (nw : World) : Option Err × World × Cx :=
  match exchange actual nw.cx with
  | (some e, a, b) => (some e, { nw with cx := a }, b)
  | (none, a, b) =>
    let full := !f.noFlush
    let a1 : Cx := if full then { a with routes := bulkClearInsertStatus a.routes } else a
    let old : World := if full then contextFlush H.acts { nw with cx := b } else { nw with cx := b }
    let a2 := enable a1
    let q := bulkInsertActions a2.global H.acts a2.routes 0
    (q.2.2.1,
     { cx := { a2 with routes := q.1 }, ran := old.ran ++ (q.2.2.2.flatMap fun x => note .insert x.1 x.2), tick := nw.tick },
     old.cx)

/-- `wolfsentry_config_json_fini` (load_config.c:1939-2023): the world afterwards and the result.  `w` is the world of the
context given (the handlers run so far are those of the session). -/
def finiLoad (H : Host) (tail : Tail) (s : Session) : World × Option Err :=
  let r : Int × (World × Res State) :=
    if s.flags.fini then (s.finiRet, s.parser.user)
    else let r := fini s.json (loader H.env tail) s.parser; (r.ret, r.user)
  let nw := r.2.1
  if r.1 < 0 then
    if s.flags.onClone then
      -- the clone is freed
      let left := contextFree H.acts nw
      ({ left with cx := s.actual }, some (sessionErr r.2.2))
    else (nw, some (sessionErr r.2.2))
  else if s.flags.dryRun then
    let left := contextFree H.acts nw
    ({ left with cx := s.actual }, none)
  else if s.flags.thenCommit then
    match commit H s.flags s.actual nw with
    | (e, w, old) =>
      let left := contextFree H.acts { w with cx := old }
      ({ left with cx := w.cx }, e)
  else (nw, none)

/-- `wolfsentry_config_json_oneshot_ex` (load_config.c:2025-2046). -/
def oneshot (H : Host) (tail : Tail) (f : LoadFlags) (json : Option Config) (w : World) (text : List Byte) : World × Option Err :=
  match initLoad H f json w with
  | (w, .error e) => (w, some e)
  | (_, .ok s) => finiLoad H tail (feedLoad H tail s text).1

end WS.LT
