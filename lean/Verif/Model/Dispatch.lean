import Verif.Model.RouteOps
/-
Dispatching an event on traffic: `wolfsentry_route_event_dispatch_0` and `_1` (src/routes.c:2350-2770),
their entry points (2772-2990).

The user's action handlers are arbitrary functions on the whole state (`World`): they may call any API
function, change or delete rules, change the results, and fail.  Simplification: one dispatch runs
without interference from other threads (concurrent counting is `Model/ConnCount.lean` and
`Model/Atomic.lean`).  A dispatch that follows a dangling pointer or does not return is `none`.
-/
namespace WS

/-- Rule objects a dispatch works on, and everything else (`ext`) the handlers can reach. -/
structure World (σ : Type) where
  T : RouteTable
  /-- the rule made up for unmatched traffic (src/routes.c:2728-2744) -/
  eph : Route := {}
  /-- `route_table->fallthrough_route` (allocated by src/routes.c:1066-1096); whether the pointer is
  set is `T.fallthroughRoute` -/
  fall : Route := {}
  ext : σ

/-- A pointer to a rule object. -/
inductive RuleRef where
  | entry (id : Nat) | ephemeral | fallthrough
  deriving DecidableEq, Repr

/-- Dereference; `none` is a dangling pointer. -/
def World.get {σ : Type} (w : World σ) : RuleRef → Option Route
  | .entry id => w.T.get? id
  | .ephemeral => some w.eph
  | .fallthrough => some w.fall

/-- Store through a pointer. -/
def World.put {σ : Type} (w : World σ) : RuleRef → Route → World σ
  | .entry _, r => { w with T := w.T.update r }
  | .ephemeral, r => { w with eph := r }
  | .fallthrough, r => { w with fall := r }

/-- Surroundings of a dispatch. -/
structure DispEnv (σ : Type) where
  /-- `wolfsentry->config` -/
  g : EventConfig := {}
  /-- the clock read at src/routes.c:2385 -/
  clock : Except Err Int
  /-- the clock read when `wolfsentry_route_update_flags` boxes the rule (src/routes.c:3324-3330) -/
  boxClock : Except Err Int
  /-- the lock could be promoted for the expiry update (src/routes.c:2410-2411) -/
  promote : Bool := true
  /-- the opportunistic purge got its locks (src/routes.c:3043-3060, 3080-3092) -/
  collect : Bool := true
  /-- delete actions of rules purged on the way -/
  purgeActs : RuleActs := {}
  /-- `DISABLED` bit and hit counter of actions -/
  disabled : σ → Nat → Bool := fun _ _ => false
  countHit : σ → Nat → σ := fun s _ => s
  /-- the user's callbacks; they get the rule pointer -/
  handler : ActionType → Nat → RuleRef → World σ → Flags → World σ × Flags × Option Err

/-- Environment of one action list run with the rule `ref`.  Simplification: when a handler has
deleted the rule, the flags read for the decision to count the hit of the next action are those of an
empty rule (in C: of freed memory). -/
def DispEnv.env {σ : Type} (E : DispEnv σ) (ref : RuleRef) : ActEnv (World σ) where
  rule := fun w => (w.get ref).getD {}
  setRule := fun w r => w.put ref r
  disabled := fun w i => E.disabled w.ext i
  countHit := fun w i => { w with ext := E.countHit w.ext i }
  handler := fun ty i w a => E.handler ty i ref w a

/-- Running one list of an event if there is an event and its list is not empty; failures are only
logged (e.g. src/routes.c:2428-2443).  The flag tells whether it ran. -/
def DispEnv.runList {σ : Type} (E : DispEnv σ) (e : Option Event) (ty : ActionType) (ref : RuleRef) (w : World σ) (a : Flags) :
    World σ × Flags × Bool :=
  match e with
  | none => (w, a, false)
  | some ev =>
    if (ev.actions ty).length > 0 then
      let q := listDispatch (E.env ref) E.g ev ty w a
      (q.st, q.ares, true)
    else (w, a, false)

/-- Time of the hit (src/routes.c:2385-2392). -/
def stampHit (clk : Except Err Int) (r : Route) : Route :=
  match clk with
  | .ok t => { r with data := { r.data with lastHitTime := t } }
  | .error _ => r

/-- `now`: 0 when the clock could not be read (src/routes.c:2389). -/
def clockNow : Except Err Int → Int
  | .ok t => t
  | .error _ => 0

/-- A clock failure is an error in the results (src/routes.c:2386-2389). -/
def clockAres (clk : Except Err Int) (a : Flags) : Flags :=
  match clk with
  | .ok _ => a
  | .error _ => a ||| AR.ERROR

/-- Expiry of the rule hit, if the lock can be promoted (src/routes.c:2394-2420).  Rules outside the
table have no expiry. -/
def DispEnv.refresh {σ : Type} (E : DispEnv σ) (idle : Int) (ref : RuleRef) (r : Route) (w : World σ) : World σ :=
  match ref with
  | .entry _ => if E.promote then { w with T := w.T.hitExpiry r idle r.data.lastHitTime } else w
  | _ => w

/-- Opportunistic purge, its result ignored (src/routes.c:2423-2424). -/
def DispEnv.purge {σ : Type} (E : DispEnv σ) (w : World σ) : Option (World σ) :=
  match E.clock with
  | .ok t =>
    if E.collect then (stalePurge E.g E.purgeActs .opportunistic t 1 w.T 0).map (fun x => { w with T := x.1 })
    else some w
  | .error _ => some w

/-- Time of the hit, expiry of the rule, opportunistic purge (src/routes.c:2385-2424). -/
def DispEnv.arrive {σ : Type} (E : DispEnv σ) (idle : Int) (ref : RuleRef) (w : World σ) (a : Flags) :
    Option (World σ × Flags) :=
  match w.get ref with
  | none => none
  | some r =>
    let r1 := stampHit E.clock r
    (E.purge (E.refresh idle ref r1 (w.put ref r1))).map (fun w => (w, clockAres E.clock a))

/-- `config->config.action_res_bits_to_add` and `_to_clear` (src/routes.c:2446-2449). -/
def applyResBits (c : EventConfig) (a : Flags) : Flags := (a ||| c.resBitsToAdd) &&& ~~~c.resBitsToClear

/-- Effect of the saturation of a hit counter on the results: `UPDATE` (src/routes.c:1609-1619). -/
def hitAres (r : Route) (a : Flags) : Flags := if (incrementHitcount r).flags ≠ r.flags then a ||| AR.UPDATE else a

/-- What is known when the verdict is about to be taken. -/
structure Verge (σ : Type) where
  w : World σ
  /-- the rule decided on -/
  ref : RuleRef
  /-- the event whose match/update/decision actions run -/
  event : Option Event
  /-- `current_rule_route_flags` -/
  cached : Flags
  ares : Flags

/-- Everything up to the counting (src/routes.c:2377-2474): hit, purge, post actions of the trigger
event, configured result bits, switch to the fallthrough rule, match actions. -/
def DispEnv.prelude {σ : Type} (E : DispEnv σ) (trigger : Option Event) (ref0 : RuleRef) (w0 : World σ) (a0 : Flags) :
    Option (EventConfig × Verge σ) :=
  match w0.get ref0 with
  | none => none
  | some r0 =>
    let parent := r0.event.or w0.T.defaultEvent
    let c := configOf E.g parent
    match E.arrive c.routeIdleTimeForPurge ref0 w0 a0 with
    | none => none
    | some (w1, a1) =>
      let p := E.runList trigger .post ref0 w1 a1
      let w2 := p.1
      let a2 := if p.2.2 then p.2.1 &&& ~~~AR.STOP else p.2.1
      match (if p.2.2 then w2.get ref0 else some r0) with
      | none => none
      | some rc =>
        let cached := rc.flags
        let a3 := applyResBits c a2
        let switch := !cached.hasAll RF.IN_TABLE && w2.T.fallthroughRoute.isSome
        let ref := if switch then .fallthrough else ref0
        let parent' := if switch then w2.T.defaultEvent else parent
        let a4 := if switch then hitAres w2.fall (a3 ||| AR.FALLTHROUGH) else a3
        let w3 := if switch then { w2 with fall := incrementHitcount w2.fall } else w2
        let m := E.runList parent' .match_ ref w3 a4
        let a5 := if m.2.2 then m.2.1 &&& ~~~AR.STOP else m.2.1
        if m.2.2 then
          match m.1.get ref with
          | none => none
          | some rm => some (c, { w := m.1, ref := ref, event := parent', cached := rm.flags, ares := a5 })
        else some (c, { w := m.1, ref := ref, event := parent', cached := cached, ares := a5 })

/-- Saturating increment of a 16-bit counter (wolfsentry/wolfsentry_util.h:230-256). -/
def inc16 (n : Nat) : Nat := if n < 65535 then n + 1 else n

/-- Derogatory behaviour is counted (src/routes.c:2482-2485). -/
def countDerogatory (d : RouteMeta) (a : Flags) : RouteMeta :=
  if a.has AR.DEROGATORY then { d with derogatoryCount := inc16 d.derogatoryCount } else d

/-- Connections are counted (src/routes.c:2487-2511), given the cached flags; `none`: over the limit,
the count is as before. -/
def countConnection (c : EventConfig) (cached : Flags) (d : RouteMeta) (a : Flags) : Option RouteMeta :=
  if cached.has RF.DONT_COUNT_CURRENT_CONNECTIONS then some d
  else if a.has AR.CONNECT then
    if d.connectionCount ≥ c.maxConnectionCount then none
    else
      let n := (d.connectionCount + 1) % 65536
      if n > c.maxConnectionCount then none else some { d with connectionCount := n }
  else if a.has AR.DISCONNECT then some { d with connectionCount := d.connectionCount - 1 }
  else some d

/-- Commendable behaviour is counted (src/routes.c:2513-2518). -/
def countCommendable (c : EventConfig) (d : RouteMeta) (a : Flags) : RouteMeta :=
  if a.has AR.COMMENDABLE then
    { d with
      commendableCount := inc16 d.commendableCount
      derogatoryCount := if c.flags.has EF.COMMENDABLE_CLEARS_DEROGATORY then 0 else d.derogatoryCount }
  else d

/-- Counting (src/routes.c:2476-2519), given the cached flags; `true`: the connection limit rejected
the connection and the rest of the verdict is skipped. -/
def countHit (c : EventConfig) (cached : Flags) (r : Route) (a : Flags) : Route × Flags × Bool :=
  if a.hasAll AR.INSERTED || a.hasAll AR.FALLTHROUGH then (r, a, false)
  else
    let d1 := countDerogatory r.data a
    match countConnection c cached d1 a with
    | none => ({ r with data := d1 }, a ||| AR.REJECT, true)
    | some d2 => ({ r with data := countCommendable c d2 a }, a, false)

/-- `wolfsentry_route_update_flags` on the rule with its failure only logged: rule, cached flags,
results (e.g. src/routes.c:2526-2534). -/
def boxUpdate (clk : Except Err Int) (set clear : Flags) (r : Route) (cached a : Flags) : Route × Flags × Flags :=
  match updateFlags r set clear clk a with
  | .ok x => (x.1, x.2.2.2, x.2.1)
  | .error _ => (r, cached, a)

/-- The derogatory test (src/routes.c:2559-2568).  The counts are 16-bit, so the subtraction is in
`int`; thresholds are at most 65535 (C41), so the cast to `int` is exact. -/
def derogatoryExceeds (c : EventConfig) (d : RouteMeta) : Bool :=
  decide (c.derogatoryThreshold > 0) &&
  (if c.flags.has EF.DEROGATORY_THRESHOLD_IGNORE_COMMENDABLE then decide (d.derogatoryCount ≥ c.derogatoryThreshold)
   else decide ((d.derogatoryCount : Int) - (d.commendableCount : Int) ≥ (c.derogatoryThreshold : Int)))

/-- Release from the penalty box by commendable behaviour, if so configured (src/routes.c:2521-2535). -/
def unboxCommendable (c : EventConfig) (clk : Except Err Int) (r : Route) (cached a : Flags) : Route × Flags × Flags :=
  if cached.has RF.PENALTYBOXED && a.hasAll AR.COMMENDABLE && c.flags.hasAll EF.COMMENDABLE_CLEARS_DEROGATORY
    then boxUpdate clk 0 RF.PENALTYBOXED r cached a else (r, cached, a)

/-- Release by expiry (src/routes.c:2537-2553).  `now` is 0 when the clock could not be read. -/
def unboxElapsed (c : EventConfig) (now : Int) (clk : Except Err Int) (r : Route) (cached a : Flags) : Route × Flags × Flags :=
  if cached.has RF.PENALTYBOXED && decide (c.penaltyboxDuration > 0) && decide (r.data.lastPenaltyboxTime ≠ 0) &&
      decide (now - r.data.lastPenaltyboxTime > c.penaltyboxDuration)
    then boxUpdate clk 0 RF.PENALTYBOXED r cached a else (r, cached, a)

/-- Both releases, in order. -/
def unbox (c : EventConfig) (now : Int) (clk : Except Err Int) (r : Route) (cached a : Flags) : Route × Flags × Flags :=
  let x := unboxCommendable c clk r cached a
  unboxElapsed c now clk x.1 x.2.1 x.2.2

/-- The verdict (src/routes.c:2555-2597): penalty box, derogatory threshold, greenlist, default
policy. -/
def judge (c : EventConfig) (policy : Flags) (clk : Except Err Int) (r : Route) (cached a : Flags) : Route × Flags × Flags :=
  if cached.has RF.PENALTYBOXED then (r, cached, a ||| AR.REJECT)
  else if derogatoryExceeds c r.data then
    match updateFlags r RF.PENALTYBOXED 0 clk a with
    | .ok x => ({ x.1 with data := { x.1.data with derogatoryCount := 0, commendableCount := 0 } }, x.2.2.2, x.2.1 ||| AR.REJECT)
    | .error _ => (r, cached, a ||| AR.REJECT)
  else if cached.has RF.GREENLISTED then (r, cached, a ||| AR.ACCEPT)
  else if a.has (AR.ACCEPT ||| AR.REJECT) then (r, cached, a)
  else (r, cached, a ||| (AR.FALLTHROUGH ||| policy))

/-- Counting, release and verdict on one rule, and `PORT_RESET` (src/routes.c:2476-2605).
Result: the rule, the results. -/
def decideRule (c : EventConfig) (policy : Flags) (now : Int) (clk : Except Err Int) (cached : Flags) (r : Route) (a : Flags) :
    Route × Flags :=
  let k := countHit c cached r a
  let x := if k.2.2 then (k.1, cached, k.2.1)
    else
      let u := unbox c now clk k.1 cached k.2.1
      judge c policy clk u.1 u.2.1 u.2.2
  (x.1, if x.2.2.has AR.REJECT && x.2.1.has RF.PORT_RESET then x.2.2 ||| AR.PORT_RESET else x.2.2)

/-- Update and decision actions (src/routes.c:2607-2638). -/
def DispEnv.conclude {σ : Type} (E : DispEnv σ) (e : Option Event) (ref : RuleRef) (w : World σ) (a : Flags) : World σ × Flags :=
  let clr (ev : Option Event) (ty : ActionType) (a : Flags) : Flags :=
    match ev with
    | some x => if (x.actions ty).length > 0 then a &&& ~~~AR.STOP else a
    | none => a
  let u := if a.hasAll AR.UPDATE then E.runList e .update ref w (clr e .update a) else (w, a, false)
  let d := E.runList e .decision ref u.1 (clr e .decision u.2.1)
  (d.1, d.2.1)

/-- `wolfsentry_route_event_dispatch_0` (src/routes.c:2350-2644).  NULL arguments and the lock check are
left out. -/
def DispEnv.dispatch0 {σ : Type} (E : DispEnv σ) (trigger : Option Event) (target : Route) (ref : RuleRef) (w : World σ) (a : Flags) :
    Option (World σ × Flags × Except Err Unit) :=
  if target.flags.has (RF.REMOTE_ADDR_BITMASK ||| RF.LOCAL_ADDR_BITMASK) then some (w, a, .error .invalidArg)
  else
    match E.prelude trigger ref w a with
    | none => none
    | some (c, v) =>
      match v.w.get v.ref with
      | none => none
      | some r =>
        let d := decideRule c v.w.T.defaultPolicy (clockNow E.clock) E.boxClock v.cached r v.ares
        let f := E.conclude v.event v.ref (v.w.put v.ref d.1) d.2
        some (f.1, f.2, .ok ())

/-- How a dispatch ends well. -/
inductive DispOk where
  | ok | usedFallback
  deriving DecidableEq, Repr

/-- What the caller of a dispatch gets. -/
structure DispRes (σ : Type) where
  w : World σ
  ares : Flags
  /-- `*id`: 0 is `WOLFSENTRY_ENT_ID_NONE` -/
  id : Nat := 0
  inexact : Flags := 0
  ret : Except Err DispOk

/-- The exit for traffic without a rule (src/routes.c:2759-2765): default policy, fallthrough. -/
def useFallback {σ : Type} (w : World σ) (a : Flags) : DispRes σ :=
  { w := w, ares := a ||| (w.T.defaultPolicy ||| AR.FALLTHROUGH), inexact := RF.WILDCARD_FLAGS ||| RF.PARENT_EVENT_WILDCARD,
    ret := .ok .usedFallback }

/-- The trigger event named by the caller (src/routes.c:2678-2684): an unknown label is an error unless
the caller's flags say that any event will do. -/
def triggerOf (resolve : List Byte → Except Err Event) (flags : Flags) (label : Option (List Byte)) : Except Err (Option Event) :=
  match label with
  | none => .ok none
  | some l =>
    match resolve l with
    | .ok e => .ok (some e)
    | .error e => if flags.has RF.PARENT_EVENT_WILDCARD then .ok none else .error e

/-- The event has post actions (src/routes.c:2710-2711). -/
def hasPostActions : Option Event → Bool
  | some x => decide (x.postActions.length > 0)
  | none => false

/-- `wolfsentry_route_event_dispatch_1` (src/routes.c:2646-2772).  `resolve` is the event lookup by
label.  Simplifications: memory for the target and for the ephemeral rule is available; reference
counts are left out.  The outer `Option` is `none` when the lookup or the purge does not return, or a
handler deleted the rule. -/
def DispEnv.dispatch1 {σ : Type} (E : DispEnv σ) (resolve : List Byte → Except Err Event) (w : World σ) (remote loc : SockAddr)
    (flags : Flags) (label : Option (List Byte)) (a : Flags) (fuel : Nat) : Option (DispRes σ) :=
  match triggerOf resolve flags label with
  | .error e => some { w := w, ares := a, ret := .error e }
  | .ok trig =>
    match routeInit trig remote loc flags with
    | .error _ => some (useFallback w a)     -- the error is dropped
    | .ok target =>
      match lookup w.T target false (some a) fuel with
      | none => none
      | some (.ok (r, inx)) =>
        let w1 := { w with T := w.T.update (incrementHitcount r) }
        match E.dispatch0 (trig.or w.T.defaultEvent) target (.entry r.id) w1 (hitAres r (lookupAres a)) with
        | none => none
        | some (w2, a2, res) =>
          match w2.get (.entry r.id) with
          | none => none
          | some r' =>
            some { w := w2, ares := match res with | .ok _ => a2 | .error _ => a2 ||| AR.ERROR,
                   id := if r'.flags.hasAll RF.IN_TABLE then r'.id else 0, inexact := inx,
                   ret := match res with | .ok _ => .ok .ok | .error e => .error e }
      | some (.error _) =>
        let a1 := lookupAres a
        let e := trig.or w.T.defaultEvent
        if hasPostActions e then
          let t1 := inexactTarget target
          let w1 := { w with eph := { t1 with event := t1.event.or w.T.defaultEvent } }
          match E.dispatch0 e t1 .ephemeral w1 (a1 ||| AR.FALLTHROUGH) with
          | none => none
          | some (w2, a2, res) =>
            some { w := w2, ares := match res with | .ok _ => a2 | .error _ => a2 ||| AR.ERROR,
                   id := if w2.eph.flags.hasAll RF.IN_TABLE then w2.eph.id else 0,
                   ret := match res with | .ok _ => .ok .ok | .error e => .error e }
        else some (useFallback w a1)

/-- `wolfsentry_route_event_dispatch`, `_with_table` (src/routes.c:2774-2809): results start empty. -/
def DispEnv.dispatch {σ : Type} (E : DispEnv σ) (resolve : List Byte → Except Err Event) (w : World σ) (remote loc : SockAddr)
    (flags : Flags) (label : Option (List Byte)) (fuel : Nat) : Option (DispRes σ) :=
  E.dispatch1 resolve w remote loc flags label 0 fuel

/-- `check_user_inited_result` (src/routes.c:2811-2822). -/
def initedResultOK (a : Flags) : Bool := !a.has (AR.ACCEPT ||| AR.REJECT ||| AR.STOP ||| AR.DEALLOCATED ||| AR.ERROR)

/-- `wolfsentry_route_event_dispatch_with_inited_result`, `_with_table_…` (src/routes.c:2824-2860). -/
def DispEnv.dispatchInited {σ : Type} (E : DispEnv σ) (resolve : List Byte → Except Err Event) (w : World σ) (remote loc : SockAddr)
    (flags : Flags) (label : Option (List Byte)) (a : Flags) (fuel : Nat) : Option (DispRes σ) :=
  if initedResultOK a then E.dispatch1 resolve w remote loc flags label a fuel
  else some { w := w, ares := a, ret := .error .invalidArg }

/-- `wolfsentry_route_event_dispatch_by_id_1` (src/routes.c:2862-2905) for the ID of a rule of this
table (other objects: `WRONG_OBJECT`), and `_by_route_1` (2934-2968): the rule is its own target. -/
def DispEnv.dispatchById {σ : Type} (E : DispEnv σ) (resolve : List Byte → Except Err Event) (w : World σ) (id : Nat)
    (label : Option (List Byte)) (a : Flags) : Option (World σ × Flags × Except Err Unit) :=
  let ev : Except Err (Option Event) :=
    match label with
    | none => .ok none
    | some l => (resolve l).map some
  match ev with
  | .error e => some (w, a, .error e)
  | .ok trig =>
    match w.T.get? id with
    | none => some (w, a, .error .itemNotFound)
    | some r => E.dispatch0 (trig.or w.T.defaultEvent) r (.entry id) w a

end WS
