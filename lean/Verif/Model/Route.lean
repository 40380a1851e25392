import Verif.Model.Basic
/-
Data types of rules and events (src/wolfsentry_internal.h:315-425, wolfsentry/wolfsentry.h:1086-1240).
-/
namespace WS

/-- `WOLFSENTRY_BITS_TO_BYTES(x)` = `(x + 7) >> 3` (wolfsentry/wolfsentry_util.h:138). -/
def bitsToBytes (bits : Nat) : Nat := (bits + 7) >>> 3

/-- `struct wolfsentry_route_endpoint` together with the address bytes it describes
(wolfsentry/wolfsentry.h:1086-1095, src/wolfsentry_internal.h:389-394).  `extra_port_count` is
never non-zero in the pinned code and is left out. -/
structure Endpoint where
  port : Nat := 0
  bits : Nat := 0
  iface : Nat := 0
  addr : List Byte := []
  deriving DecidableEq, Repr

/-- The address buffer holds exactly the bytes the bit length calls for. -/
def Endpoint.WF (e : Endpoint) : Prop := e.addr.length = bitsToBytes e.bits
instance (e : Endpoint) : Decidable e.WF := by unfold Endpoint.WF; infer_instance

/-- `struct wolfsentry_eventconfig` plus the padding of `wolfsentry_eventconfig_internal`
(wolfsentry/wolfsentry.h:1212-1240, src/wolfsentry_internal.h:315-320). -/
structure EventConfig where
  privateDataSize : Nat := 0
  privateDataAlignment : Nat := 0
  maxConnectionCount : Nat := 0
  derogatoryThreshold : Nat := 0
  penaltyboxDuration : Int := 0
  routeIdleTimeForPurge : Int := 0
  flags : Flags := 0
  routeFlagsToAdd : Flags := 0
  routeFlagsToClear : Flags := 0
  filterBitsSet : Flags := 0
  filterBitsUnset : Flags := 0
  resBitsToAdd : Flags := 0
  resBitsToClear : Flags := 0
  deriving DecidableEq, Repr

/-! `WOLFSENTRY_EVENTCONFIG_FLAG_*` (wolfsentry/wolfsentry.h:1200-1209). -/
namespace EF
def DEROGATORY_THRESHOLD_IGNORE_COMMENDABLE : Flags := bit 0
def COMMENDABLE_CLEARS_DEROGATORY : Flags := bit 1
def INHIBIT_ACTIONS : Flags := bit 2
end EF

/-- `struct wolfsentry_event` (src/wolfsentry_internal.h:322-346):
label, priority (immutable after creation: no function in the pinned code assigns it outside
`wolfsentry_event_init_1`, src/events.c:64), optional private configuration and the six action
lists, as sequences of action numbers (an action number stands for a pointer to an action; the
linked lists themselves are modelled in `Model/ActionList.lean`).
Simplification: a rule holds its parent event by value. -/
structure Event where
  label : List Byte
  priority : Nat := 0
  config : Option EventConfig := none
  postActions : List Nat := []
  insertActions : List Nat := []
  matchActions : List Nat := []
  updateActions : List Nat := []
  deleteActions : List Nat := []
  decisionActions : List Nat := []
  deriving DecidableEq, Repr

/-- `route->meta` and `route->header.hitcount` (src/wolfsentry_internal.h:365-377). -/
structure RouteMeta where
  insertTime : Int := 0
  lastHitTime : Int := 0
  lastPenaltyboxTime : Int := 0
  purgeAfter : Int := 0
  connectionCount : Nat := 0
  derogatoryCount : Nat := 0
  commendableCount : Nat := 0
  hitcount : Nat := 0
  deriving DecidableEq, Repr

/-- `struct wolfsentry_route` (src/wolfsentry_internal.h:352-387).  Private data is not
modelled. -/
structure Route where
  id : Nat := 0
  event : Option Event := none
  flags : Flags := 0
  family : Nat := 0
  proto : Nat := 0
  remote : Endpoint := {}
  loc : Endpoint := {}
  data : RouteMeta := {}
  deriving DecidableEq, Repr

/-- Both address buffers have the size their bit lengths call for. -/
def Route.WF (r : Route) : Prop := r.remote.WF ∧ r.loc.WF
instance (r : Route) : Decidable r.WF := by unfold Route.WF; infer_instance

/-- `route->parent_event ? route->parent_event->priority : 0` (src/routes.c:461-462). -/
def Route.effPriority (r : Route) : Nat :=
  match r.event with
  | some e => e.priority
  | none => 0

end WS
