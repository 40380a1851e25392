import Verif.Model.Context
import Verif.Spec.RouteKey
/-
What it means to exchange two contexts (C44).  Only the data types of the model are used here.
-/
namespace WS.Spec
open WS

/-- Everything a context serves, apart from the rules themselves. -/
structure SameContents (x y : Ctx) : Prop where
  ids : x.idState = y.idState
  config : x.config = y.config
  configAtCreation : x.configAtCreation = y.configAtCreation
  events : x.events = y.events
  actions : x.actions = y.actions
  values : x.values = y.values
  famByNumber : x.famByNumber = y.famByNumber
  famByName : x.famByName = y.famByName
  byId : x.byId = y.byId

/-- What belongs to the context object itself. -/
structure SameFrame (x y : Ctx) : Prop where
  lock : x.lock = y.lock
  hooks : x.hooks = y.hooks
  hpi : x.hpi = y.hpi
  mkIdCb : x.mkIdCb = y.mkIdCb

/-- The same route table but for its list of rules. -/
structure SameTableHeader (x y : RouteTable) : Prop where
  purgeList : x.purgeList = y.purgeList
  maxPurgeable : x.maxPurgeableRoutes = y.maxPurgeableRoutes
  maxIdle : x.maxPurgeableIdleTime = y.maxPurgeableIdleTime
  defaultEvent : x.defaultEvent = y.defaultEvent
  fallthrough : x.fallthroughRoute = y.fallthroughRoute
  lastAf : x.lastAfWildcard = y.lastAfWildcard
  policy : x.defaultPolicy = y.defaultPolicy
  priority : x.highestPriority = y.highestPriority
  bitmask : x.bitmaskAfs = y.bitmaskAfs

/-- `x` is the rule `y` apart from flags and counters/times; the hit count is `y`'s. -/
structure SameRule (x y : Route) : Prop where
  id : x.id = y.id
  event : x.event = y.event
  family : x.family = y.family
  proto : x.proto = y.proto
  remote : x.remote = y.remote
  loc : x.loc = y.loc
  hits : x.data.hitcount = y.data.hitcount

/-- `x` carries the flags, the times and the counters (other than the hit count) of `f`. -/
structure CarriesState (x f : Route) : Prop where
  flags : x.flags = f.flags
  insertTime : x.data.insertTime = f.data.insertTime
  lastHit : x.data.lastHitTime = f.data.lastHitTime
  lastBox : x.data.lastPenaltyboxTime = f.data.lastPenaltyboxTime
  purgeAfter : x.data.purgeAfter = f.data.purgeAfter
  connections : x.data.connectionCount = f.data.connectionCount
  derogatory : x.data.derogatoryCount = f.data.derogatoryCount
  commendable : x.data.commendableCount = f.data.commendableCount

/-- The table order: strictly ascending keys, each with address buffers of the right size. -/
def SortedRules (cmp : Route → Route → Ordering) (l : List Route) : Prop :=
  (∀ r, r ∈ l → r.WF) ∧ l.Pairwise (fun x y => cmp x y = .lt)

/-- The second context's rules stem from the first one's (it was cloned from it and then edited): a
rule with an ID of the first context has that rule's key, and conversely no ID occurs twice. -/
structure Derived (old new : List Route) : Prop where
  oldIds : (old.map (·.id)).Nodup
  newIds : (new.map (·.id)).Nodup
  same : ∀ f, f ∈ old → ∀ t, t ∈ new → f.id = t.id → SameKey f t

end WS.Spec
