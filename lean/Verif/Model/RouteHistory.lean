import Verif.Model.RouteOps
/-
Histories of a rule table: every way the calls modelled in `Model/RouteOps.lean` change it.
-/
namespace WS

/-- What in-place changes of a rule leave alone: identity, key fields, parent event, key flags and
`IN_TABLE` (flag bits 0-14), expiry. -/
structure KeepsKey (a b : Route) : Prop where
  id : b.id = a.id
  event : b.event = a.event
  family : b.family = a.family
  proto : b.proto = a.proto
  remote : b.remote = a.remote
  loc : b.loc = a.loc
  flags : ∀ k, k < 15 → b.flags.getLsbD k = a.flags.getLsbD k
  purgeAfter : b.data.purgeAfter = a.data.purgeAfter

/-- Handlers that change rules only through calls that keep their keys and expiry (flag updates,
counters, private data). -/
def RuleActs.Keeps (A : RuleActs) : Prop := ∀ ty i r a, KeepsKey r (A.handler ty i r a).1

/-- An ID allocation that succeeds yields an ID no rule of the table has (C04). -/
def FreshId (T : RouteTable) (newId : Except Err Nat) : Prop :=
  ∀ i, newId = .ok i → i ≠ 0 ∧ ∀ r ∈ T.ents, r.id ≠ i

/-- One call on the table.  Insertions whose insert actions fail are left out: they break the table
(`C14_action_failure_breaks`).  `touch` stands for the counters and times of rules
(src/routes.c:3336-3409 and the dispatcher), `hit` for what a dispatch does to the expiry of the rule
it resolves to; hits on the last rule of the purge queue are allowed only with `tailHits`, because
they can break the order of the queue (`C16_hit_breaks_order`). -/
inductive Step (g : EventConfig) (tailHits : Bool) : RouteTable → RouteTable → Prop
  | insert {T : RouteTable} (A : RuleActs) (r0 : Route) (now : Except Err Int) (newId : Except Err Nat) (ares : Flags) (res : InsRes)
      (hA : A.Keeps) (hwf : r0.WF) (hid : FreshId T newId) (h : insert1 g A T r0 now newId ares = some res)
      (hok : res.actionsFailed = false) : Step g tailHits T res.T
  | deleteKey {T : RouteTable} (A : RuleActs) (key : Route) (ares : Flags) (hwf : key.WF) : Step g tailHits T (deleteByKey g A T key ares).1
  | deleteId {T : RouteTable} (A : RuleActs) (id : Nat) (ares : Flags) : Step g tailHits T (deleteById g A T id ares).1
  | flush {T : RouteTable} (A : RuleActs) (ares : Flags) : Step g tailHits T (flushTable g A T ares).1
  | purge {T : RouteTable} (A : RuleActs) (mode : PurgeMode) (now : Int) (fuel : Nat) (ares : Flags)
      (x : RouteTable × Flags × Except Err Unit)
      (h : stalePurge g A mode now fuel T ares = some x) : Step g tailHits T x.1
  | setExpiry {T : RouteTable} (r : Route) (hr : r ∈ T.ents) (t : Int) : Step g tailHits T (T.setExpiry r t)
  | updateFlags {T : RouteTable} (r : Route) (hr : r ∈ T.ents) (set clear : Flags) (now : Except Err Int) (ares : Flags)
      (x : Route × Flags × Flags × Flags) (h : updateFlags r set clear now ares = .ok x) : Step g tailHits T (T.update x.1)
  | touch {T : RouteTable} (r : Route) (hr : r ∈ T.ents) (d : RouteMeta) (hd : d.purgeAfter = r.data.purgeAfter) :
      Step g tailHits T (T.update { r with data := d })
  | hit {T : RouteTable} (r : Route) (hr : r ∈ T.ents) (idle lastHit : Int) (ht : lastHit + idle + 60000000 ≠ 0)
      (htail : tailHits = true ∨ T.purgeList.getLast? ≠ some r.id) : Step g tailHits T (T.hitExpiry r idle lastHit)
  | policy {T : RouteTable} (p : Flags) (T' : RouteTable) (h : defaultPolicySet T p = .ok T') : Step g tailHits T T'
  | maxPurgeable {T : RouteTable} (A : RuleActs) (now : Int) (fuel : Nat) (n : Nat) (x : RouteTable × Except Err Unit)
      (h : maxPurgeableSet g A now fuel T n = some x) : Step g tailHits T x.1
  | maxIdle {T : RouteTable} (t : Int) : Step g tailHits T { T with maxPurgeableIdleTime := t }
  | bulkClear {T : RouteTable} : Step g tailHits T (bulkClearInsertStatus T)
  | bulkInsert {T : RouteTable} (A : RuleActs) (hA : A.Keeps) (ares : Flags) : Step g tailHits T (bulkInsertActions g A T ares).1

/-- Tables that calls can produce from an empty one (src/routes.c:4600-4610: no rules, no bitmask
families, highest priority 65535; limits arbitrary). -/
inductive Reach (g : EventConfig) (tailHits : Bool) : RouteTable → Prop
  | init (maxR : Nat) (idle : Int) (ev : Option Event) (ft : Option Nat) (pol : Flags) :
      Reach g tailHits { maxPurgeableRoutes := maxR, maxPurgeableIdleTime := idle, defaultEvent := ev, fallthroughRoute := ft, defaultPolicy := pol }
  | step {T T' : RouteTable} : Reach g tailHits T → Step g tailHits T T' → Reach g tailHits T'

end WS
