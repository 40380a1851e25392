import Verif.Spec.Loaded
import Verif.Spec.Dump
import Verif.Spec.RouteOps
/-
Saving the rules of a context and loading them back (C85).
-/
namespace WS.Spec.Rs
open WS WS.Conf WS.Spec WS.Spec.Ld WS.LT

/-- `y` stands for `x` after a restart: it matches the same traffic for the same event, and has the same status (bits 20 to 24: penalty box,
green list, counting of hits and connections, port reset). -/
structure Restored (x y : Seen) : Prop where
  twin : Twin x y
  status : ∀ k, 20 ≤ k → k ≤ 24 → x.flags.getLsbD k = y.flags.getLsbD k

/-- The rule says nothing that the export leaves out: no bits of an address or mark of a mask where the address is a wildcard, no wildcard for
the parent event. -/
structure Bare (r : Route) : Prop where
  event : r.flags.getLsbD 8 = false
  remote : r.flags.getLsbD 1 = true → r.remote.bits = 0 ∧ r.flags.getLsbD 12 = false
  loc : r.flags.getLsbD 4 = true → r.loc.bits = 0 ∧ r.flags.getLsbD 13 = false

/-- The settings in force leave the rule's flags as they are (so it is with rules inserted under these settings: `settled_of_stored`), and do
not mark new rules as inserted already. -/
structure Settled (g : EventConfig) (r : Route) : Prop where
  flags : ∀ k, k < 14 ∨ (20 ≤ k ∧ k ≤ 24) →
    (r.flags.getLsbD k && !(inForce g r.event).routeFlagsToClear.getLsbD k || (inForce g r.event).routeFlagsToAdd.getLsbD k) = r.flags.getLsbD k
  sane : (inForce g r.event).routeFlagsToAdd.getLsbD 14 = false ∧ (inForce g r.event).routeFlagsToAdd.getLsbD 16 = false

/-- The host does its part: the clock can be read, IDs are given out, handlers of actions do not fail. -/
structure Works (H : Host) : Prop where
  clock : ∀ t, ∃ x, H.clock t = .ok x
  ids : ∀ s, ∃ x, H.newId s = .ok x
  handlers : ∀ t i r a, (H.acts.handler t i r a).2.2 = none

/-- The table can hold the rules: masks for fewer than four families, fewer than 65535 rules, and no expiry where the number of rules that
expire is limited. -/
structure Holdable (v : View) (rs : List Route) : Prop where
  masks : ∃ fams : List Nat, fams.length < 4 ∧ ∀ r ∈ rs, UsesBitmask r → r.family ∈ fams
  count : rs.length < 65535
  limit : v.limit = 0 ∨ ∀ r ∈ rs, (inForce v.config r.event).routeIdleTimeForPurge ≤ 0

end WS.Spec.Rs
