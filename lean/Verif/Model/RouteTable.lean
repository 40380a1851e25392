import Verif.Model.RouteKey
/-
The route table and the lookup of rules in it (src/routes.c:140-187, 1625-1914).
-/
namespace WS

/-- `struct wolfsentry_route_table` (src/wolfsentry_internal.h:404-425).  `ents` is the table's list
in order.  Pointers to rules (`purge_list`, `last_af_wildcard_route`, `fallthrough_route`) are
represented by the ID of the rule they point to; `none` is NULL.  `bitmaskAfs` is the used part of
the fixed array `bitmask_matching_afs` as pairs (family, refcount). -/
structure RouteTable where
  ents : List Route := []
  purgeList : List Nat := []
  maxPurgeableRoutes : Nat := 0
  maxPurgeableIdleTime : Int := 0
  defaultEvent : Option Event := none
  fallthroughRoute : Option Nat := none
  lastAfWildcard : Option Nat := none
  defaultPolicy : Flags := 0
  highestPriority : Nat := 65535
  bitmaskAfs : List (Nat × Nat) := []

/-- `is_bitmask_matching` (src/routes.c:144-151). -/
def isBitmaskMatching (af : Nat) (afs : List (Nat × Nat)) : Bool := afs.any (fun p => p.1 == af)

/-- Position in the table of the rule a pointer points to. -/
def RouteTable.indexOf (T : RouteTable) (id : Nat) : Option Nat := T.ents.findIdx? (fun r => r.id == id)

/-- The filter bits of the rule's parent event accept the incoming action results
(src/routes.c:1742-1745 and 1814-1819).  `none` is a NULL `action_results`. -/
def eventFilterOK (ares : Option Flags) (r : Route) : Bool :=
  match ares, r.event.bind (·.config) with
  | some a, some c => ((a &&& c.filterBitsSet) == c.filterBitsSet) && ((~~~a &&& c.filterBitsUnset) == c.filterBitsUnset)
  | _, _ => true

/-- The tests that make the backward scan skip a rule (src/routes.c:1810-1833): direction, filter
bits, and `EXCLUDE_REJECT_ROUTES` with a penalty-boxed rule. -/
def considered (target : Route) (ares : Option Flags) (r : Route) : Bool :=
  r.flags.has (target.flags &&& (RF.DIRECTION_IN ||| RF.DIRECTION_OUT)) &&
  eventFilterOK ares r &&
  !(match ares with
    | some a => a.hasAll AR.EXCLUDE_REJECT_ROUTES && r.flags.has RF.PENALTYBOXED
    | none => false)

/-- Keeping the best match seen so far (src/routes.c:1846-1862).  The best match carries its
inexact-match flags. -/
def improve (target : Route) (best : Option (Route × Flags)) (r : Route) : Option (Route × Flags) :=
  let c := routeKeyCmp1 r target true
  if c.1 = .eq then
    match best with
    | none => some (r, c.2)
    | some (b, bInx) =>
      if r.effPriority < b.effPriority then some (r, c.2)
      else if r.effPriority = b.effPriority ∧ compareMatchExactness target r c.2 b bInx = .lt then some (r, c.2)
      else some (b, bInx)
  else best

/-- The short circuit at the end of the loop body (src/routes.c:1867-1889).  In C `i` may have been
moved to `last_af_wildcard_route` by then; `r` is that rule. -/
def scanDone (T : RouteTable) (target : Route) (contiguous bmAf seen : Bool) (r : Route) :
    Option (Route × Flags) → Bool
  | none => false
  | some (b, bInx) =>
    contiguous && ((bInx &&& RF.WILDCARD_FLAGS) == 0) && decide (b.effPriority ≤ T.highestPriority) &&
    (if bmAf then seen && (r.family != target.family) else true)

/-- One pass of the loop body after the family test, at position `i` (src/routes.c:1810-1889):
the new best match and whether the loop is left. -/
def scanVisit (T : RouteTable) (target : Route) (ares : Option Flags) (contiguous bmAf seen : Bool)
    (best : Option (Route × Flags)) (r : Route) : Option (Route × Flags) × Bool :=
  if considered target ares r then
    let best' := improve target best r
    (best', scanDone T target contiguous bmAf seen r best')
  else (best, false)

/-- `wolfsentry_table_cursor_prev`. -/
def prevIdx : Nat → Option Nat
  | 0 => none
  | i + 1 => some i

/-- The backward scan (src/routes.c:1790-1890).  `last` is the position of
`last_af_wildcard_route`.  The loop in C need not terminate, so the model takes fuel; `none` means
the fuel ran out. -/
def scan (T : RouteTable) (target : Route) (ares : Option Flags) (contiguous bmAf : Bool) (last : Option Nat) :
    (fuel : Nat) → Option Nat → (seen : Bool) → Option (Route × Flags) → Option (Option (Route × Flags))
  | 0, _, _, _ => none
  | _ + 1, none, _, best => some best
  | fuel + 1, some i, seen, best =>
    match T.ents[i]? with
    | none => some best
    | some r =>
      if r.family ≠ target.family ∧ seen = true ∧ target.flags.has RF.SA_FAMILY_WILDCARD = false then
        -- jump to last_af_wildcard_route, or leave the loop
        match last with
        | none => some best
        | some k =>
          match T.ents[k]? with
          | none => some best
          | some r' =>
            let v := scanVisit T target ares contiguous bmAf seen best r'
            if v.2 then some v.1
            else scan T target ares contiguous bmAf last fuel (prevIdx k) seen v.1
      else
        let seen' := seen || r.family == target.family
        let v := scanVisit T target ares contiguous bmAf seen' best r
        if v.2 then some v.1
        else scan T target ares contiguous bmAf last fuel (prevIdx i) seen' v.1

/-- `wolfsentry_table_cursor_seek` (src/wolfsentry_internal.c:577-591) by position: the first rule
not below the target and its comparison, or the last rule and −1. -/
def seek (ents : List Route) (target : Route) : Option Nat × Ordering :=
  match ents.findIdx? (fun r => routeKeyCmp r target != .lt) with
  | some i => (some i, (ents[i]?.map (fun r => routeKeyCmp r target)).getD .lt)
  | none => (if ents.length = 0 then none else some (ents.length - 1), .lt)

/-- "The test for wildcard holes" (src/routes.c:1703): true when the non-wildcard fields of the
target are a prefix of the sort order. -/
def contiguousSearch (target : Route) : Bool :=
  let m := ~~~target.flags &&& RF.WILDCARD_FLAGS
  ((m + 1) &&& m) == 0

/-- Last position `≥ i` reachable from `i` through rules of family `af`; `i` itself if the rule
there has another family (src/routes.c:1778-1787). -/
def spanEnd (ents : List Route) (af : Nat) (i : Nat) : Nat :=
  let n := ((ents.drop i).takeWhile (fun r => r.family == af)).length
  if n = 0 then i else i + n - 1

/-- Family test before the scan, and start of the scan (src/routes.c:1752-1790): `none` is
`ITEM_NOT_FOUND`. -/
def scanStart (T : RouteTable) (target : Route) (last : Option Nat) (point : Option Nat) : Option (Option Nat) :=
  if target.flags.has RF.SA_FAMILY_WILDCARD then some point
  else
    let famAt (i : Nat) : Option Nat := T.ents[i]?.map (·.family)
    let off := match point with
      | none => true
      | some i => famAt i != some target.family &&
          (match prevIdx i with | none => true | some j => famAt j != some target.family)
    if off then (match last with | some k => some (some k) | none => none) else some point

/-- The query as the inexact lookup uses it: "the event ID isn't an intrinsic attribute of
network/bus traffic, so for !exact_p, it's always a wildcard" (src/routes.c:1686-1690). -/
def inexactTarget (t : Route) : Route := { t with flags := t.flags ||| RF.PARENT_EVENT_WILDCARD }

/-- `wolfsentry_route_lookup_0` (src/routes.c:1625-1914) without its effects on `*action_results` and
hit counts (`lookupAres`).  The outer `Option` is `none` when the fuel runs out.  The result carries
`*inexact_matches`. -/
def lookup (T : RouteTable) (target0 : Route) (exact : Bool) (ares : Option Flags) (fuel : Nat) :
    Option (Except Err (Route × Flags)) :=
  if exact then
    match seek T.ents target0 with
    | (some i, .eq) =>
      match T.ents[i]? with
      | some r => some (.ok (r, 0))
      | none => some (.error .itemNotFound)
    | _ => some (.error .itemNotFound)
  else
    let target := inexactTarget target0
    let last := T.lastAfWildcard.bind T.indexOf
    let contiguous := contiguousSearch target
    let tail := if T.ents.length = 0 then none else some (T.ents.length - 1)
    let sk := seek T.ents target
    let hit : Option Route :=
      if contiguous = true ∧ sk.2 = .eq then
        match sk.1.bind (fun i => T.ents[i]?) with
        | some r => if eventFilterOK ares r ∧ r.effPriority ≤ T.highestPriority then some r else none
        | none => none
      else none
    match hit with
    | some r => some (.ok (r, 0))
    | none =>
      let point := if contiguous then sk.1 else tail
      match scanStart T target last point with
      | none => some (.error .itemNotFound)
      | some start0 =>
        let bmAf := isBitmaskMatching target.family T.bitmaskAfs
        let start := if bmAf then start0.map (spanEnd T.ents target.family) else start0
        match scan T target ares contiguous bmAf last fuel start false none with
        | none => none
        | some none => some (.error .itemNotFound)
        | some (some r) => some (.ok r)

/-- What `wolfsentry_route_lookup_0` leaves in `*action_results` (src/routes.c:1900-1901). -/
def lookupAres (a : Flags) : Flags :=
  if a.hasAll AR.EXCLUDE_REJECT_ROUTES then a &&& ~~~AR.EXCLUDE_REJECT_ROUTES else a

/-- Hit count of the rule found (src/routes.c:1599-1623): saturating 32-bit increment unless the
rule says not to count; when it is already at the maximum the rule stops counting. -/
def incrementHitcount (r : Route) : Route :=
  if r.flags.has RF.DONT_COUNT_HITS then r
  else if r.data.hitcount + 1 < 4294967296 then
    { r with data := { r.data with hitcount := r.data.hitcount + 1 } }
  else { r with flags := r.flags ||| RF.DONT_COUNT_HITS }

end WS
