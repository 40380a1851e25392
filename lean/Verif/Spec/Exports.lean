import Verif.Spec.RouteOps
import Verif.Model.RouteTable
/-
Independent vocabulary for insertion, export and re-creation of rules and for the built-in action
(C14, C67, C68).
-/
namespace WS.Spec
open WS

/-- The settings in force for a rule: its event's own, else the context's. -/
def inForce (g : EventConfig) (ev : Option Event) : EventConfig :=
  match ev with
  | some e => match e.config with
    | some c => c
    | none => g
  | none => g

/-- A count goes up by one in 16 bits if the result bit says so. -/
def Bumped (n : Nat) (b : Bool) : Nat := if b then (n + 1) % 65536 else n

/-- An address whose wildcard flag is set is stored as zeroes. -/
def blanked (wild : Bool) (a : List Byte) : List Byte := if wild then List.replicate a.length 0 else a

/-- `r` is what a table stores for the new rule `r0`, inserted at time `t` with results `a` under the
settings `g`: event as given; flags as given, minus and plus the configured ones, marked as in the table
(bit 14); wildcarded fields zero; counts as given, plus one for a derogatory (4), commendable (5) or
connect (2) result; expiry as given, else the configured idle time from now; insertion time now. -/
structure StoredAs (g : EventConfig) (t : Int) (a : Flags) (r0 r : Route) : Prop where
  event : r.event = r0.event
  flags : ∀ k, k < 32 → r.flags.getLsbD k =
    (decide (k = 14) || ((r0.flags.getLsbD k && !(inForce g r0.event).routeFlagsToClear.getLsbD k) ||
      (inForce g r0.event).routeFlagsToAdd.getLsbD k))
  family : r.family = if r.flags.getLsbD 0 then 0 else r0.family
  remoteAddr : r.remote.addr = blanked (r.flags.getLsbD 1) r0.remote.addr
  proto : r.proto = if r.flags.getLsbD 2 then 0 else r0.proto
  localPort : r.loc.port = if r.flags.getLsbD 3 then 0 else r0.loc.port
  localAddr : r.loc.addr = blanked (r.flags.getLsbD 4) r0.loc.addr
  remotePort : r.remote.port = if r.flags.getLsbD 5 then 0 else r0.remote.port
  remoteIface : r.remote.iface = if r.flags.getLsbD 6 then 0 else r0.remote.iface
  localIface : r.loc.iface = if r.flags.getLsbD 7 then 0 else r0.loc.iface
  remoteBits : r.remote.bits = r0.remote.bits
  localBits : r.loc.bits = r0.loc.bits
  insertTime : r.data.insertTime = t
  lastHit : r.data.lastHitTime = r0.data.lastHitTime
  lastBoxed : r.data.lastPenaltyboxTime = r0.data.lastPenaltyboxTime
  hits : r.data.hitcount = r0.data.hitcount
  expiry : r.data.purgeAfter =
    if 0 < (inForce g r0.event).routeIdleTimeForPurge ∧ r0.data.purgeAfter = 0
      then t + (inForce g r0.event).routeIdleTimeForPurge else r0.data.purgeAfter
  derogatory : r.data.derogatoryCount = Bumped r0.data.derogatoryCount (a.getLsbD 4)
  commendable : r.data.commendableCount = Bumped r0.data.commendableCount (a.getLsbD 5)
  connections : r.data.connectionCount = Bumped r0.data.connectionCount (a.getLsbD 2 && !r.flags.getLsbD 23)

/-- No rule of the table has the key of `r`. -/
def NewKey (T : RouteTable) (r : Route) : Prop := ∀ x ∈ T.ents, ¬ SameKey x r

/-- The address bytes are as the creation of a rule leaves them: with a mask (second half of the
bytes) no bit outside the mask; otherwise the low `bits mod 8` bits of the last byte are zero — which is
what this code takes for the padding (C13). -/
def Tidy (e : Endpoint) (masked : Bool) : Prop :=
  if masked then ∀ i, i < e.addr.length / 2 → e.addr.getD i 0 &&& e.addr.getD (e.addr.length / 2 + i) 0 = e.addr.getD i 0
  else ∀ j, j < e.bits % 8 → (e.addr.getD (e.addr.length - 1) 0).getLsbD j = false

end WS.Spec
