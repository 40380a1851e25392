import Verif.Spec.RouteKey
/-
Independent vocabulary for the lookup properties (C09-C11).  Only data types of the model are used.
-/
namespace WS.Spec
open WS

/-- The rule covers the direction of the query: both inbound (bit 10) or both outbound (bit 11). -/
def DirectionOK (r t : Route) : Prop :=
  (r.flags.getLsbD 10 = true ∧ t.flags.getLsbD 10 = true) ∨ (r.flags.getLsbD 11 = true ∧ t.flags.getLsbD 11 = true)

/-- Every action-result bit the rule's event configuration wants set is set, and every one it wants
unset is unset. -/
def FilterOK (ares : Option Flags) (r : Route) : Prop :=
  ∀ a e c, ares = some a → r.event = some e → e.config = some c →
    ∀ k, k < 32 → (c.filterBitsSet.getLsbD k = true → a.getLsbD k = true) ∧
      (c.filterBitsUnset.getLsbD k = true → a.getLsbD k = false)

/-- The caller asked for penalty-boxed rules to be left out (result bits 4 and 5 both set). -/
def ExcludeBoxed (ares : Option Flags) : Prop :=
  ∃ a, ares = some a ∧ a.getLsbD 4 = true ∧ a.getLsbD 5 = true

/-- The rule is penalty-boxed (flag bit 20). -/
def Boxed (r : Route) : Prop := r.flags.getLsbD 20 = true

/-- The rule is a candidate for the query. -/
structure Candidate (ares : Option Flags) (r t : Route) : Prop where
  direction : DirectionOK r t
  filter : FilterOK ares r
  notBoxed : ExcludeBoxed ares → ¬ Boxed r

/-- The query for traffic: its parent event does not matter (flag bit 8 set). -/
def AnyEvent (t : Route) : Route := { t with flags := t.flags ||| BitVec.twoPow 32 8 }

/-- Rules are stored with zero in every field flagged as wildcard (family, remote address bytes,
protocol, local port, local address bytes, remote port, interfaces). -/
structure WildZero (r : Route) : Prop where
  family : r.flags.getLsbD 0 = true → r.family = 0
  remoteAddr : r.flags.getLsbD 1 = true → ∀ b ∈ r.remote.addr, b = 0
  proto : r.flags.getLsbD 2 = true → r.proto = 0
  localPort : r.flags.getLsbD 3 = true → r.loc.port = 0
  localAddr : r.flags.getLsbD 4 = true → ∀ b ∈ r.loc.addr, b = 0
  remotePort : r.flags.getLsbD 5 = true → r.remote.port = 0
  remoteIface : r.flags.getLsbD 6 = true → r.remote.iface = 0
  localIface : r.flags.getLsbD 7 = true → r.loc.iface = 0

/-- All address, port, protocol and interface fields of two rules are the same. -/
structure FieldsEqual (l r : Route) : Prop where
  family : l.family = r.family
  proto : l.proto = r.proto
  remoteAddr : l.remote.addr = r.remote.addr
  remoteBits : l.remote.bits = r.remote.bits
  localAddr : l.loc.addr = r.loc.addr
  localBits : l.loc.bits = r.loc.bits
  remotePort : l.remote.port = r.remote.port
  localPort : l.loc.port = r.loc.port
  remoteIface : l.remote.iface = r.remote.iface
  localIface : l.loc.iface = r.loc.iface

/-- A fully specified query: none of the eight field wildcards, no address masks. -/
def FullySpecified (t : Route) : Prop :=
  (∀ k, k < 8 → t.flags.getLsbD k = false) ∧ t.flags.getLsbD 12 = false ∧ t.flags.getLsbD 13 = false

end WS.Spec
