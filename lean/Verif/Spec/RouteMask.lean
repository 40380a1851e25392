import Verif.Spec.RouteKey
/-
What it means for a rule, with prefix or mask addresses, to cover a packet (C08, C09, C10, C64).
Only data types and `Spec/RouteKey` are used.
-/
namespace WS.Spec
open WS

/-- One side (remote or local) of a rule covers the same side of a packet.  A masked side holds an
address followed by a mask of the same width: packet AND mask must be the address.  An unmasked side holds
a prefix.  An empty address covers everything and is covered by everything. -/
def SideCovers (masked : Bool) (rule pkt : Endpoint) : Prop :=
  if masked then rule.bits = 0 ∨ pkt.bits = 0 ∨ MaskAgree rule.addr pkt.addr else CidrMatch rule pkt

/-- The shapes of addresses for which the code implements `SideCovers`: a mask exactly as wide as the
packet's address, in whole bytes; a prefix of whole nibbles.  (Others: C06 and C07.) -/
def SideRegular (masked : Bool) (rule pkt : Endpoint) : Prop :=
  if masked then rule.bits = 0 ∨ pkt.bits = 0 ∨ (rule.bits = 2 * pkt.bits ∧ pkt.bits % 8 = 0)
  else min rule.bits pkt.bits % 4 = 0

/-- `rule` covers `pkt` in every field.  Bits 12 and 13 of the rule's flags say which of its addresses
carry masks. -/
structure RuleCovers (rule pkt : Route) : Prop where
  family : FieldMatch (wild rule pkt 0) rule.family pkt.family
  remoteAddr : wild rule pkt 1 = true ∨ SideCovers (rule.flags.getLsbD 12) rule.remote pkt.remote
  proto : FieldMatch (wild rule pkt 2) rule.proto pkt.proto
  localPort : FieldMatch (wild rule pkt 3) rule.loc.port pkt.loc.port
  localAddr : wild rule pkt 4 = true ∨ SideCovers (rule.flags.getLsbD 13) rule.loc pkt.loc
  remotePort : FieldMatch (wild rule pkt 5) rule.remote.port pkt.remote.port
  remoteIface : FieldMatch (wild rule pkt 6) rule.remote.iface pkt.remote.iface
  localIface : FieldMatch (wild rule pkt 7) rule.loc.iface pkt.loc.iface
  event : EventAgree rule pkt ∨ wild rule pkt 8 = true

/-- A query about concrete traffic carries no masks itself. -/
def Unmasked (pkt : Route) : Prop := pkt.flags.getLsbD 12 = false ∧ pkt.flags.getLsbD 13 = false

/-- Both sides of the rule have a regular shape. -/
def Regular (rule pkt : Route) : Prop :=
  (wild rule pkt 1 = true ∨ SideRegular (rule.flags.getLsbD 12) rule.remote pkt.remote) ∧
  (wild rule pkt 4 = true ∨ SideRegular (rule.flags.getLsbD 13) rule.loc pkt.loc)

end WS.Spec
