import Verif.Model.Route
/-
Independent vocabulary for the rule-key properties (C01, C06, C07, C08).  Only the data types of
the model are used, none of its functions.
-/
namespace WS.Spec
open WS

/-- Bit `i` of an address, numbered from 0 at the most significant bit of the first byte — network
order, as in CIDR notation. -/
def addrBit (a : List Byte) (i : Nat) : Bool := (a.getD (i / 8) 0).getMsbD (i % 8)

/-- The first `n` bits agree. -/
def PrefixAgree (n : Nat) (a b : List Byte) : Prop := ∀ i, i < n → addrBit a i = addrBit b i

/-- Effective priority: a rule without a parent event has priority 0. -/
def priority (r : Route) : Nat := (r.event.map (·.priority)).getD 0

/-- Same rule key, field by field.  Key flags are the 14 low bits of the flag word (wildcards,
TCP-like ports, directions, bitmask markers). -/
structure SameKey (l r : Route) : Prop where
  family : l.family = r.family
  proto : l.proto = r.proto
  remoteAddr : l.remote.addr = r.remote.addr
  remoteBits : l.remote.bits = r.remote.bits
  localAddr : l.loc.addr = r.loc.addr
  localBits : l.loc.bits = r.loc.bits
  remotePort : l.remote.port = r.remote.port
  localPort : l.loc.port = r.loc.port
  remoteIface : l.remote.iface = r.remote.iface
  localIface : l.loc.iface = r.loc.iface
  keyFlags : ∀ k, k < 14 → l.flags.getLsbD k = r.flags.getLsbD k
  prio : priority l = priority r
  label : l.event.map (·.label) = r.event.map (·.label)

/-- A scalar field matches when equal or wildcarded by either side. -/
def FieldMatch (wild : Bool) (a b : Nat) : Prop := a = b ∨ wild = true

/-- What a CIDR comparison of two addresses should be: equal lengths need equal addresses; a
zero-length address matches everything; otherwise the shorter prefix decides. -/
def CidrMatch (l r : Endpoint) : Prop :=
  if l.bits = r.bits then l.addr = r.addr
  else l.bits = 0 ∨ r.bits = 0 ∨ PrefixAgree (min l.bits r.bits) l.addr r.addr

/-- `rule` carries an address followed by a mask of the same width as `target`; the target
matches when, byte by byte, the target masked equals the rule's address. -/
def MaskAgree (rule target : List Byte) : Prop :=
  ∀ i, i < target.length →
    (target.getD i 0) &&& (rule.getD (target.length + i) 0) = rule.getD i 0

/-- Parent events agree: same priority, and both absent or the same label. -/
def EventAgree (l r : Route) : Prop :=
  priority l = priority r ∧ l.event.map (·.label) = r.event.map (·.label)

/-- Flag bit `k` is set in either rule. Bits: 0 family, 1 remote address, 2 protocol, 3 local port,
4 local address, 5 remote port, 6 remote interface, 7 local interface, 8 parent event
(wolfsentry/wolfsentry.h:1005-1040). -/
def wild (l r : Route) (k : Nat) : Bool := l.flags.getLsbD k || r.flags.getLsbD k

/-- Neither rule asks for bitmask matching (bits 12 and 13) of its addresses. -/
def NoBitmask (l r : Route) : Prop := wild l r 12 = false ∧ wild l r 13 = false

/-- Field-by-field match, with `addrOK` as the meaning of "the addresses agree". -/
structure RuleMatches (addrOK : Endpoint → Endpoint → Prop) (l r : Route) : Prop where
  family : FieldMatch (wild l r 0) l.family r.family
  remoteAddr : wild l r 1 = true ∨ addrOK l.remote r.remote
  proto : FieldMatch (wild l r 2) l.proto r.proto
  localPort : FieldMatch (wild l r 3) l.loc.port r.loc.port
  localAddr : wild l r 4 = true ∨ addrOK l.loc r.loc
  remotePort : FieldMatch (wild l r 5) l.remote.port r.remote.port
  remoteIface : FieldMatch (wild l r 6) l.remote.iface r.remote.iface
  localIface : FieldMatch (wild l r 7) l.loc.iface r.loc.iface
  event : EventAgree l r ∨ wild l r 8 = true

/-- The field a flag bit stands for differs between the two rules. -/
def Differs (l r : Route) : Nat → Prop
  | 0 => l.family ≠ r.family
  | 1 => ¬ (l.remote.bits = r.remote.bits ∧ l.remote.addr = r.remote.addr)
  | 2 => l.proto ≠ r.proto
  | 3 => l.loc.port ≠ r.loc.port
  | 4 => ¬ (l.loc.bits = r.loc.bits ∧ l.loc.addr = r.loc.addr)
  | 5 => l.remote.port ≠ r.remote.port
  | 6 => l.remote.iface ≠ r.remote.iface
  | 7 => l.loc.iface ≠ r.loc.iface
  | 8 => ¬ EventAgree l r
  | _ => False

end WS.Spec
