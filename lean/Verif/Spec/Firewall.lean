import Verif.Spec.Loaded
import Verif.Spec.Dispatch
import Verif.Spec.Lookup
/-
What the rules in force mean for a packet (C86): which rules cover it, which of them comes first, and what is answered.
-/
namespace WS.Spec.Fw
open WS WS.Spec WS.Spec.Ld WS.LT

/-- A packet or connection a program asks about: family, protocol, the two ends, and the flags of the call (bit 10 inbound, bit 11
outbound). -/
structure Packet where
  family : Nat
  proto : Nat
  remote : Endpoint
  loc : Endpoint
  flags : Flags

/-- As the call takes it. -/
def Packet.from (p : Packet) : SockAddr := { family := p.family, proto := p.proto, ep := p.remote }
def Packet.to (p : Packet) : SockAddr := { family := p.family, proto := p.proto, ep := p.loc }

/-- The packet is fully known: no wildcards or masks, a direction, addresses of whole bytes (at most 32 KB each). -/
structure Definite (p : Packet) : Prop where
  known : ∀ k, k < 8 → p.flags.getLsbD k = false
  bare : p.flags.getLsbD 12 = false ∧ p.flags.getLsbD 13 = false
  direction : p.flags.getLsbD 10 = true ∨ p.flags.getLsbD 11 = true
  remote : p.remote.addr.length * 8 = p.remote.bits ∧ p.remote.bits ≤ 262136
  loc : p.loc.addr.length * 8 = p.loc.bits ∧ p.loc.bits ≤ 262136

/-- The rule covers the packet: its direction, and each field unless the rule has a wildcard for it; of an address, the bits of the rule's
prefix.  (Bit 0 family, 1 remote address, 2 protocol, 3 local port, 4 local address, 5 remote port, 6 and 7 interfaces.) -/
structure Covers (s : Seen) (p : Packet) : Prop where
  direction : (s.flags.getLsbD 10 = true ∧ p.flags.getLsbD 10 = true) ∨ (s.flags.getLsbD 11 = true ∧ p.flags.getLsbD 11 = true)
  family : s.flags.getLsbD 0 = true ∨ s.family = p.family
  remote : s.flags.getLsbD 1 = true ∨ PrefixAgree s.remote.bits s.remote.addr p.remote.addr
  proto : s.flags.getLsbD 2 = true ∨ s.proto = p.proto
  localPort : s.flags.getLsbD 3 = true ∨ s.loc.port = p.loc.port
  loc : s.flags.getLsbD 4 = true ∨ PrefixAgree s.loc.bits s.loc.addr p.loc.addr
  remotePort : s.flags.getLsbD 5 = true ∨ s.remote.port = p.remote.port
  remoteIface : s.flags.getLsbD 6 = true ∨ s.remote.iface = p.remote.iface
  localIface : s.flags.getLsbD 7 = true ∨ s.loc.iface = p.loc.iface

/-- The rule's event does not filter the call out by its action results. -/
def Admits (v : View) (s : Seen) (a : Flags) : Prop :=
  ∀ l e c, s.event = some l → v.events l = some e → e.config = some c →
    ∀ k, k < 32 → (c.filterBitsSet.getLsbD k = true → a.getLsbD k = true) ∧ (c.filterBitsUnset.getLsbD k = true → a.getLsbD k = false)

/-- The priority of a rule is that of its event, 0 without one; the smaller number comes first. -/
def rank (v : View) (s : Seen) : Nat := ((s.event.bind v.events).map (·.priority)).getD 0

/-- Nothing of the rule is left open: all its fields are those of the packet. -/
structure Exact (s : Seen) (p : Packet) : Prop where
  family : s.family = p.family
  proto : s.proto = p.proto
  remoteAddr : s.remote.addr = p.remote.addr
  remoteBits : s.remote.bits = p.remote.bits
  localAddr : s.loc.addr = p.loc.addr
  localBits : s.loc.bits = p.loc.bits
  remotePort : s.remote.port = p.remote.port
  localPort : s.loc.port = p.loc.port
  remoteIface : s.remote.iface = p.remote.iface
  localIface : s.loc.iface = p.loc.iface

/-- A rule of the ordinary kind: for one family, without masks, its prefixes a multiple of four bits. -/
structure Ordinary (s : Seen) : Prop where
  family : s.flags.getLsbD 0 = false
  noMask : s.flags.getLsbD 12 = false ∧ s.flags.getLsbD 13 = false
  remote : s.remote.bits % 4 = 0
  loc : s.loc.bits % 4 = 0

/-- The rule's prefixes are no longer than the packet's addresses, where the families are the same. -/
def Fitting (s : Seen) (p : Packet) : Prop := s.family = p.family → s.remote.bits ≤ p.remote.bits ∧ s.loc.bits ≤ p.loc.bits

/-- The bits of an address behind its prefix are zero. -/
def Tidy (e : Endpoint) : Prop := ∀ i, e.bits ≤ i → i < 8 * e.addr.length → addrBit e.addr i = false

/-- The rule comes first among those that cover the packet (but for exact rules). -/
def First (v : View) (a : Flags) (p : Packet) (s : Seen) : Prop :=
  s ∈ v.rules ∧ Covers s p ∧ Admits v s a ∧ ∀ x ∈ v.rules, Covers x p → Admits v x a → ¬ Exact x p → rank v s ≤ rank v x

/-- No rule covers the packet (but for exact rules). -/
def Uncovered (v : View) (a : Flags) (p : Packet) : Prop := ∀ x ∈ v.rules, Covers x p → Admits v x a → Exact x p

/-- The answer of a rule that has just been loaded: REJECT (bit 1) from the penalty box (bit 20), ACCEPT (bit 0) when green-listed (bit 21),
else that of the default policy, with FALLTHROUGH (bit 10). -/
structure Answers (policy : Flags) (s : Seen) (ares : Flags) : Prop where
  boxed : s.flags.getLsbD 20 = true → ares.getLsbD 1 = true ∧ ares.getLsbD 0 = false
  green : s.flags.getLsbD 20 = false → s.flags.getLsbD 21 = true → ares.getLsbD 0 = true ∧ ares.getLsbD 1 = false
  plain : s.flags.getLsbD 20 = false → s.flags.getLsbD 21 = false →
    ares.getLsbD 10 = true ∧ ares.getLsbD 0 = policy.getLsbD 0 ∧ ares.getLsbD 1 = policy.getLsbD 1

/-- The answer without a rule: the default policy, with FALLTHROUGH. -/
def Default (policy a ares : Flags) : Prop := ∀ k, ares.getLsbD k = (a.getLsbD k || policy.getLsbD k || decide (10 = k))

/-- The configuration does not decide by itself: it adds and clears neither verdicts nor reports (bits 0 to 5), nor the marks INSERTED (8) and
FALLTHROUGH (10). -/
def Neutral (c : EventConfig) : Prop :=
  ∀ k, k < 6 ∨ k = 8 ∨ k = 10 → c.resBitsToAdd.getLsbD k = false ∧ c.resBitsToClear.getLsbD k = false

/-- No configuration in force decides by itself: not the global one, and not that of an event. -/
def Quiet (v : View) : Prop := Neutral v.config ∧ ∀ l e c, v.events l = some e → e.config = some c → Neutral c

/-- A call that reports nothing: no verdict, no behaviour, no connection opened (bits 0, 1, 2, 4, 5), no marks. -/
def Silent (a : Flags) : Prop := ∀ k, k = 0 ∨ k = 1 ∨ k = 2 ∨ k = 4 ∨ k = 5 ∨ k = 8 ∨ k = 10 → a.getLsbD k = false

/-- A dispatch about the packet ends as the rules in force say: a rule that comes first answers (and the call reports that a rule was found); or
none covers the packet, and the default policy answers (and the call reports that). -/
def Decides (v : View) (a : Flags) (p : Packet) (ret : Except Err DispOk) (ares : Flags) : Prop :=
  (∃ s, First v a p s ∧ ret = .ok .ok ∧ Answers v.policy s ares) ∨ Uncovered v a p ∧ ret = .ok .usedFallback ∧ Default v.policy a ares

end WS.Spec.Fw
