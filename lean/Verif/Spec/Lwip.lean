import Verif.Model.Lwip
import Verif.Spec.Dispatch
import Verif.Spec.Lookup
/-
What the lwIP packet filter is meant to ask and to answer (C63-C66), written from the documentation of the
events (wolfsentry/wolfsentry_lwip.h:27-42) and of the result bits (wolfsentry/wolfsentry.h:865-915).
-/
namespace WS.Spec.Lwip
open WS WS.Lwip

/-- The events a layer has. -/
def Has : Layer → Reason → Bool
  | .ethernet, r => r = .receiving ∨ r = .sending ∨ r = .inboundErr ∨ r = .outboundErr
  | .tcp, r => r ≠ .dissociate ∧ r ≠ .addrUnreachable
  | .udp, r => r ≠ .accepting ∧ r ≠ .remoteReset ∧ r ≠ .listening ∧ r ≠ .stopListening ∧ r ≠ .addrUnreachable ∧ r ≠ .closeWait
  | _, r => r = .receiving ∨ r = .sending ∨ r = .addrUnreachable ∨ r = .portUnreachable ∨ r = .inboundErr ∨ r = .outboundErr

/-- An event about the end of a TCP connection. -/
def Ending (s : Sighting) : Prop :=
  s.layer = .tcp ∧ (s.reason = .closed ∨ s.reason = .remoteReset ∨ s.reason = .closeWait)
instance (s : Sighting) : Decidable (Ending s) := by unfold Ending; infer_instance

/-- What lwIP must pass: TCP and UDP a local address, and the end of a TCP connection a control block. -/
def Proper (s : Sighting) : Prop :=
  (s.layer = .tcp ∨ s.layer = .udp → s.laddr ≠ none) ∧ (Ending s → s.accepted ≠ none)
instance (s : Sighting) : Decidable (Proper s) := by unfold Proper; infer_instance

/-- The socket has no peer (yet, or any more). -/
def Peerless (s : Sighting) : Prop :=
  (s.layer = .tcp ∧ (s.reason = .binding ∨ s.reason = .listening ∨ s.reason = .stopListening)) ∨
  (s.layer = .udp ∧ (s.reason = .binding ∨ s.reason = .closed))
instance (s : Sighting) : Decidable (Peerless s) := by unfold Peerless; infer_instance

/-- A UDP socket is associated with a peer, or dissociated: traffic in both directions. -/
def Associates (s : Sighting) : Prop := s.layer = .udp ∧ (s.reason = .connecting ∨ s.reason = .dissociate)
instance (s : Sighting) : Decidable (Associates s) := by unfold Associates; infer_instance

/-- The event is about outbound traffic: sending, connecting out, an error of outbound traffic, the end of a
connection that was not accepted from outside. -/
def Outbound (s : Sighting) : Prop :=
  s.reason = .sending ∨ s.reason = .outboundErr ∨ s.reason = .connecting ∨ Associates s ∨
  (Ending s ∧ s.accepted = some false)
instance (s : Sighting) : Decidable (Outbound s) := by unfold Outbound; infer_instance

/-- Everything else is inbound; associating a UDP socket is both. -/
def Inbound (s : Sighting) : Prop := ¬ Outbound s ∨ Associates s
instance (s : Sighting) : Decidable (Inbound s) := by unfold Inbound; infer_instance

/-- The rule flags of the question: any event (8); ports are TCP-like (9) for TCP and UDP; direction (10,
11); the peer's address and port do not matter (1, 5) when there is no peer. -/
def AskedBit (s : Sighting) (k : Nat) : Prop :=
  k = 8 ∨ (k = 9 ∧ (s.layer = .tcp ∨ s.layer = .udp)) ∨ (k = 10 ∧ Inbound s) ∨ (k = 11 ∧ Outbound s) ∨
  ((k = 1 ∨ k = 5) ∧ Peerless s)
instance (s : Sighting) (k : Nat) : Decidable (AskedBit s k) := by unfold AskedBit; infer_instance

/-- A TCP connection is being accepted. -/
def Opens (s : Sighting) : Prop := s.layer = .tcp ∧ s.reason = .accepting
instance (s : Sighting) : Decidable (Opens s) := by unfold Opens; infer_instance
/-- A TCP connection that was accepted has ended. -/
def Ends (s : Sighting) : Prop :=
  s.layer = .tcp ∧ (s.reason = .closed ∨ s.reason = .remoteReset) ∧ s.accepted = some true
instance (s : Sighting) : Decidable (Ends s) := by unfold Ends; infer_instance

/-- Traffic to a port or address nobody listens on. -/
def Unreachable (s : Sighting) : Prop := s.reason = .portUnreachable ∨ s.reason = .addrUnreachable
instance (s : Sighting) : Decidable (Unreachable s) := by unfold Unreachable; infer_instance

/-- The result bits that tell the rules (and the event filters and actions) what has happened: 2 CONNECT,
3 DISCONNECT, 4 DEROGATORY, 4 and 5 "leave penalty-boxed rules out", 13 SENDING, 14 RECEIVED, 15 BINDING,
16 LISTENING, 17 STOPPED_LISTENING, 18 CONNECTING_OUT, 19 CLOSED, 20 UNREACHABLE, 21 SOCK_ERROR.
CLOSE_WAIT (22) is not among them: `C64_close_wait_not_told`. -/
def ToldBit (s : Sighting) (k : Nat) : Prop :=
  (k = 2 ∧ Opens s) ∨ (k = 3 ∧ Ends s) ∨
  (k = 4 ∧ Unreachable s ∧ s.layer ≠ .ip4 ∧ s.layer ≠ .ip6) ∨
  ((k = 4 ∨ k = 5) ∧ Peerless s) ∨
  (k = 13 ∧ s.reason = .sending) ∨ (k = 14 ∧ s.reason = .receiving) ∨ (k = 15 ∧ s.reason = .binding) ∨
  (k = 16 ∧ s.reason = .listening) ∨ (k = 17 ∧ s.reason = .stopListening) ∨ (k = 18 ∧ s.reason = .connecting) ∨
  (k = 19 ∧ (s.reason = .dissociate ∨ (s.layer = .udp ∧ s.reason = .closed) ∨
    (s.layer = .tcp ∧ (s.reason = .closed ∨ s.reason = .remoteReset) ∧ s.accepted = some false))) ∨
  (k = 20 ∧ Unreachable s) ∨ (k = 21 ∧ (s.reason = .inboundErr ∨ s.reason = .outboundErr))
instance (s : Sighting) (k : Nat) : Decidable (ToldBit s k) := by unfold ToldBit; infer_instance

/-- Bytes of an address of this event. -/
def addrBytes (s : Sighting) : Nat :=
  match s.layer with
  | .ethernet => 6
  | .ip4 | .icmp4 => 4
  | .ip6 | .icmp6 => 16
  | .tcp | .udp => if s.laddr.map (·.type) = some .v6 then 16 else 4

/-- Address family: 118 Ethernet, 2 IPv4, 10 IPv6. -/
def familyOf (s : Sighting) : Nat := if addrBytes s = 6 then 118 else if addrBytes s = 4 then 2 else 10

/-- The protocol the callback asks about: 6 TCP, 17 UDP, 1 ICMP (also for ICMPv6: `C64_icmp6_is_icmp`),
else the Ethernet type or the IP protocol. -/
def protoOf (s : Sighting) : Nat :=
  match s.layer with
  | .tcp => 6
  | .udp => 17
  | .icmp4 | .icmp6 => 1
  | _ => s.code

/-- Ports: of the sockets; for ICMP the local one is the ICMP type. -/
def remotePort (s : Sighting) : Nat := if s.layer.ports then s.rport else 0
def localPort (s : Sighting) : Nat :=
  if s.layer.ports then s.lport else if s.layer = .icmp4 ∨ s.layer = .icmp6 then s.code else 0

/-- The bytes of an address, zero if there is none. -/
def shown (n : Nat) (a : Option IpAddr) : List Byte :=
  match a with
  | some x => x.bytes.take n
  | none => List.replicate n 0

/-- Interface index, 0 if there is none. -/
def shownIface (s : Sighting) : Nat := s.netif.getD 0

/-- The two endpoints asked about. -/
def remoteOf (s : Sighting) : SockAddr :=
  { family := familyOf s, proto := protoOf s,
    ep := { bits := addrBytes s * 8, addr := shown (addrBytes s) s.raddr, port := remotePort s, iface := shownIface s } }
def localOf (s : Sighting) : SockAddr :=
  { family := familyOf s, proto := protoOf s,
    ep := { bits := addrBytes s * 8, addr := shown (addrBytes s) s.laddr, port := localPort s, iface := shownIface s } }

/-- The traffic of the event as a rule of these flags would describe it. -/
def questionOf (s : Sighting) (f : Flags) : Route :=
  { flags := f, family := familyOf s, proto := protoOf s,
    remote := { bits := addrBytes s * 8, addr := shown (addrBytes s) s.raddr, port := remotePort s, iface := shownIface s },
    loc := { bits := addrBytes s * 8, addr := shown (addrBytes s) s.laddr, port := localPort s, iface := shownIface s } }

/-- The question put to the rules: the traffic `t`, and the results `a` that tell what has happened. -/
def Question (s : Sighting) (t : Route) (a : Flags) : Prop :=
  t = questionOf s t.flags ∧ (∀ k, t.flags.getLsbD k = true ↔ AskedBit s k) ∧ (∀ k, a.getLsbD k = true ↔ ToldBit s k)

/-- Addresses have the bytes their type promises. -/
def Whole (s : Sighting) : Prop :=
  (∀ x, s.laddr = some x → addrBytes s ≤ x.bytes.length) ∧ (∀ x, s.raddr = some x → addrBytes s ≤ x.bytes.length)

/-- The configuration leaves the result bits that count connections alone: 2 CONNECT, 3 DISCONNECT,
8 INSERTED, 10 FALLTHROUGH. -/
def LeavesCounting (c : EventConfig) : Prop :=
  ∀ k, k = 2 ∨ k = 3 ∨ k = 8 ∨ k = 10 → c.resBitsToAdd.getLsbD k = false ∧ c.resBitsToClear.getLsbD k = false

/-- Connections of a rule after an event it has decided: one more when a connection is being accepted and
the limit allows it, one less when an accepted connection has ended. -/
def connectionsAfter (c : EventConfig) (r : Route) (s : Sighting) : Nat :=
  if r.flags.getLsbD 23 = true then r.data.connectionCount
  else if Opens s then (if r.data.connectionCount < c.maxConnectionCount then (r.data.connectionCount + 1) % 65536 else r.data.connectionCount)
  else if Ends s then r.data.connectionCount - 1
  else r.data.connectionCount

/-- The rule rejects the traffic, given the results `st` its verdict starts from: over its connection limit,
penalty-boxed, reaching its derogatory threshold, rejected already (by the configuration), or — not
greenlisted and not accepted already — left to a default policy that rejects. -/
def RuleRejects (c : EventConfig) (pol : Flags) (now : Int) (r : Route) (st : Flags) : Prop :=
  OverLimit c r st ∨ BoxHeld c now r st ∨ ReachesThreshold c r st ∨ st.getLsbD 1 = true ∨
  (r.flags.getLsbD 21 = false ∧ st.getLsbD 0 = false ∧ pol.getLsbD 1 = true)
instance (c : EventConfig) (pol : Flags) (now : Int) (r : Route) (st : Flags) : Decidable (RuleRejects c pol now r st) := by
  unfold RuleRejects; infer_instance

/-- The rule wants a reset sent: rejected by a rule flagged PORT_RESET (24), or the configuration, or the
default policy where it decides, says so (12). -/
def RuleResets (c : EventConfig) (pol : Flags) (now : Int) (r : Route) (st : Flags) : Prop :=
  (RuleRejects c pol now r st ∧ r.flags.getLsbD 24 = true) ∨ st.getLsbD 12 = true ∨
  (¬ OverLimit c r st ∧ ¬ BoxHeld c now r st ∧ ¬ ReachesThreshold c r st ∧ r.flags.getLsbD 21 = false ∧
    st.getLsbD 0 = false ∧ st.getLsbD 1 = false ∧ pol.getLsbD 12 = true)
instance (c : EventConfig) (pol : Flags) (now : Int) (r : Route) (st : Flags) : Decidable (RuleResets c pol now r st) := by
  unfold RuleResets; infer_instance

/-- The answer to lwIP: a reset where TCP or UDP can send one, else an abort, else the packet passes. -/
def answer (ports resets rejects : Prop) [Decidable ports] [Decidable resets] [Decidable rejects] : ErrT :=
  if ports ∧ resets then .rst else if rejects then .abrt else .ok

/-- The rule the event is decided by. -/
def DecidedBy {σ : Type} (w : World σ) (s : Sighting) (fuel : Nat) (r : Route) : Prop :=
  ∃ t a inx, Question s t a ∧ lookup w.T t false (some a) fuel = some (.ok (r, inx))

/-- A history of events handled by callbacks, seen from one rule: `n` connections counted, `m` ended.
Handlers observe; the configuration leaves the counting to the callbacks; every connection that ends has been
counted before; an accept over the limit is not counted.  Everything may differ from event to event:
configuration, clock, handlers, layer, traffic, memory. -/
inductive History {σ : Type} (id : Nat) (w : World σ) : Nat → Nat → World σ → Prop where
  | start : History id w 0 0 w
  /-- decided by another rule or none, or no matter of connections -/
  | other {n m : Nat} {w1 w2 : World σ} {E : DispEnv σ} {resolve : List Byte → Except Err Event} {thr : Thr} {s : Sighting} {fuel : Nat} {e : ErrT} :
      History id w n m w1 → Observing E → (∀ r, DecidedBy w1 s fuel r → LeavesCounting (configFor E w1 r)) →
      (∀ r, DecidedBy w1 s fuel r → r.id = id → ¬ Opens s ∧ ¬ Ends s) →
      filter E resolve true thr s.layer.ports (planOf s) w1 fuel = .ret w2 e → History id w n m w2
  /-- a connection being accepted, within the limit -/
  | opened {n m : Nat} {w1 w2 : World σ} {E : DispEnv σ} {resolve : List Byte → Except Err Event} {thr : Thr} {s : Sighting} {fuel : Nat} {e : ErrT} {r : Route} :
      History id w n m w1 → Observing E → LeavesCounting (configFor E w1 r) → DecidedBy w1 s fuel r → r.id = id →
      Opens s → r.data.connectionCount < (configFor E w1 r).maxConnectionCount → r.data.connectionCount < 65535 → thr.up = true →
      filter E resolve true thr s.layer.ports (planOf s) w1 fuel = .ret w2 e → History id w (n + 1) m w2
  /-- a connection being accepted, over the limit -/
  | refused {n m : Nat} {w1 w2 : World σ} {E : DispEnv σ} {resolve : List Byte → Except Err Event} {thr : Thr} {s : Sighting} {fuel : Nat} {e : ErrT} {r : Route} :
      History id w n m w1 → Observing E → LeavesCounting (configFor E w1 r) → DecidedBy w1 s fuel r → r.id = id →
      Opens s → (configFor E w1 r).maxConnectionCount ≤ r.data.connectionCount →
      filter E resolve true thr s.layer.ports (planOf s) w1 fuel = .ret w2 e → History id w n m w2
  /-- a connection counted before has ended -/
  | ended {n m : Nat} {w1 w2 : World σ} {E : DispEnv σ} {resolve : List Byte → Except Err Event} {thr : Thr} {s : Sighting} {fuel : Nat} {e : ErrT} {r : Route} :
      History id w n m w1 → Observing E → LeavesCounting (configFor E w1 r) → DecidedBy w1 s fuel r → r.id = id →
      Ends s → m < n → thr.up = true →
      filter E resolve true thr s.layer.ports (planOf s) w1 fuel = .ret w2 e → History id w n (m + 1) w2

/-! ### What lwIP shows its callbacks (C64) -/

/-- The interface shown: the one the packet came in by or goes out by, else the one the socket is bound to. -/
def seenIface (ifs : List Nat) (pcb : Option Pcb) (netif : Option Nat) : Option Nat :=
  netif <|> pcb.bind fun p => if p.netifIdx ∈ ifs ∧ p.netifIdx ≠ 0 then some p.netifIdx else none

/-- A packet that has come in, addressed to us. -/
def packetSeen (l : Layer) (reason : Reason) (iface : Option Nat) (h : Packet) (pcb : Option Pcb) : Sighting :=
  { layer := l, reason := reason, netif := iface, laddr := some h.dest, lport := h.destPort, raddr := some h.src, rport := h.srcPort,
    accepted := pcb.map (·.accepted) }

/-- A socket with its peer. -/
def socketSeen (l : Layer) (reason : Reason) (iface : Option Nat) (p : Pcb) : Sighting :=
  { layer := l, reason := reason, netif := iface, laddr := some p.localIp, lport := p.localPort, raddr := some p.remoteIp, rport := p.remotePort,
    accepted := some p.accepted }

/-- A socket without a peer. -/
def listenerSeen (l : Layer) (reason : Reason) (iface : Option Nat) (p : Pcb) : Sighting :=
  { layer := l, reason := reason, netif := iface, laddr := some p.localIp, lport := p.localPort, accepted := some p.accepted }

/-! ### Installation (C66) -/

/-- The callback lwIP holds for a layer. -/
def slotOf (t : Slots) : Layer → Slot
  | .ethernet => t.eth
  | .ip4 => t.ip4
  | .ip6 => t.ip6
  | .icmp4 => t.icmp4
  | .icmp6 => t.icmp6
  | .tcp => t.tcp
  | .udp => t.udp

/-- The mask asked for, per layer. -/
def maskFor (m : Masks) : Layer → Nat
  | .ethernet => m.eth
  | .ip4 | .ip6 => m.ip
  | .icmp4 | .icmp6 => m.icmp
  | .tcp => m.tcp
  | .udp => m.udp

/-- The events by which connections are counted. -/
def Counting (r : Reason) : Prop := r = .accepting ∨ r = .closed ∨ r = .remoteReset
instance (r : Reason) : Decidable (Counting r) := by unfold Counting; infer_instance

/-- The events asked for: those in the mask; and, for TCP, all the counting events if one of them is. -/
def Wanted (m : Masks) (l : Layer) (r : Reason) : Prop :=
  (maskFor m l).testBit r.num = true ∨ (l = .tcp ∧ Counting r ∧ ∃ q, Counting q ∧ m.tcp.testBit q.num = true)

/-- The event reaches the callback of context `c`. -/
def Reaches (t : Slots) (c : Nat) (l : Layer) (r : Reason) : Prop :=
  gate (slotOf t l) false r = true ∧ (slotOf t l).arg = some c

/-- No event reaches any callback. -/
def Silent (t : Slots) : Prop := ∀ l busy r, gate (slotOf t l) busy r = false

/-- What contexts do over time: `gone`, the contexts that have been shut down.  Installations, of one layer
or all, may fail in every way; a context that is gone installs nothing. -/
inductive Life : List Nat → Inst → Prop where
  | start : Life [] {}
  | all {gone : List Nat} {s : Inst} (E : InstEnv) (c : Nat) (m : Masks) : Life gone s → c ∉ gone → Life gone (installAll E c m s).1
  | eth {gone : List Nat} {s : Inst} (E : InstEnv) (k c m : Nat) : Life gone s → c ∉ gone → Life gone (installEth E k c m s).1
  | ip {gone : List Nat} {s : Inst} (E : InstEnv) (k c m : Nat) : Life gone s → c ∉ gone → Life gone (installIp E k c m s).1
  | icmp {gone : List Nat} {s : Inst} (E : InstEnv) (k c m : Nat) : Life gone s → c ∉ gone → Life gone (installIcmp E k c m s).1
  | tcp {gone : List Nat} {s : Inst} (E : InstEnv) (k c m : Nat) : Life gone s → c ∉ gone → Life gone (installTcp E k c m s).1
  | udp {gone : List Nat} {s : Inst} (E : InstEnv) (k c m : Nat) : Life gone s → c ∉ gone → Life gone (installUdp E k c m s).1
  | shut {gone : List Nat} {s : Inst} (c : Nat) : Life gone s → c ∉ gone → Life (c :: gone) (shutdown c s)

end WS.Spec.Lwip
