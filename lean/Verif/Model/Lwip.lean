import Verif.Model.Dispatch
/-
The packet filter for lwIP: the callbacks of src/lwip/packet_filter_glue.c, their installation, and the
part of lwip/LWIP_PACKET_FILTER_API.patch that calls them.

Simplifications: every layer is compiled in (`LWIP_ARP || LWIP_ETHERNET`, `LWIP_IPV4`, `LWIP_IPV6`,
`LWIP_TCP`, `LWIP_UDP`, `LWIP_ICMP`, `LWIP_ICMP6`), assertions of lwIP are not (`LWIP_NOASSERT`), and the
debug output is left out.  Addresses are the bytes in memory.  lwIP itself is not modelled.
-/
namespace WS

namespace AR
/-- Results passed in by callers (wolfsentry/wolfsentry.h:895-915). -/
def SENDING      : Flags := bit 13
def RECEIVED     : Flags := bit 14
def BINDING      : Flags := bit 15
def LISTENING    : Flags := bit 16
def STOPPED_LISTENING : Flags := bit 17
def CONNECTING_OUT : Flags := bit 18
def CLOSED       : Flags := bit 19
def UNREACHABLE  : Flags := bit 20
def SOCK_ERROR   : Flags := bit 21
end AR

namespace Lwip

/-- `packet_filter_event_t` (lwip/LWIP_PACKET_FILTER_API.patch:1128-1144). -/
inductive Reason where
  | binding | dissociate | listening | stopListening | connecting | accepting | closed | remoteReset
  | receiving | sending | addrUnreachable | portUnreachable | inboundErr | outboundErr | closeWait
  deriving DecidableEq, Repr

/-- Values of the enumeration (same lines). -/
def Reason.num : Reason → Nat
  | .binding => 0 | .dissociate => 1 | .listening => 2 | .stopListening => 3 | .connecting => 4
  | .accepting => 5 | .closed => 6 | .remoteReset => 7 | .receiving => 8 | .sending => 9
  | .addrUnreachable => 10 | .portUnreachable => 11 | .inboundErr => 12 | .outboundErr => 13 | .closeWait => 14

/-- `err_t` values the filters return: `ERR_OK`, `ERR_MEM`, `ERR_ABRT`, `ERR_RST`. -/
inductive ErrT where
  | ok | mem | abrt | rst
  deriving DecidableEq, Repr

/-- Outcome of the `switch` on the reason: return `ERR_OK` at once; a NULL control block is dereferenced;
or go on with these route flags and initial results. -/
inductive Sw where
  | pass | crash
  | go (flags ares : Flags)
  deriving DecidableEq, Repr

/-- Flags every filter starts from (e.g. src/lwip/packet_filter_glue.c:83-84). -/
def base : Flags := RF.PARENT_EVENT_WILDCARD
/-- Flags the TCP and UDP filters start from (src/lwip/packet_filter_glue.c:497-499, 710-712). -/
def basePorts : Flags := RF.TCPLIKE_PORT_NUMBERS ||| RF.PARENT_EVENT_WILDCARD

/-- `ethernet_filter_with_wolfsentry`, the switch (src/lwip/packet_filter_glue.c:105-136). -/
def ethSwitch : Reason → Sw
  | .receiving => .go (base ||| RF.DIRECTION_IN) AR.RECEIVED
  | .sending => .go (base ||| RF.DIRECTION_OUT) AR.SENDING
  | .inboundErr => .go (base ||| RF.DIRECTION_IN) AR.SOCK_ERROR
  | .outboundErr => .go (base ||| RF.DIRECTION_OUT) AR.SOCK_ERROR
  | _ => .pass

/-- `ip4_filter_with_wolfsentry` and `ip6_filter_with_wolfsentry`, the switch
(src/lwip/packet_filter_glue.c:246-279, 382-415). -/
def ipSwitch : Reason → Sw
  | .receiving => .go (base ||| RF.DIRECTION_IN) AR.RECEIVED
  | .sending => .go (base ||| RF.DIRECTION_OUT) AR.SENDING
  | .addrUnreachable => .go (base ||| RF.DIRECTION_IN) AR.UNREACHABLE
  | .portUnreachable => .go (base ||| RF.DIRECTION_IN) AR.UNREACHABLE
  | .inboundErr => .go (base ||| RF.DIRECTION_IN) AR.SOCK_ERROR
  | .outboundErr => .go (base ||| RF.DIRECTION_OUT) AR.SOCK_ERROR
  | _ => .pass

/-- Flags for events of a bound socket that has no peer yet (e.g. src/lwip/packet_filter_glue.c:547-551). -/
def noPeer : Flags := RF.DIRECTION_IN ||| RF.SA_REMOTE_ADDR_WILDCARD ||| RF.SA_REMOTE_PORT_WILDCARD

/-- `tcp_filter_with_wolfsentry`, the switch (src/lwip/packet_filter_glue.c:519-597).  `acc`: the flag
`TF_ACCEPTED` of the control block, `none` for a NULL control block. -/
def tcpSwitch (acc : Option Bool) : Reason → Sw
  | .accepting => .go (basePorts ||| RF.DIRECTION_IN) AR.CONNECT
  | .remoteReset | .closed =>
    match acc with
    | none => .crash
    | some true => .go (basePorts ||| RF.DIRECTION_IN) AR.DISCONNECT
    | some false => .go (basePorts ||| RF.DIRECTION_OUT) AR.CLOSED
  | .closeWait =>
    match acc with
    | none => .crash
    | some true => .go (basePorts ||| RF.DIRECTION_IN) 0
    | some false => .go (basePorts ||| RF.DIRECTION_OUT) 0
  | .portUnreachable => .go (basePorts ||| RF.DIRECTION_IN) (AR.UNREACHABLE ||| AR.DEROGATORY)
  | .binding => .go (basePorts ||| noPeer) (AR.BINDING ||| AR.EXCLUDE_REJECT_ROUTES)
  | .listening => .go (basePorts ||| noPeer) (AR.LISTENING ||| AR.EXCLUDE_REJECT_ROUTES)
  | .stopListening => .go (basePorts ||| noPeer) (AR.STOPPED_LISTENING ||| AR.EXCLUDE_REJECT_ROUTES)
  | .receiving => .go (basePorts ||| RF.DIRECTION_IN) AR.RECEIVED
  | .connecting => .go (basePorts ||| RF.DIRECTION_OUT) AR.CONNECTING_OUT
  | .sending => .go (basePorts ||| RF.DIRECTION_OUT) AR.SENDING
  | .inboundErr => .go (basePorts ||| RF.DIRECTION_IN) AR.SOCK_ERROR
  | .outboundErr => .go (basePorts ||| RF.DIRECTION_OUT) AR.SOCK_ERROR
  | .dissociate | .addrUnreachable => .pass

/-- `udp_filter_with_wolfsentry`, the switch (src/lwip/packet_filter_glue.c:733-787). -/
def udpSwitch : Reason → Sw
  | .binding => .go (basePorts ||| noPeer) (AR.BINDING ||| AR.EXCLUDE_REJECT_ROUTES)
  | .connecting => .go (basePorts ||| (RF.DIRECTION_IN ||| RF.DIRECTION_OUT)) AR.CONNECTING_OUT
  | .dissociate => .go (basePorts ||| (RF.DIRECTION_IN ||| RF.DIRECTION_OUT)) AR.CLOSED
  | .closed => .go (basePorts ||| noPeer) (AR.CLOSED ||| AR.EXCLUDE_REJECT_ROUTES)
  | .portUnreachable => .go (basePorts ||| RF.DIRECTION_IN) (AR.UNREACHABLE ||| AR.DEROGATORY)
  | .receiving => .go (basePorts ||| RF.DIRECTION_IN) AR.RECEIVED
  | .sending => .go (basePorts ||| RF.DIRECTION_OUT) AR.SENDING
  | .inboundErr => .go (basePorts ||| RF.DIRECTION_IN) AR.SOCK_ERROR
  | .outboundErr => .go (basePorts ||| RF.DIRECTION_OUT) AR.SOCK_ERROR
  | .accepting | .remoteReset | .listening | .stopListening | .addrUnreachable | .closeWait => .pass

/-- `icmp4_filter_with_wolfsentry` and `icmp6_filter_with_wolfsentry`, the switch
(src/lwip/packet_filter_glue.c:922-956, 1059-1093). -/
def icmpSwitch : Reason → Sw
  | .receiving => .go (base ||| RF.DIRECTION_IN) AR.RECEIVED
  | .sending => .go (base ||| RF.DIRECTION_OUT) AR.SENDING
  | .addrUnreachable => .go (base ||| RF.DIRECTION_IN) (AR.UNREACHABLE ||| AR.DEROGATORY)
  | .portUnreachable => .go (base ||| RF.DIRECTION_IN) (AR.UNREACHABLE ||| AR.DEROGATORY)
  | .inboundErr => .go (base ||| RF.DIRECTION_IN) AR.SOCK_ERROR
  | .outboundErr => .go (base ||| RF.DIRECTION_OUT) AR.SOCK_ERROR
  | _ => .pass

/-- An address argument of a fixed size: its bytes, zeros for a NULL pointer (e.g.
src/lwip/packet_filter_glue.c:139-151). -/
def fixedAddr (size : Nat) : Option (List Byte) → List Byte
  | some a => a.take size
  | none => List.replicate size 0

/-- Interface of an event: the index of the network interface, or `NETIF_NO_INDEX` (e.g.
src/lwip/packet_filter_glue.c:159-162). -/
def ifaceOf : Option Nat → Nat
  | some i => i
  | none => 0

/-- `type` of `ip_addr_t`. -/
inductive IpType where
  | v4 | v6 | any
  deriving DecidableEq, Repr

/-- `ip_addr_t` of a dual-stack build: the type and the bytes of the union (16 bytes of address). -/
structure IpAddr where
  type : IpType
  bytes : List Byte
  deriving DecidableEq, Repr

/-- One endpoint with family, protocol, address of `bits` bits, port and interface. -/
def sockaddr (family bits proto port iface : Nat) (addr : List Byte) : SockAddr :=
  { family := family, proto := proto, ep := { bits := bits, addr := addr, port := port, iface := iface } }

/-- What a filter asks the library. -/
structure Ask where
  flags : Flags
  ares : Flags
  remote : SockAddr
  loc : SockAddr
  deriving DecidableEq, Repr

/-- What a filter does before the library is called: return `ERR_OK`, dereference NULL, or ask. -/
inductive Plan where
  | pass | crash
  | ask (q : Ask)
  deriving DecidableEq, Repr

/-- After the switch: endpoints. -/
def Sw.with (s : Sw) (remote loc : SockAddr) : Plan :=
  match s with
  | .pass => .pass
  | .crash => .crash
  | .go f a => .ask { flags := f, ares := a, remote := remote, loc := loc }

/-- `ethernet_filter_with_wolfsentry` up to the library call (src/lwip/packet_filter_glue.c:74-162):
family `AF_LINK`, 48 bits, the Ethernet type as protocol, no ports. -/
def ethPlan (reason : Reason) (netif : Option Nat) (laddr raddr : Option (List Byte)) (type : Nat) : Plan :=
  (ethSwitch reason).with (sockaddr 118 48 type 0 (ifaceOf netif) (fixedAddr 6 raddr))
    (sockaddr 118 48 type 0 (ifaceOf netif) (fixedAddr 6 laddr))

/-- `ip4_filter_with_wolfsentry` up to the library call (src/lwip/packet_filter_glue.c:212-304). -/
def ip4Plan (reason : Reason) (netif : Option Nat) (laddr raddr : Option (List Byte)) (proto : Nat) : Plan :=
  (ipSwitch reason).with (sockaddr 2 32 proto 0 (ifaceOf netif) (fixedAddr 4 raddr))
    (sockaddr 2 32 proto 0 (ifaceOf netif) (fixedAddr 4 laddr))

/-- `ip6_filter_with_wolfsentry` up to the library call (src/lwip/packet_filter_glue.c:348-440). -/
def ip6Plan (reason : Reason) (netif : Option Nat) (laddr raddr : Option (List Byte)) (proto : Nat) : Plan :=
  (ipSwitch reason).with (sockaddr 10 128 proto 0 (ifaceOf netif) (fixedAddr 16 raddr))
    (sockaddr 10 128 proto 0 (ifaceOf netif) (fixedAddr 16 laddr))

/-- `icmp4_filter_with_wolfsentry` up to the library call (src/lwip/packet_filter_glue.c:889-981): the
ICMP type is the local port. -/
def icmp4Plan (reason : Reason) (netif : Option Nat) (laddr raddr : Option (List Byte)) (type : Nat) : Plan :=
  (icmpSwitch reason).with (sockaddr 2 32 1 0 (ifaceOf netif) (fixedAddr 4 raddr))
    (sockaddr 2 32 1 type (ifaceOf netif) (fixedAddr 4 laddr))

/-- `icmp6_filter_with_wolfsentry` up to the library call (src/lwip/packet_filter_glue.c:1026-1118): the
protocol is `IPPROTO_ICMP`. -/
def icmp6Plan (reason : Reason) (netif : Option Nat) (laddr raddr : Option (List Byte)) (type : Nat) : Plan :=
  (icmpSwitch reason).with (sockaddr 10 128 1 0 (ifaceOf netif) (fixedAddr 16 raddr))
    (sockaddr 10 128 1 type (ifaceOf netif) (fixedAddr 16 laddr))

/-- Endpoints of the TCP and UDP filters (src/lwip/packet_filter_glue.c:599-645, 789-835): the type of the
local address decides the family of both; the local pointer is dereferenced before it is tested. -/
def portsWith (s : Sw) (proto : Nat) (netif : Option Nat) (laddr : Option IpAddr) (lport : Nat) (raddr : Option IpAddr)
    (rport : Nat) : Plan :=
  match s with
  | .pass => .pass
  | .crash => .crash
  | .go f a =>
    match laddr with
    | none => .crash
    | some l =>
      let six := l.type = .v6
      let size := if six then 16 else 4
      let family := if six then 10 else 2
      .ask { flags := f, ares := a,
             remote := sockaddr family (size * 8) proto rport (ifaceOf netif) (fixedAddr size (raddr.map (·.bytes))),
             loc := sockaddr family (size * 8) proto lport (ifaceOf netif) (fixedAddr size (some l.bytes)) }

/-- `tcp_filter_with_wolfsentry` up to the library call (src/lwip/packet_filter_glue.c:484-645). -/
def tcpPlan (acc : Option Bool) (reason : Reason) (netif : Option Nat) (laddr : Option IpAddr) (lport : Nat)
    (raddr : Option IpAddr) (rport : Nat) : Plan :=
  portsWith (tcpSwitch acc reason) 6 netif laddr lport raddr rport

/-- `udp_filter_with_wolfsentry` up to the library call (src/lwip/packet_filter_glue.c:699-835). -/
def udpPlan (reason : Reason) (netif : Option Nat) (laddr : Option IpAddr) (lport : Nat)
    (raddr : Option IpAddr) (rport : Nat) : Plan :=
  portsWith (udpSwitch reason) 17 netif laddr lport raddr rport

/-- The seven callbacks. -/
inductive Layer where
  | ethernet | ip4 | ip6 | icmp4 | icmp6 | tcp | udp
  deriving DecidableEq, Repr

/-- The TCP and UDP callbacks. -/
def Layer.ports : Layer → Bool
  | .tcp | .udp => true
  | _ => false

/-- The arguments of a callback.  `laddr`, `raddr`: NULL or an address; below TCP and UDP only the bytes
exist.  `code`: Ethernet type, IP protocol, or ICMP type.  `accepted`: `TF_ACCEPTED` of the TCP control
block, `none` for NULL. -/
structure Sighting where
  layer : Layer
  reason : Reason
  netif : Option Nat := none
  laddr : Option IpAddr := none
  raddr : Option IpAddr := none
  lport : Nat := 0
  rport : Nat := 0
  code : Nat := 0
  accepted : Option Bool := none
  deriving DecidableEq, Repr

/-- The callback of the layer, up to the library call. -/
def planOf (s : Sighting) : Plan :=
  let lb := s.laddr.map (·.bytes)
  let rb := s.raddr.map (·.bytes)
  match s.layer with
  | .ethernet => ethPlan s.reason s.netif lb rb s.code
  | .ip4 => ip4Plan s.reason s.netif lb rb s.code
  | .ip6 => ip6Plan s.reason s.netif lb rb s.code
  | .icmp4 => icmp4Plan s.reason s.netif lb rb s.code
  | .icmp6 => icmp6Plan s.reason s.netif lb rb s.code
  | .tcp => tcpPlan s.accepted s.reason s.netif s.laddr s.lport s.raddr s.rport
  | .udp => udpPlan s.reason s.netif s.laddr s.lport s.raddr s.rport

/-- From the library's answer to the filter's (src/lwip/packet_filter_glue.c:665-674, 855-863 for TCP and
UDP; 182-188, 324-330, 460-466, 1001-1007, 1138-1144 for the others): errors of the library let the packet
pass. -/
def verdict (ports : Bool) (ret : Except Err DispOk) (a : Flags) : ErrT :=
  match ret with
  | .error _ => .ok
  | .ok _ =>
    if ports && a.has AR.PORT_RESET then .rst
    else if a.has AR.REJECT then .abrt
    else .ok

/-- What a filter returns. -/
inductive Out (σ : Type) where
  /-- NULL dereferenced, or the library did not return -/
  | stuck
  | ret (w : World σ) (e : ErrT)

/-- The thread context could be set up, and torn down again (`WOLFSENTRY_THREAD_HEADER_INIT`,
`WOLFSENTRY_THREAD_TAILER`; src/lwip/packet_filter_glue.c:164-165, 190-191). -/
structure Thr where
  up : Bool := true
  down : Bool := true
  deriving DecidableEq, Repr

/-- A filter callback: `ctx`, the context is not NULL; then the plan, the thread context, the dispatch, and
the verdict (e.g. src/lwip/packet_filter_glue.c:102-103, 164-205).  `ports`: TCP or UDP. -/
def filter {σ : Type} (E : DispEnv σ) (resolve : List Byte → Except Err Event) (ctx : Bool) (thr : Thr) (ports : Bool)
    (plan : Plan) (w : World σ) (fuel : Nat) : Out σ :=
  if !ctx then .ret w .ok
  else match plan with
  | .pass => .ret w .ok
  | .crash => .stuck
  | .ask q =>
    if !thr.up then .ret w .mem
    else match E.dispatchInited resolve w q.remote q.loc q.flags none q.ares fuel with
    | none => .stuck
    | some d => .ret d.w (if !thr.down then .mem else verdict ports d.ret d.ares)

/-! ### The calls in lwIP (lwip/LWIP_PACKET_FILTER_API.patch) -/

/-- `filter_cb` set, `filter_reason_mask`, `filter_arg` not NULL (e.g. lwip/LWIP_PACKET_FILTER_API.patch:
653-673).  A mask is a `u16_t`. -/
structure Slot where
  fn : Bool := false
  mask : Nat := 0
  /-- the context the callback is called with: its number, or NULL -/
  arg : Option Nat := none
  deriving DecidableEq, Repr

/-- The tests in front of every callback (lwip/LWIP_PACKET_FILTER_API.patch:677-687, 715-719, and the same
in the other layers): the callback runs only if set, asked for, and not already running. -/
def gate (s : Slot) (busy : Bool) (reason : Reason) : Bool :=
  s.fn && s.mask.testBit reason.num && !busy

/-- `struct tcp_pcb`, the fields used. -/
structure Pcb where
  localIp : IpAddr
  localPort : Nat
  remoteIp : IpAddr
  remotePort : Nat
  /-- `netif_idx`: 0 unless the socket is bound to an interface -/
  netifIdx : Nat := 0
  accepted : Bool := false
  listening : Bool := false
  deriving DecidableEq, Repr

/-- The packet in hand: addresses and ports of its headers. -/
structure Packet where
  dest : IpAddr
  destPort : Nat
  src : IpAddr
  srcPort : Nat
  deriving DecidableEq, Repr

/-- `netif_get_by_index`: the interface with that index, if there is one. -/
def byIndex (ifs : List Nat) (i : Nat) : Option Nat := if i ≠ 0 ∧ i ∈ ifs then some i else none

/-- The interface of the event (lwip/LWIP_PACKET_FILTER_API.patch:689-690, 730-731). -/
def eventNetif (ifs : List Nat) (pcb : Option Pcb) (netif : Option Nat) : Option Nat :=
  match netif, pcb with
  | some i, _ => some i
  | none, some p => byIndex ifs p.netifIdx
  | none, none => none

/-- `tcp_filter_dispatch_incoming` (lwip/LWIP_PACKET_FILTER_API.patch:673-711) behind the gate. -/
def tcpIncoming (ifs : List Nat) (reason : Reason) (pcb : Option Pcb) (netif : Option Nat) (hdr : Option Packet) : Plan :=
  let n := eventNetif ifs pcb netif
  let acc := pcb.map (·.accepted)
  match hdr, pcb with
  | some h, _ => tcpPlan acc reason n (some h.dest) h.destPort (some h.src) h.srcPort
  | none, some p =>
    if p.listening then tcpPlan acc reason n (some p.localIp) p.localPort none 0
    else tcpPlan acc reason n (some p.localIp) p.localPort (some p.remoteIp) p.remotePort
  | none, none => .pass

/-- `tcp_filter_dispatch_outgoing` (lwip/LWIP_PACKET_FILTER_API.patch:713-744) behind the gate. -/
def tcpOutgoing (ifs : List Nat) (reason : Reason) (pcb : Option Pcb) (netif : Option Nat) : Plan :=
  match pcb with
  | none => .pass
  | some p => tcpPlan (some p.accepted) reason (eventNetif ifs pcb netif) (some p.localIp) p.localPort (some p.remoteIp) p.remotePort

/-- `udp_filter_dispatch_incoming` (lwip/LWIP_PACKET_FILTER_API.patch:1019-1052) behind the gate.
`netifIdx`: the control block's, if there is one; the ports of the header in host order. -/
def udpIncoming (ifs : List Nat) (reason : Reason) (pcb : Option Pcb) (netif : Option Nat) (hdr : Option Packet) : Plan :=
  let n := eventNetif ifs pcb netif
  match hdr, pcb with
  | some h, _ => udpPlan reason n (some h.dest) h.destPort (some h.src) h.srcPort
  | none, some p => udpPlan reason n (some p.localIp) p.localPort none 0
  | none, none => .pass

/-- `udp_filter_dispatch_outgoing` (lwip/LWIP_PACKET_FILTER_API.patch:1054-1083) behind the gate. -/
def udpOutgoing (ifs : List Nat) (reason : Reason) (pcb : Option Pcb) (netif : Option Nat) (laddr : Option IpAddr) (lport : Nat)
    (raddr : Option IpAddr) (rport : Nat) : Plan :=
  udpPlan reason (eventNetif ifs pcb netif) laddr lport raddr rport

/-! ### Installation (src/lwip/packet_filter_glue.c:1155-1366) -/

/-- The callbacks lwIP holds. -/
structure Slots where
  eth : Slot := {}
  ip4 : Slot := {}
  ip6 : Slot := {}
  icmp4 : Slot := {}
  icmp6 : Slot := {}
  tcp : Slot := {}
  udp : Slot := {}
  deriving DecidableEq, Repr

/-- lwIP's callbacks, which contexts have registered the cleanup handler, and how often each context's lock
is held by the installing thread. -/
structure Inst where
  slots : Slots := {}
  hooked : List Nat := []
  held : Nat → Nat := fun _ => 0

/-- The installer's surroundings: `lock`, the mutex is obtained; `push k`, the `k`-th registration of the
cleanup handler in this call has the memory it needs. -/
structure InstEnv where
  lock : Bool := true
  push : Nat → Bool := fun _ => true

/-- `wolfsentry_cleanup_push` of the handler (src/wolfsentry_util.c:3728-3752): nothing to do when already
registered.  `true`: registered. -/
def pushHook (c : Nat) (mem : Bool) (s : Inst) : Inst × Bool :=
  if c ∈ s.hooked then (s, true)
  else if mem then ({ s with hooked := c :: s.hooked }, true)
  else (s, false)

/-- The mutex held once more, or once less. -/
def Inst.take (s : Inst) (c : Nat) : Inst := { s with held := fun x => if x = c then s.held x + 1 else s.held x }
def Inst.drop (s : Inst) (c : Nat) : Inst := { s with held := fun x => if x = c then s.held x - 1 else s.held x }

/-- A callback installed for a mask, or removed (e.g. src/lwip/packet_filter_glue.c:1169-1177). -/
def slotFor (c mask : Nat) : Slot := if mask = 0 then {} else { fn := true, mask := mask, arg := some c }

/-- The installers differ in what they set and in whether a failed registration gives the mutex back:
`WOLFSENTRY_UNLOCK_AND_RERETURN_IF_ERROR` or `WOLFSENTRY_RERETURN_IF_ERROR`. -/
def install (E : InstEnv) (k c mask : Nat) (unlocks : Bool) (set : Slots → Slots) (s : Inst) : Inst × Bool :=
  if !E.lock then (s, false)
  else
    let s1 := s.take c
    if mask = 0 then (({ s1 with slots := set s1.slots } : Inst).drop c, true)
    else
      let p := pushHook c (E.push k) s1
      if p.2 then (({ p.1 with slots := set p.1.slots } : Inst).drop c, true)
      else (if unlocks then p.1.drop c else p.1, false)

/-- `wolfsentry_install_lwip_filter_ethernet_callback` (src/lwip/packet_filter_glue.c:1160-1185). -/
def installEth (E : InstEnv) (k c mask : Nat) : Inst → Inst × Bool :=
  install E k c mask true (fun t => { t with eth := slotFor c mask })

/-- `wolfsentry_install_lwip_filter_ip_callbacks` (src/lwip/packet_filter_glue.c:1187-1232). -/
def installIp (E : InstEnv) (k c mask : Nat) : Inst → Inst × Bool :=
  install E k c mask true (fun t => { t with ip4 := slotFor c mask, ip6 := slotFor c mask })

/-- `wolfsentry_install_lwip_filter_icmp_callbacks` (src/lwip/packet_filter_glue.c:1234-1277): removal leaves
mask and argument of the ICMPv4 callback. -/
def installIcmp (E : InstEnv) (k c mask : Nat) : Inst → Inst × Bool :=
  install E k c mask false (fun t =>
    { t with icmp4 := if mask = 0 then { t.icmp4 with fn := false } else slotFor c mask, icmp6 := slotFor c mask })

/-- The TCP mask closed under accept and close (src/lwip/packet_filter_glue.c:1290-1291):
`FILT_ACCEPTING`, `FILT_CLOSED`, `FILT_REMOTE_RESET` are bits 5, 6, 7. -/
def tcpMask (m : Nat) : Nat := if m &&& 0xe0 ≠ 0 then m ||| 0xe0 else m

/-- `wolfsentry_install_lwip_filter_tcp_callback` (src/lwip/packet_filter_glue.c:1279-1309). -/
def installTcp (E : InstEnv) (k c mask : Nat) : Inst → Inst × Bool :=
  install E k c mask false (fun t => { t with tcp := slotFor c (tcpMask mask) })

/-- `wolfsentry_install_lwip_filter_udp_callback` (src/lwip/packet_filter_glue.c:1311-1337). -/
def installUdp (E : InstEnv) (k c mask : Nat) : Inst → Inst × Bool :=
  install E k c mask true (fun t => { t with udp := slotFor c mask })

/-- The five masks. -/
structure Masks where
  eth : Nat := 0
  ip : Nat := 0
  icmp : Nat := 0
  tcp : Nat := 0
  udp : Nat := 0
  deriving DecidableEq, Repr

/-- Do the next installation unless one has failed (`goto out`). -/
def thenInstall (f : Inst → Inst × Bool) (x : Inst × Bool) : Inst × Bool := if x.2 then f x.1 else x

/-- The five removals after a failure, results ignored (src/lwip/packet_filter_glue.c:1357-1363). -/
def removeAll (E : InstEnv) (c : Nat) (s : Inst) : Inst :=
  (installUdp E 0 c 0 (installTcp E 0 c 0 (installIcmp E 0 c 0 (installIp E 0 c 0 (installEth E 0 c 0 s).1).1).1).1).1

/-- `wolfsentry_install_lwip_filter_callbacks` (src/lwip/packet_filter_glue.c:1339-1366). -/
def installAll (E : InstEnv) (c : Nat) (m : Masks) (s : Inst) : Inst × Bool :=
  if !E.lock then (s, false)
  else
    let x := thenInstall (installUdp E 4 c m.udp) (thenInstall (installTcp E 3 c m.tcp)
      (thenInstall (installIcmp E 2 c m.icmp) (thenInstall (installIp E 1 c m.ip) (installEth E 0 c m.eth (s.take c)))))
    let y := if x.2 then x.1 else removeAll E c x.1
    (y.drop c, x.2)

/-- `wolfsentry_cleanup_lwip_filter_callbacks` (src/lwip/packet_filter_glue.c:1155-1158), run when the
context shuts down: the handler leaves the list (`wolfsentry_cleanup_all`). -/
def cleanup (E : InstEnv) (c : Nat) (s : Inst) : Inst :=
  let x := (installAll E c {} s).1
  { x with hooked := x.hooked.filter (· != c) }

/-- `wolfsentry_context_free` as far as `wolfsentry_cleanup_all` (src/wolfsentry_util.c:3771-3788,
3805-3820): the caller holds the mutex, so the handler, if registered, gets it.  Other handlers are left
out. -/
def shutdown (c : Nat) (s : Inst) : Inst := if c ∈ s.hooked then cleanup {} c s else s

end Lwip
end WS
