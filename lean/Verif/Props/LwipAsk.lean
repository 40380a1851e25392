import Verif.Props.Lwip
/-
C64: what the lwIP packet filter asks the rules, and which rules may decide.
-/
namespace WS.Props
open WS WS.Spec WS.Spec.Lwip WS.Lwip

/-! ## C64 — the question -/

/-- C64: about a proper event of a layer the callback asks one question: family, protocol, addresses, ports
and interface of the traffic, the direction, and what has happened. -/
theorem C64_asks (s : Sighting) (hh : Has s.layer s.reason = true) (hp : Proper s) :
    ∃ q, planOf s = .ask q ∧
      q.remote.family = familyOf s ∧ q.loc.family = familyOf s ∧ q.remote.proto = protoOf s ∧ q.loc.proto = protoOf s ∧
      q.remote.ep = { bits := addrBytes s * 8, addr := shown (addrBytes s) s.raddr, port := remotePort s, iface := shownIface s } ∧
      q.loc.ep = { bits := addrBytes s * 8, addr := shown (addrBytes s) s.laddr, port := localPort s, iface := shownIface s } ∧
      (∀ k, q.flags.getLsbD k = true ↔ AskedBit s k) ∧ (∀ k, q.ares.getLsbD k = true ↔ ToldBit s k) := by
  obtain ⟨f, a, h1, h2, h3⟩ := planOf_ask s hh hp
  exact ⟨_, h1, rfl, rfl, rfl, rfl, rfl, rfl, h2, h3⟩

/-- The events asked about are exactly those the layer has. -/
theorem C64_asks_iff (s : Sighting) (hp : Proper s) : (∃ q, planOf s = .ask q) ↔ Has s.layer s.reason = true := by
  constructor
  · rintro ⟨q, hq⟩
    cases hx : Has s.layer s.reason with
    | true => rfl
    | false => rw [planOf_pass s hx] at hq; cases hq
  · intro hh
    obtain ⟨f, a, h1, _⟩ := planOf_ask s hh hp
    exact ⟨_, h1⟩

theorem shown_length (n : Nat) (x : Option IpAddr) (h : ∀ y, x = some y → n ≤ y.bytes.length) : (shown n x).length = n := by
  cases x with
  | none => simp [shown]
  | some y => have := h y rfl; simp [shown]; omega

theorem question_wf {s : Sighting} {t : Route} {a : Flags} (hq : Question s t a) (hw : Whole s) : t.WF := by
  rw [hq.1]
  unfold Route.WF Endpoint.WF questionOf
  simp only [shown_length _ _ hw.1, shown_length _ _ hw.2, bitsToBytes_eq]
  omega

theorem question_bit {s : Sighting} {t : Route} {a : Flags} (hq : Question s t a) (k : Nat) (h : ¬ AskedBit s k) : t.flags.getLsbD k = false := by
  cases hx : t.flags.getLsbD k with
  | false => rfl
  | true => exact absurd ((hq.2.1 k).1 hx) h

theorem question_direction {s : Sighting} {t : Route} {a : Flags} (hq : Question s t a) : t.flags.getLsbD 10 = true ∨ t.flags.getLsbD 11 = true := by
  by_cases h : Outbound s
  · exact .inr ((hq.2.1 11).2 (by unfold AskedBit; simp [h]))
  · exact .inl ((hq.2.1 10).2 (by unfold AskedBit Inbound; simp [h]))

/-- C64: the rule an event is decided by fits the traffic: its family, protocol, ports and interfaces are
those of the event or left open; its addresses are prefixes of the event's or left open (of a socket without
peer the remote side does not matter); it covers the direction; its event's filter accepts what has
happened; and for a socket without peer it is not penalty-boxed.  For rules without address masks and with
prefixes of whole nibbles. -/
theorem C64_decided_by_fitting_rule_partial {s : Sighting} {t r : Route} {a inx : Flags} {T : RouteTable} {fuel : Nat}
    (hT : ∀ x ∈ T.ents, x.WF) (hw : Whole s) (hq : Question s t a)
    (hl : lookup T t false (some a) fuel = some (.ok (r, inx)))
    (hm : r.flags.getLsbD 12 = false ∧ r.flags.getLsbD 13 = false) (h4 : r.remote.bits % 4 = 0 ∧ r.loc.bits % 4 = 0) :
    r ∈ T.ents ∧
    (r.flags.getLsbD 0 = true ∨ r.family = familyOf s) ∧
    (r.flags.getLsbD 2 = true ∨ r.proto = protoOf s) ∧
    (r.flags.getLsbD 3 = true ∨ r.loc.port = localPort s) ∧
    (r.flags.getLsbD 5 = true ∨ Peerless s ∨ r.remote.port = remotePort s) ∧
    (r.flags.getLsbD 6 = true ∨ r.remote.iface = shownIface s) ∧
    (r.flags.getLsbD 7 = true ∨ r.loc.iface = shownIface s) ∧
    (r.flags.getLsbD 4 = true ∨ CidrMatch r.loc { bits := addrBytes s * 8, addr := shown (addrBytes s) s.laddr }) ∧
    (r.flags.getLsbD 1 = true ∨ Peerless s ∨ CidrMatch r.remote { bits := addrBytes s * 8, addr := shown (addrBytes s) s.raddr }) ∧
    (r.flags.getLsbD 10 = true ∧ Inbound s ∨ r.flags.getLsbD 11 = true ∧ Outbound s) ∧
    FilterOK (some a) r ∧
    (Peerless s → ¬ Boxed r ∨ SameKey r (AnyEvent t)) := by
  have hb : NoBitmask r t := by
    unfold NoBitmask wild
    rw [hm.1, hm.2, question_bit hq 12 (by unfold AskedBit; omega), question_bit hq 13 (by unfold AskedBit; omega)]
    simp
  have hbits : t.remote.bits = addrBytes s * 8 ∧ t.loc.bits = addrBytes s * 8 := by rw [hq.1]; exact ⟨rfl, rfl⟩
  have h1 : min r.remote.bits t.remote.bits % 4 = 0 := by rw [hbits.1]; omega
  have h2 : min r.loc.bits t.loc.bits % 4 = 0 := by rw [hbits.2]; omega
  obtain ⟨c1, c2, c3, c4, c5⟩ := C09_sound_partial T t r (some a) fuel inx hT (question_wf hq hw) (question_direction hq) hl hb h1 h2
  have hwild : ∀ k, k ≠ 8 → (wild r (AnyEvent t) k = true ↔ r.flags.getLsbD k = true ∨ AskedBit s k) := by
    intro k hk
    unfold wild AnyEvent
    rw [Bool.or_eq_true, BitVec.getLsbD_or, Bool.or_eq_true]
    have : (BitVec.twoPow 32 8).getLsbD k = false := by
      rw [BitVec.getLsbD_twoPow]; simp; intro h; exact hk h.symm
    rw [this, ← hq.2.1 k]
    simp
  have hno : ∀ k, k ≠ 8 → ¬ AskedBit s k → (wild r (AnyEvent t) k = true ↔ r.flags.getLsbD k = true) := by
    intro k hk h
    rw [hwild k hk]; simp [h]
  have hfam : (AnyEvent t).family = familyOf s ∧ (AnyEvent t).proto = protoOf s ∧
      (AnyEvent t).loc = { bits := addrBytes s * 8, addr := shown (addrBytes s) s.laddr, port := localPort s, iface := shownIface s } ∧
      (AnyEvent t).remote = { bits := addrBytes s * 8, addr := shown (addrBytes s) s.raddr, port := remotePort s, iface := shownIface s } := by
    unfold AnyEvent; rw [hq.1]; exact ⟨rfl, rfl, rfl, rfl⟩
  have p1 : AskedBit s 1 → Peerless s := by unfold AskedBit; intro h; simpa using h
  have p5 : AskedBit s 5 → Peerless s := by unfold AskedBit; intro h; simpa using h
  refine ⟨c1, ?_, ?_, ?_, ?_, ?_, ?_, ?_, ?_, ?_, c4, fun hp => ?_⟩
  · rcases c2.family with h | h
    · exact .inr (h.trans hfam.1)
    · exact .inl ((hno 0 (by decide) (by unfold AskedBit; omega)).1 h)
  · rcases c2.proto with h | h
    · exact .inr (h.trans hfam.2.1)
    · exact .inl ((hno 2 (by decide) (by unfold AskedBit; omega)).1 h)
  · rcases c2.localPort with h | h
    · exact .inr (h.trans (by rw [hfam.2.2.1]))
    · exact .inl ((hno 3 (by decide) (by unfold AskedBit; omega)).1 h)
  · rcases c2.remotePort with h | h
    · exact .inr (.inr (h.trans (by rw [hfam.2.2.2])))
    · rcases (hwild 5 (by decide)).1 h with h | h
      · exact .inl h
      · exact .inr (.inl (p5 h))
  · rcases c2.remoteIface with h | h
    · exact .inr (h.trans (by rw [hfam.2.2.2]))
    · exact .inl ((hno 6 (by decide) (by unfold AskedBit; omega)).1 h)
  · rcases c2.localIface with h | h
    · exact .inr (h.trans (by rw [hfam.2.2.1]))
    · exact .inl ((hno 7 (by decide) (by unfold AskedBit; omega)).1 h)
  · rcases c2.localAddr with h | h
    · exact .inl ((hno 4 (by decide) (by unfold AskedBit; omega)).1 h)
    · rw [hfam.2.2.1] at h; exact .inr h
  · rcases c2.remoteAddr with h | h
    · rcases (hwild 1 (by decide)).1 h with h | h
      · exact .inl h
      · exact .inr (.inl (p1 h))
    · rw [hfam.2.2.2] at h; exact .inr (.inr h)
  · rcases c3 with ⟨h, h'⟩ | ⟨h, h'⟩
    · have := (hq.2.1 10).1 h'
      unfold AskedBit at this
      exact .inl ⟨h, by simpa using this⟩
    · have := (hq.2.1 11).1 h'
      unfold AskedBit at this
      exact .inr ⟨h, by simpa using this⟩
  · apply c5
    refine ⟨a, rfl, (hq.2.2 4).2 ?_, (hq.2.2 5).2 ?_⟩
    · unfold ToldBit; simp [hp]
    · unfold ToldBit; simp [hp]

/-- C64: an event that has a peer is a fully specified question, so no rule that fits better is passed over
(C10). -/
theorem C64_fully_specified {s : Sighting} {t : Route} {a : Flags} (hq : Question s t a) (hp : ¬ Peerless s) : FullySpecified t := by
  refine ⟨fun k hk => question_bit hq k ?_, question_bit hq 12 (by unfold AskedBit; omega), question_bit hq 13 (by unfold AskedBit; omega)⟩
  unfold AskedBit
  rintro (h | h | h | h | h)
  · omega
  · omega
  · omega
  · omega
  · exact hp h.2

/-- C64: with C10, a rule of the table that fits an event with a peer does not lose to a rule of worse
priority, nor to no rule (rules of the event's own family, without address masks, prefixes of whole nibbles,
stored the way insertion leaves them). -/
theorem C64_no_better_rule_partial {s : Sighting} {t r : Route} {a : Flags} {T : RouteTable} {fuel : Nat} {res : Except Err (Route × Flags)}
    (hq : Question s t a) (hp : ¬ Peerless s) (hw : Whole s) (hT : SortedTable T.ents) (hprio : ∀ x ∈ T.ents, T.highestPriority ≤ priority x)
    (hr : r ∈ T.ents) (hmask : r.flags.getLsbD 12 = false ∧ r.flags.getLsbD 13 = false)
    (hc : Candidate (some a) r t) (hm : RuleMatches CidrMatch r (AnyEvent t)) (h1 : r.remote.bits % 4 = 0) (h2 : r.loc.bits % 4 = 0)
    (hwz : WildZero r) (hp1 : PadZero r.remote) (hp2 : PadZero r.loc) (hb1 : r.remote.bits ≤ addrBytes s * 8) (hb2 : r.loc.bits ≤ addrBytes s * 8)
    (hf : r.family = familyOf s) (hne : ¬ FieldsEqual r t) (h : lookup T t false (some a) fuel = some res) :
    ∃ b inx, res = .ok (b, inx) ∧ priority b ≤ priority r := by
  have e1 : t.remote.bits = addrBytes s * 8 ∧ t.loc.bits = addrBytes s * 8 ∧ t.family = familyOf s := by rw [hq.1]; exact ⟨rfl, rfl, rfl⟩
  exact C10_full_query_partial T t r (some a) fuel res hT hprio (question_wf hq hw) (C64_fully_specified hq hp) hr hmask hc hm h1 h2 hwz hp1 hp2
    (by rw [e1.1]; exact hb1) (by rw [e1.2.1]; exact hb2) (by rw [e1.2.2]; exact hf) hne h

/-- Finding: CLOSE_WAIT (22) is asked about, but no result bit says so: a rule cannot tell it apart. -/
theorem C64_close_wait_not_told : ∃ q, planOf { synSsh with reason := .closeWait } = .ask q ∧ q.ares = 0 ∧ Has .tcp .closeWait = true := by
  exact ⟨_, rfl, rfl, rfl⟩

/-- Finding: ICMPv6 is asked about with the protocol number of ICMP (1), not its own (58): a rule for
protocol 58 does not see it. -/
theorem C64_icmp6_is_icmp (s : Sighting) (h : s.layer = .icmp6) (hh : Has s.layer s.reason = true) :
    ∃ q, planOf s = .ask q ∧ q.remote.family = 10 ∧ q.remote.proto = 1 := by
  obtain ⟨q, h1, h2, _, h4, _⟩ := C64_asks s hh ⟨fun hx => by rw [h] at hx; simp at hx, fun hx => by rw [hx.1] at h; cases h⟩
  refine ⟨q, h1, h2.trans ?_, h4.trans ?_⟩
  · simp [familyOf, addrBytes, h]
  · simp [protoOf, h]

/-- Finding: a socket bound to the dual-stack wildcard address is asked about as IPv4, with the first four
bytes of the address, even when the peer is an IPv6 host. -/
theorem C64_dual_stack_shown_as_ip4 :
    ∃ q, planOf { layer := .udp, reason := .sending, laddr := some ⟨.any, List.replicate 16 0⟩,
                  raddr := some ⟨.v6, [32, 1, 13, 184, 0, 0, 0, 0, 0, 0, 0, 0, 0, 0, 0, 1]⟩, lport := 53, rport := 53 } = .ask q ∧
      q.remote.family = 2 ∧ q.remote.ep.addr = [32, 1, 13, 184] := ⟨_, rfl, rfl, rfl⟩

example : Has .tcp .accepting = true ∧ Proper synSsh := by
  refine ⟨rfl, by decide⟩
/-- The rule for port 22 fits the segment. -/
example : ∃ t a, Question synSsh t a ∧ Whole synSsh ∧
    lookup (sshWorld 0 AR.REJECT {}).T t false (some a) 9 = some (.ok (sshRule 0 {}, 242)) := by
  obtain ⟨f, a, h1, h2, h3, _⟩ := question_init synSsh rfl (by decide)
  refine ⟨questionOf synSsh f, a, ⟨rfl, h2, h3⟩, ⟨fun x hx => by cases hx; decide, fun x hx => by cases hx; decide⟩, ?_⟩
  have : (Plan.ask { flags := f, ares := a, remote := remoteOf synSsh, loc := localOf synSsh } : Plan) = planOf synSsh := h1.symm
  have e : f = RF.TCPLIKE_PORT_NUMBERS ||| RF.PARENT_EVENT_WILDCARD ||| RF.DIRECTION_IN ∧ a = AR.CONNECT := by
    have : planOf synSsh = .ask { flags := RF.TCPLIKE_PORT_NUMBERS ||| RF.PARENT_EVENT_WILDCARD ||| RF.DIRECTION_IN, ares := AR.CONNECT,
                                  remote := remoteOf synSsh, loc := localOf synSsh } := by decide
    rw [this] at h1
    cases h1
    exact ⟨rfl, rfl⟩
  obtain ⟨rfl, rfl⟩ := e
  decide

/-! ## C64 — what lwIP shows -/

theorem eventNetif_seen (ifs : List Nat) (pcb : Option Pcb) (netif : Option Nat) : eventNetif ifs pcb netif = seenIface ifs pcb netif := by
  cases netif with
  | some i => cases pcb <;> rfl
  | none =>
    cases pcb with
    | none => rfl
    | some p =>
      show byIndex ifs p.netifIdx = if p.netifIdx ∈ ifs ∧ p.netifIdx ≠ 0 then some p.netifIdx else none
      unfold byIndex
      by_cases h1 : p.netifIdx ≠ 0 <;> by_cases h2 : p.netifIdx ∈ ifs <;> simp [h1, h2]

/-- C64: a TCP segment is shown with its destination as the local and its source as the remote side; without a segment, the socket with its
peer is shown, or without if it listens; with neither, nothing is asked. -/
theorem C64_shows_tcp_incoming (ifs : List Nat) (reason : Reason) (pcb : Option Pcb) (netif : Option Nat) (hdr : Option Packet) :
    (∀ h, hdr = some h → tcpIncoming ifs reason pcb netif hdr = planOf (packetSeen .tcp reason (seenIface ifs pcb netif) h pcb)) ∧
    (∀ p, hdr = none → pcb = some p → p.listening = false →
      tcpIncoming ifs reason pcb netif hdr = planOf (socketSeen .tcp reason (seenIface ifs pcb netif) p)) ∧
    (∀ p, hdr = none → pcb = some p → p.listening = true →
      tcpIncoming ifs reason pcb netif hdr = planOf (listenerSeen .tcp reason (seenIface ifs pcb netif) p)) ∧
    (hdr = none → pcb = none → tcpIncoming ifs reason pcb netif hdr = .pass) := by
  rw [← eventNetif_seen]
  refine ⟨?_, ?_, ?_, ?_⟩
  · rintro h rfl; rfl
  · rintro p rfl rfl hl; simp only [tcpIncoming, hl, Bool.false_eq_true, if_false]; rfl
  · rintro p rfl rfl hl; simp only [tcpIncoming, hl, if_true]; rfl
  · rintro rfl rfl; rfl

/-- C64: outgoing TCP events show the socket with its peer. -/
theorem C64_shows_tcp_outgoing (ifs : List Nat) (reason : Reason) (p : Pcb) (netif : Option Nat) :
    tcpOutgoing ifs reason (some p) netif = planOf (socketSeen .tcp reason (seenIface ifs (some p) netif) p) ∧
    tcpOutgoing ifs reason none netif = .pass := by
  rw [← eventNetif_seen]; exact ⟨rfl, rfl⟩

/-- C64: the same for UDP; a UDP socket without a packet is shown without its peer, and outgoing events show what the caller passes. -/
theorem C64_shows_udp (ifs : List Nat) (reason : Reason) (pcb : Option Pcb) (netif : Option Nat) :
    (∀ h, udpIncoming ifs reason pcb netif (some h) = planOf (packetSeen .udp reason (seenIface ifs pcb netif) h pcb)) ∧
    (∀ p, pcb = some p → udpIncoming ifs reason pcb netif none = planOf (listenerSeen .udp reason (seenIface ifs pcb netif) p)) ∧
    (pcb = none → udpIncoming ifs reason pcb netif none = .pass) ∧
    (∀ laddr lport raddr rport, udpOutgoing ifs reason pcb netif laddr lport raddr rport =
      planOf { layer := .udp, reason := reason, netif := seenIface ifs pcb netif, laddr := laddr, lport := lport, raddr := raddr, rport := rport }) := by
  rw [← eventNetif_seen]
  refine ⟨?_, ?_, ?_, ?_⟩
  · intro h; rfl
  · rintro p rfl; rfl
  · rintro rfl; rfl
  · intro a b c d; rfl

/-- A segment from 10.1.2.3:4000 to 10.9.9.9:22, seen by a socket bound to interface 2. -/
def segment : Packet := { dest := ⟨.v4, [10, 9, 9, 9]⟩, destPort := 22, src := ⟨.v4, [10, 1, 2, 3]⟩, srcPort := 4000 }
def boundSocket : Pcb := { localIp := ⟨.v4, [10, 9, 9, 9]⟩, localPort := 22, remoteIp := ⟨.v4, [10, 1, 2, 3]⟩, remotePort := 4000, netifIdx := 2 }

example : tcpIncoming [1, 2] .receiving (some boundSocket) none (some segment) =
    .ask { flags := RF.TCPLIKE_PORT_NUMBERS ||| RF.PARENT_EVENT_WILDCARD ||| RF.DIRECTION_IN, ares := AR.RECEIVED,
           remote := { family := 2, proto := 6, ep := { bits := 32, addr := [10, 1, 2, 3], port := 4000, iface := 2 } },
           loc := { family := 2, proto := 6, ep := { bits := 32, addr := [10, 9, 9, 9], port := 22, iface := 2 } } } := by
  rw [(C64_shows_tcp_incoming _ _ _ _ _).1 segment rfl]; decide
example : seenIface [1, 2] (some boundSocket) (some 7) = some 7 ∧ seenIface [1] (some boundSocket) none = none := by decide

end WS.Props
