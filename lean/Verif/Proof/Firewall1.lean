import Verif.Spec.Firewall
import Verif.Props.Lookup
import Verif.Props.RouteInit
import Verif.Proof.Loaded6
import Verif.Proof.Dispatch
/-
Rules that cover a packet, as the lookup sees them.
-/
namespace WS.Fw
open WS WS.Spec WS.Spec.Ld WS.Spec.Fw WS.LT WS.Ld WS.Props

/-- The packet as the target of a lookup. -/
def targetOf (ev : Option Event) (p : Packet) : Route :=
  { event := ev, flags := p.flags, family := p.family, proto := p.proto, remote := p.remote, loc := p.loc }

theorem init_packet {p : Packet} (hp : Definite p) (ev : Option Event) : routeInit ev p.from p.to p.flags = .ok (targetOf ev p) := by
  have h1 := hp.remote
  have h2 := hp.loc
  rcases routeInit_cases ev p.from p.to p.flags with ⟨_, h⟩ | ⟨h, _⟩ | ⟨h, _⟩
  · rw [h, hp.bare.1, hp.bare.2]
    have e1 : initEndpoint p.remote false = p.remote := by
      unfold initEndpoint padAddr
      rw [if_neg (by decide), if_pos (by omega)]
    have e2 : initEndpoint p.loc false = p.loc := by
      unfold initEndpoint padAddr
      rw [if_neg (by decide), if_pos (by omega)]
    show Except.ok _ = Except.ok _
    unfold targetOf Packet.from Packet.to
    simp only [e1, e2]
  all_goals
    exfalso
    apply h
    refine ⟨?_, hp.direction, fun g => ?_, fun g => ?_, fun g => ?_, fun g => ?_⟩
    · show (p.remote.bits + 7) / 8 + (p.loc.bits + 7) / 8 ≤ 65535; omega
    · rw [hp.bare.1] at g; cases g
    · rw [hp.bare.2] at g; cases g
    · rw [hp.known 0 (by decide)] at g; cases g
    · rw [hp.known 2 (by decide)] at g; cases g

theorem target_wf {p : Packet} (hp : Definite p) (ev : Option Event) : (targetOf ev p).WF := by
  have h1 := hp.remote
  have h2 := hp.loc
  unfold Route.WF Endpoint.WF targetOf
  simp only [bitsToBytes_eq]
  omega

theorem target_full {p : Packet} (hp : Definite p) (ev : Option Event) : FullySpecified (targetOf ev p) := ⟨hp.known, hp.bare⟩

theorem cidr_prefix {l r : Endpoint} (hl : l.WF) (hr : r.addr.length * 8 = r.bits) (hb : l.bits ≤ r.bits) :
    CidrMatch l r ↔ PrefixAgree l.bits l.addr r.addr := by
  unfold Endpoint.WF at hl
  rw [bitsToBytes_eq] at hl
  unfold CidrMatch
  by_cases he : l.bits = r.bits
  · rw [if_pos he]
    have hlen : l.addr.length = r.addr.length := by omega
    constructor
    · intro h i _; rw [h]
    · intro h
      have h8 : PrefixAgree (8 * l.addr.length) l.addr r.addr := by
        intro i hi; exact h i (by omega)
      have hb := (bytes_bits l.addr r.addr l.addr.length).2 h8
      refine List.ext_getElem hlen (fun j h1 h2 => ?_)
      have := hb j h1
      unfold byteAt at this
      simpa [List.getD, h1, h2] using this
  · rw [if_neg he, Nat.min_eq_left hb]
    constructor
    · rintro (h | h | h)
      · intro i hi; omega
      · omega
      · exact h
    · intro h; exact .inr (.inr h)

theorem seen_flag (r : Route) (k : Nat) (hk : k ≠ 16 ∧ k ≠ 17) : (seen r).flags.getLsbD k = r.flags.getLsbD k := by
  show (r.flags &&& ~~~(bit 16 ||| bit 17)).getLsbD k = _
  rw [BitVec.getLsbD_and, BitVec.getLsbD_not, BitVec.getLsbD_or, bit_getLsbD _ _ (by decide), bit_getLsbD _ _ (by decide)]
  by_cases h32 : k < 32
  · simp [h32]; intro _; omega
  · rw [BitVec.getLsbD_of_ge _ _ (by omega)]; rfl

theorem any_low (t : Route) (k : Nat) (hk : k ≠ 8) : (AnyEvent t).flags.getLsbD k = t.flags.getLsbD k := by
  show (t.flags ||| BitVec.twoPow 32 8).getLsbD k = _
  rw [BitVec.getLsbD_or, BitVec.getLsbD_twoPow]
  have : decide (8 = k) = false := by simp; omega
  rw [this]; simp

section
variable {p : Packet} {ev : Option Event} {r : Route}

theorem wild_eq (hp : Definite p) (k : Nat) (hk : k < 8) : wild r (AnyEvent (targetOf ev p)) k = (seen r).flags.getLsbD k := by
  unfold wild
  rw [any_low _ _ (by omega), seen_flag _ _ (by omega)]
  show (r.flags.getLsbD k || p.flags.getLsbD k) = _
  rw [hp.known k hk, Bool.or_false]

theorem covers_iff (hp : Definite p) (hr : r.WF) (hf : (seen r).family = p.family ∨ (seen r).flags.getLsbD 0 = true → r.remote.bits ≤ p.remote.bits ∧ r.loc.bits ≤ p.loc.bits) :
    Covers (seen r) p ↔ RuleMatches CidrMatch r (AnyEvent (targetOf ev p)) ∧ DirectionOK r (targetOf ev p) := by
  have hd : DirectionOK r (targetOf ev p) ↔
      ((seen r).flags.getLsbD 10 = true ∧ p.flags.getLsbD 10 = true) ∨ ((seen r).flags.getLsbD 11 = true ∧ p.flags.getLsbD 11 = true) := by
    rw [seen_flag _ _ (by decide), seen_flag _ _ (by decide)]; exact Iff.rfl
  have fm : ∀ k a b, k < 8 → (FieldMatch (wild r (AnyEvent (targetOf ev p)) k) a b ↔ ((seen r).flags.getLsbD k = true ∨ a = b)) := by
    intro k a b hk
    unfold FieldMatch
    rw [wild_eq hp k hk]
    exact Or.comm
  constructor
  · intro h
    have hb := hf (h.family.elim .inr .inl)
    refine ⟨⟨(fm 0 _ _ (by decide)).2 h.family, ?_, (fm 2 _ _ (by decide)).2 h.proto, (fm 3 _ _ (by decide)).2 h.localPort, ?_, (fm 5 _ _ (by decide)).2 h.remotePort,
      (fm 6 _ _ (by decide)).2 h.remoteIface, (fm 7 _ _ (by decide)).2 h.localIface, .inr ?_⟩, hd.2 h.direction⟩
    · rw [wild_eq hp 1 (by decide)]
      exact h.remote.imp_right (cidr_prefix hr.1 hp.remote.1 hb.1).2
    · rw [wild_eq hp 4 (by decide)]
      exact h.loc.imp_right (cidr_prefix hr.2 hp.loc.1 hb.2).2
    · unfold wild AnyEvent; simp
  · rintro ⟨h, h'⟩
    have hfam := (fm 0 _ _ (by decide)).1 h.family
    have hb := hf (hfam.elim .inr .inl)
    refine ⟨hd.1 h', hfam, ?_, (fm 2 _ _ (by decide)).1 h.proto, (fm 3 _ _ (by decide)).1 h.localPort, ?_, (fm 5 _ _ (by decide)).1 h.remotePort,
      (fm 6 _ _ (by decide)).1 h.remoteIface, (fm 7 _ _ (by decide)).1 h.localIface⟩
    · have := h.remoteAddr
      rw [wild_eq hp 1 (by decide)] at this
      exact this.imp_right (cidr_prefix hr.1 hp.remote.1 hb.1).1
    · have := h.localAddr
      rw [wild_eq hp 4 (by decide)] at this
      exact this.imp_right (cidr_prefix hr.2 hp.loc.1 hb.2).1

theorem exact_iff : Exact (seen r) p ↔ FieldsEqual r (targetOf ev p) :=
  ⟨fun h => ⟨h.family, h.proto, h.remoteAddr, h.remoteBits, h.localAddr, h.localBits, h.remotePort, h.localPort, h.remoteIface, h.localIface⟩,
   fun h => ⟨h.family, h.proto, h.remoteAddr, h.remoteBits, h.localAddr, h.localBits, h.remotePort, h.localPort, h.remoteIface, h.localIface⟩⟩

theorem padZero_of_tidy {e : Endpoint} (hw : e.WF) (h4 : e.bits % 4 = 0) (h : Tidy e) : PadZero e := by
  unfold Endpoint.WF at hw
  rw [bitsToBytes_eq] at hw
  intro hb j hj
  have e4 : e.bits % 8 = 4 := by omega
  have := h (8 * (e.bits / 8) + (7 - j)) (by omega) (by omega)
  unfold addrBit at this
  rw [show (8 * (e.bits / 8) + (7 - j)) / 8 = e.bits / 8 by omega, show (8 * (e.bits / 8) + (7 - j)) % 8 = 7 - j by omega] at this
  unfold byteAt
  rw [BitVec.getMsbD_eq_getLsbD] at this
  have hj8 : decide (7 - j < 8) = true := by simp; omega
  rw [hj8, Bool.true_and, show 8 - 1 - (7 - j) = j by omega] at this
  exact this

end

/-- A context whose rule table is in order and whose rules belong to its events. -/
structure Sane (c : Cx) : Prop where
  core : CoreInv c.routes
  linked : ∀ r ∈ c.routes.ents, ∀ e, r.event = some e → e ∈ c.events
  events : Ordered c.events

theorem _root_.WS.Ld.Good.sane {issued : Nat → Nat → Prop} {old : List Nat} {c : Cx} (h : Good issued old c) : Sane c := ⟨h.table.core, h.linked, h.events⟩

variable {c : Cx}

theorem event_of (hG : Sane c) {r : Route} (hr : r ∈ c.routes.ents) : (seen r).event.bind (view c).events = r.event := by
  show (r.event.map (·.label)).bind _ = _
  cases he : r.event with
  | none => rfl
  | some e => exact at_of_mem hG.events (hG.linked r hr e he)

theorem admits_iff (hG : Sane c) {r : Route} (hr : r ∈ c.routes.ents) (a : Flags) : Admits (view c) (seen r) a ↔ FilterOK (some a) r := by
  have he := event_of hG hr
  constructor
  · intro h a' e g ha hev hg k hk
    injection ha with ha; subst ha
    rw [hev] at he
    have hs : (seen r).event = some e.label := by show r.event.map _ = _; rw [hev]; rfl
    rw [hs] at he
    exact h e.label e g hs he hg k hk
  · intro h l e g hs hv hg k hk
    rw [hs] at he
    have he' : r.event = some e := he.symm.trans hv
    exact h a e g rfl he' hg k hk

theorem rank_eq (hG : Sane c) {r : Route} (hr : r ∈ c.routes.ents) : rank (view c) (seen r) = priority r := by
  unfold rank priority
  rw [event_of hG hr]

end WS.Fw
