import Verif.Proof.RouteMask
import Verif.Props.TableState
import Verif.Props.LwipAsk
/-
C08, C09, C10 and C64 for rules whose addresses may carry masks.
-/
namespace WS.Props
open WS Spec

theorem anyEvent_unmasked {t : Route} (h : Unmasked t) : Unmasked (AnyEvent t) := by
  refine ⟨?_, ?_⟩
  · have := h.1; simp only [AnyEvent, BitVec.getLsbD_or, this, BitVec.getLsbD_twoPow]; decide
  · have := h.2; simp only [AnyEvent, BitVec.getLsbD_or, this, BitVec.getLsbD_twoPow]; decide

theorem wild_any (r t : Route) (k : Nat) (hk : k ≠ 8) : wild r (AnyEvent t) k = wild r t k := by
  unfold wild AnyEvent
  have : (BitVec.twoPow 32 8).getLsbD k = false := by
    rw [BitVec.getLsbD_twoPow]; simp; intro h; exact absurd h.symm hk
  rw [BitVec.getLsbD_or, this, Bool.or_false]

theorem anyEvent_regular {r t : Route} (h : Regular r t) : Regular r (AnyEvent t) := by
  unfold Regular at *
  rw [wild_any r t 1 (by decide), wild_any r t 4 (by decide)]
  exact h

/-- C08 for rules with prefixes and masks: in matching mode a rule and a query without masks compare
equal exactly when the rule covers the query in every field. -/
theorem C08_covers_iff (rule pkt : Route) (hl : rule.WF) (hr : pkt.WF) (hu : Unmasked pkt) (hreg : Regular rule pkt) :
    (routeKeyCmp1 rule pkt true).1 = .eq ↔ RuleCovers rule pkt :=
  routeKeyCmp1_covers rule pkt hl hr hu hreg

/-- C09 for rules with prefixes and masks: the rule an inexact lookup returns covers the query. -/
theorem C09_sound_masked_partial (T : RouteTable) (t r : Route) (ares : Option Flags) (fuel : Nat) (inx : Flags)
    (hwf : ∀ x ∈ T.ents, x.WF) (ht : t.WF) (hdir : t.flags.getLsbD 10 = true ∨ t.flags.getLsbD 11 = true) (hu : Unmasked t)
    (h : lookup T t false ares fuel = some (.ok (r, inx))) (hreg : Regular r t) :
    r ∈ T.ents ∧ RuleCovers r (AnyEvent t) ∧ DirectionOK r t ∧ FilterOK ares r ∧
    (ExcludeBoxed ares → ¬ Boxed r ∨ SameKey r (AnyEvent t)) := by
  obtain ⟨hm, hc, hd, hf, hx⟩ := lookup_sound_core T t r ares fuel inx hwf ht hdir h
  refine ⟨hm, ?_, hd, hf, hx⟩
  have hu' := anyEvent_unmasked hu
  rcases hc with hc | hs
  · exact (C08_covers_iff r (AnyEvent t) (hwf r hm) ht hu' (anyEvent_regular hreg)).1 hc
  · have m12 : r.flags.getLsbD 12 = false := (hs.keyFlags 12 (by decide)).trans hu'.1
    have m13 : r.flags.getLsbD 13 = false := (hs.keyFlags 13 (by decide)).trans hu'.2
    refine ⟨Or.inl hs.family, Or.inr ?_, Or.inl hs.proto, Or.inl hs.localPort, Or.inr ?_, Or.inl hs.remotePort,
      Or.inl hs.remoteIface, Or.inl hs.localIface, Or.inl ⟨hs.prio, hs.label⟩⟩
    · unfold SideCovers CidrMatch; rw [m12, if_neg (by decide), if_pos hs.remoteBits]; exact hs.remoteAddr
    · unfold SideCovers CidrMatch; rw [m13, if_neg (by decide), if_pos hs.localBits]; exact hs.localAddr

/-- C10 for families with mask rules, over every history and without reference to the comparison: as
long as some rule of the query's family carries a mask, a rule of that family that covers a fully specified
query never loses to a rule of worse priority, nor to no rule. -/
theorem C10_masked_family_reach_partial (g : EventConfig) (b : Bool) (T : RouteTable) (hT : Reach g b T) (t r m : Route) (ares : Option Flags)
    (fuel : Nat) (res : Except Err (Route × Flags)) (ht : t.WF) (hfs : FullySpecified t)
    (hm : m ∈ T.ents) (hmask : m.flags.getLsbD 12 = true ∨ m.flags.getLsbD 13 = true) (hmf : m.family = t.family)
    (hr : r ∈ T.ents) (hc : Candidate ares r t) (hcov : RuleCovers r (AnyEvent t)) (hreg : Regular r t) (hf : r.family = t.family)
    (h : lookup T t false ares fuel = some res) :
    ∃ x inx, res = .ok (x, inx) ∧ priority x ≤ priority r := by
  have hbm : ∃ n, (t.family, n) ∈ T.bitmaskAfs := by
    have := (C48_bitmask_families g b T hT t.family).2 ⟨m, hm, hmask, hmf⟩
    unfold isBitmaskMatching at this
    rw [List.any_eq_true] at this
    obtain ⟨⟨a, n⟩, h1, h2⟩ := this
    have e : a = t.family := by simpa using h2
    exact ⟨n, e ▸ h1⟩
  have hu : Unmasked (AnyEvent t) := anyEvent_unmasked hfs.2
  exact C10_bitmask_family_partial T t r ares fuel res hT.inv.1.core.sorted
    (fun x hx => by rw [← effPriority_eq]; exact hT.inv.1.core.hpLe x hx) ht hfs hbm hr hc
    ((C08_covers_iff r (AnyEvent t) (hT.inv.1.core.sorted.wf r hr) ht hu (anyEvent_regular hreg)).2 hcov) hf h

/-! A rule for the hosts 10.x.2.y (mask 255.0.255.0) in a reachable table, and a packet from one of them. -/

/-- TCP from 10.x.2.y to local port 22, inbound. -/
def ruleMasked : Route :=
  { ruleSsh 0 RF.REMOTE_ADDR_BITMASK with remote := { bits := 64, addr := [10#8, 0#8, 2#8, 0#8, 255#8, 0#8, 255#8, 0#8] } }
def tblMasked : RouteTable := ins (ins {} (ruleAll 0 0) 2) ruleMasked 3
def storedMasked : Route := tblMasked.ents.getD 1 {}

theorem tblMasked_reach : Reach {} false tblMasked := by
  unfold tblMasked
  refine reach_ins (reach_ins (Reach.init 0 0 none none 0) _ 2 (by decide) (by decide) (fun _ h => by cases h) ?_) _ 3 (by decide) (by decide) (by decide) ?_
  · intro x hx
    have : (insert1 {} {} {} (ruleAll 0 0) (.ok 1) (.ok 2) 0).map (·.actionsFailed) = some false := by decide
    rw [hx] at this; simpa using this
  · intro x hx
    have : (insert1 {} {} (ins {} (ruleAll 0 0) 2) ruleMasked (.ok 1) (.ok 3) 0).map (·.actionsFailed) = some false := by decide
    rw [hx] at this; simpa using this

theorem storedMasked_regular : Regular storedMasked pktSsh := by
  unfold Regular SideRegular; decide

example : storedMasked ∈ tblMasked.ents ∧ storedMasked.flags.getLsbD 12 = true ∧ FullySpecified pktSsh ∧ Unmasked pktSsh ∧
    Candidate (some 0) storedMasked pktSsh ∧ RuleCovers storedMasked (AnyEvent pktSsh) ∧
    lookup tblMasked pktSsh false (some 0) 9 = some (.ok (storedMasked, bit 1 ||| bit 4 ||| bit 5 ||| bit 6 ||| bit 7)) := by
  refine ⟨by decide, by decide, ⟨by decide, by decide, by decide⟩, ⟨by decide, by decide⟩, ?_, ?_, by decide⟩
  · refine ⟨by unfold DirectionOK; decide, ?_, ?_⟩
    · intro a e c _ h2 _
      have : storedMasked.event = none := by decide
      rw [this] at h2; cases h2
    · rintro ⟨a, h1, h2, _⟩; cases h1; exact absurd h2 (by decide)
  · exact (C08_covers_iff _ _ (by decide) (by decide) (anyEvent_unmasked ⟨by decide, by decide⟩) (anyEvent_regular storedMasked_regular)).1 (by decide)
/-- A packet from 10.1.3.3 is not covered, and the catch-all rule decides. -/
example : (lookup tblMasked { pktSsh with remote := { pktSsh.remote with addr := [10#8, 1#8, 3#8, 3#8] } } false (some 0) 9).map
    (fun x => x.toOption.map (fun y => y.1.id)) = some (some 2) := by decide

end WS.Props

namespace WS.Props
open WS Spec WS.Lwip Spec.Lwip

/-- C64 for rules whose addresses may carry masks: the rule an event is decided by covers the traffic in
every field. -/
theorem C64_decided_by_covering_rule_partial {s : Sighting} {t r : Route} {a inx : Flags} {T : RouteTable} {fuel : Nat}
    (hT : ∀ x ∈ T.ents, x.WF) (hw : Whole s) (hq : Question s t a)
    (hl : lookup T t false (some a) fuel = some (.ok (r, inx)))
    (h1 : r.flags.getLsbD 1 = true ∨ Peerless s ∨ SideRegular (r.flags.getLsbD 12) r.remote { bits := addrBytes s * 8 })
    (h2 : r.flags.getLsbD 4 = true ∨ SideRegular (r.flags.getLsbD 13) r.loc { bits := addrBytes s * 8 }) :
    r ∈ T.ents ∧
    (r.flags.getLsbD 0 = true ∨ r.family = familyOf s) ∧
    (r.flags.getLsbD 2 = true ∨ r.proto = protoOf s) ∧
    (r.flags.getLsbD 3 = true ∨ r.loc.port = localPort s) ∧
    (r.flags.getLsbD 5 = true ∨ Peerless s ∨ r.remote.port = remotePort s) ∧
    (r.flags.getLsbD 6 = true ∨ r.remote.iface = shownIface s) ∧
    (r.flags.getLsbD 7 = true ∨ r.loc.iface = shownIface s) ∧
    (r.flags.getLsbD 4 = true ∨ SideCovers (r.flags.getLsbD 13) r.loc { bits := addrBytes s * 8, addr := shown (addrBytes s) s.laddr }) ∧
    (r.flags.getLsbD 1 = true ∨ Peerless s ∨ SideCovers (r.flags.getLsbD 12) r.remote { bits := addrBytes s * 8, addr := shown (addrBytes s) s.raddr }) ∧
    (r.flags.getLsbD 10 = true ∧ Inbound s ∨ r.flags.getLsbD 11 = true ∧ Outbound s) ∧
    FilterOK (some a) r := by
  have hu : Unmasked t := ⟨question_bit hq 12 (by unfold AskedBit; omega), question_bit hq 13 (by unfold AskedBit; omega)⟩
  have hwild : ∀ k, k ≠ 8 → (wild r (AnyEvent t) k = true ↔ r.flags.getLsbD k = true ∨ AskedBit s k) := by
    intro k hk
    rw [wild_any r t k hk]
    unfold wild
    rw [Bool.or_eq_true, ← hq.2.1 k]
  have hno : ∀ k, k ≠ 8 → ¬ AskedBit s k → (wild r (AnyEvent t) k = true ↔ r.flags.getLsbD k = true) := by
    intro k hk h
    rw [hwild k hk]; simp [h]
  have hfam : (AnyEvent t).family = familyOf s ∧ (AnyEvent t).proto = protoOf s ∧
      (AnyEvent t).loc = { bits := addrBytes s * 8, addr := shown (addrBytes s) s.laddr, port := localPort s, iface := shownIface s } ∧
      (AnyEvent t).remote = { bits := addrBytes s * 8, addr := shown (addrBytes s) s.raddr, port := remotePort s, iface := shownIface s } := by
    unfold AnyEvent; rw [hq.1]; exact ⟨rfl, rfl, rfl, rfl⟩
  have p1 : AskedBit s 1 ↔ Peerless s := by unfold AskedBit; simp
  have p5 : AskedBit s 5 → Peerless s := by unfold AskedBit; intro h; simpa using h
  have hreg : Regular r t := by
    have eb : t.remote.bits = addrBytes s * 8 ∧ t.loc.bits = addrBytes s * 8 := by rw [hq.1]; exact ⟨rfl, rfl⟩
    refine ⟨?_, ?_⟩
    · rw [← wild_any r t 1 (by decide), hwild 1 (by decide), p1]
      unfold SideRegular at *
      rw [eb.1]
      rcases h1 with h | h | h
      · exact .inl (.inl h)
      · exact .inl (.inr h)
      · exact .inr h
    · rw [← wild_any r t 4 (by decide), hno 4 (by decide) (by unfold AskedBit; omega)]
      unfold SideRegular at *
      rw [eb.2]
      exact h2
  obtain ⟨c1, c2, c3, c4, _⟩ := C09_sound_masked_partial T t r (some a) fuel inx hT (question_wf hq hw) (question_direction hq) hu hl hreg
  refine ⟨c1, ?_, ?_, ?_, ?_, ?_, ?_, ?_, ?_, ?_, c4⟩
  · rcases c2.family with h | h
    · exact .inr (h.trans hfam.1)
    · exact .inl ((hno 0 (by decide) (by unfold AskedBit; omega)).1 h)
  · rcases c2.proto with h | h
    · exact .inr (h.trans hfam.2.1)
    · exact .inl ((hno 2 (by decide) (by unfold AskedBit; omega)).1 h)
  · rcases c2.localPort with h | h
    · exact .inr (h.trans (by rw [hfam.2.2.1]))
    · exact .inl ((hno 3 (by decide) (by unfold AskedBit; omega)).1 h)
  · rcases c2.remotePort with h | h
    · exact .inr (.inr (h.trans (by rw [hfam.2.2.2])))
    · rcases (hwild 5 (by decide)).1 h with h | h
      · exact .inl h
      · exact .inr (.inl (p5 h))
  · rcases c2.remoteIface with h | h
    · exact .inr (h.trans (by rw [hfam.2.2.2]))
    · exact .inl ((hno 6 (by decide) (by unfold AskedBit; omega)).1 h)
  · rcases c2.localIface with h | h
    · exact .inr (h.trans (by rw [hfam.2.2.1]))
    · exact .inl ((hno 7 (by decide) (by unfold AskedBit; omega)).1 h)
  · rcases c2.localAddr with h | h
    · exact .inl ((hno 4 (by decide) (by unfold AskedBit; omega)).1 h)
    · rw [hfam.2.2.1] at h; exact .inr h
  · rcases c2.remoteAddr with h | h
    · rcases (hwild 1 (by decide)).1 h with h | h
      · exact .inl h
      · exact .inr (.inl (p1.1 h))
    · rw [hfam.2.2.2] at h; exact .inr (.inr h)
  · rcases c3 with ⟨h, h'⟩ | ⟨h, h'⟩
    · have := (hq.2.1 10).1 h'
      unfold AskedBit at this
      exact .inl ⟨h, by simpa using this⟩
    · have := (hq.2.1 11).1 h'
      unfold AskedBit at this
      exact .inr ⟨h, by simpa using this⟩

end WS.Props
