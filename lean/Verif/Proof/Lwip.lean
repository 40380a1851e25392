import Verif.Spec.Lwip
import Verif.Proof.Dispatch
/-
Proofs about the lwIP packet filter (C63-C66).
-/
namespace WS.Lwip
open WS WS.Spec WS.Spec.Lwip

/-! ### What is asked -/

/-- The switch of a layer. -/
def swOf (l : Layer) (acc : Option Bool) (r : Reason) : Sw :=
  match l with
  | .ethernet => ethSwitch r
  | .ip4 | .ip6 => ipSwitch r
  | .icmp4 | .icmp6 => icmpSwitch r
  | .tcp => tcpSwitch acc r
  | .udp => udpSwitch r

/-- Only what the bits depend on. -/
def bare (l : Layer) (acc : Option Bool) (r : Reason) : Sighting := { layer := l, reason := r, accepted := acc }

def goodSw (l : Layer) (acc : Option Bool) (r : Reason) : Bool :=
  match swOf l acc r with
  | .pass => !Has l r
  | .crash => Has l r && decide (Ending (bare l acc r)) && decide (acc = none)
  | .go f a => Has l r && !(decide (Ending (bare l acc r)) && decide (acc = none)) &&
      (List.range 32).all (fun k => (f.getLsbD k == decide (AskedBit (bare l acc r) k)) && (a.getLsbD k == decide (ToldBit (bare l acc r) k)))

theorem goodSw_all (l : Layer) (acc : Option Bool) (r : Reason) : goodSw l acc r = true := by
  rcases acc with _ | _ | _ <;> cases l <;> cases r <;> decide

theorem askedBit_bare (s : Sighting) (k : Nat) : AskedBit s k ↔ AskedBit (bare s.layer s.accepted s.reason) k := Iff.rfl
theorem toldBit_bare (s : Sighting) (k : Nat) : ToldBit s k ↔ ToldBit (bare s.layer s.accepted s.reason) k := Iff.rfl

theorem fixedAddr_eq (n : Nat) (a : Option IpAddr) : fixedAddr n (a.map (·.bytes)) = shown n a := by cases a <;> rfl
theorem ifaceOf_eq (o : Option Nat) : ifaceOf o = o.getD 0 := by cases o <;> rfl

theorem planOf_eq (s : Sighting) (hp : s.layer = .tcp ∨ s.layer = .udp → s.laddr ≠ none) :
    planOf s = (swOf s.layer s.accepted s.reason).with (remoteOf s) (localOf s) := by
  obtain ⟨l, r, n, la, ra, lp, rp, c, acc⟩ := s
  have hports : ∀ (sw : Sw) (proto : Nat) (x : IpAddr), la = some x → portsWith sw proto n la lp ra rp =
      sw.with { family := if x.type = .v6 then 10 else 2, proto := proto, ep := { bits := (if x.type = .v6 then 16 else 4) * 8, addr := shown (if x.type = .v6 then 16 else 4) ra, port := rp, iface := n.getD 0 } }
        { family := if x.type = .v6 then 10 else 2, proto := proto, ep := { bits := (if x.type = .v6 then 16 else 4) * 8, addr := shown (if x.type = .v6 then 16 else 4) la, port := lp, iface := n.getD 0 } } := by
    intro sw proto x hx
    subst hx
    unfold portsWith Sw.with
    cases sw with
    | pass => rfl
    | crash => rfl
    | go f a =>
      simp only [sockaddr, fixedAddr_eq, ifaceOf_eq]
      rfl
  cases l <;> simp only [planOf, ethPlan, ip4Plan, ip6Plan, icmp4Plan, icmp6Plan, fixedAddr_eq, ifaceOf_eq, sockaddr, swOf] <;> try rfl
  · cases la with
    | none => exact absurd rfl (hp (Or.inl rfl))
    | some x =>
      unfold tcpPlan
      rw [hports _ 6 x rfl]
      by_cases h6 : x.type = .v6
      · simp [h6, remoteOf, localOf, familyOf, protoOf, addrBytes, remotePort, localPort, shownIface, Layer.ports]
      · simp [h6, remoteOf, localOf, familyOf, protoOf, addrBytes, remotePort, localPort, shownIface, Layer.ports]
  · cases la with
    | none => exact absurd rfl (hp (Or.inr rfl))
    | some x =>
      unfold udpPlan
      rw [hports _ 17 x rfl]
      by_cases h6 : x.type = .v6
      · simp [h6, remoteOf, localOf, familyOf, protoOf, addrBytes, remotePort, localPort, shownIface, Layer.ports]
      · simp [h6, remoteOf, localOf, familyOf, protoOf, addrBytes, remotePort, localPort, shownIface, Layer.ports]

theorem getLsbD_iff {b : Bool} {p : Prop} [Decidable p] (h : (b == decide p) = true) : b = true ↔ p := by
  have := beq_iff_eq.1 h; rw [this]; exact decide_eq_true_iff

/-- A proper event of the layer is asked about. -/
theorem planOf_ask (s : Sighting) (hh : Has s.layer s.reason = true) (hp : Proper s) :
    ∃ f a, planOf s = .ask { flags := f, ares := a, remote := remoteOf s, loc := localOf s } ∧
      (∀ k, f.getLsbD k = true ↔ AskedBit s k) ∧ (∀ k, a.getLsbD k = true ↔ ToldBit s k) := by
  have hg := goodSw_all s.layer s.accepted s.reason
  rw [planOf_eq s hp.1]
  unfold goodSw at hg
  cases hsw : swOf s.layer s.accepted s.reason with
  | pass => rw [hsw, hh] at hg; cases hg
  | crash =>
    rw [hsw, hh] at hg
    simp only [Bool.true_and, Bool.and_eq_true, decide_eq_true_eq] at hg
    exact absurd hg.2 (hp.2 hg.1)
  | go f a =>
    rw [hsw] at hg
    simp only [Bool.and_eq_true, List.all_eq_true, List.mem_range] at hg
    refine ⟨f, a, rfl, fun k => ?_, fun k => ?_⟩
    · by_cases hk : k < 32
      · exact (getLsbD_iff (hg.2 k hk).1).trans (askedBit_bare s k).symm
      · rw [BitVec.getLsbD_of_ge _ _ (by omega)]
        refine ⟨fun h => (by cases h), fun h => ?_⟩
        unfold AskedBit at h; omega
    · by_cases hk : k < 32
      · exact (getLsbD_iff (hg.2 k hk).2).trans (toldBit_bare s k).symm
      · rw [BitVec.getLsbD_of_ge _ _ (by omega)]
        refine ⟨fun h => (by cases h), fun h => ?_⟩
        unfold ToldBit at h; omega

theorem swOf_pass_iff (l : Layer) (acc : Option Bool) (r : Reason) : swOf l acc r = .pass ↔ Has l r = false := by
  have hg := goodSw_all l acc r
  unfold goodSw at hg
  cases hsw : swOf l acc r with
  | pass => rw [hsw] at hg; simpa using hg
  | crash =>
    rw [hsw] at hg
    simp only [Bool.and_eq_true] at hg
    rw [hg.1.1]; simp
  | go f a =>
    rw [hsw] at hg
    simp only [Bool.and_eq_true] at hg
    rw [hg.1.1]; simp

/-- An event the layer does not have passes. -/
theorem planOf_pass (s : Sighting) (hh : Has s.layer s.reason = false) : planOf s = .pass := by
  have hsw := (swOf_pass_iff s.layer s.accepted s.reason).2 hh
  obtain ⟨l, r, n, la, ra, lp, rp, c, acc⟩ := s
  cases l <;> simp only [swOf] at hsw <;>
    simp only [planOf, ethPlan, ip4Plan, ip6Plan, icmp4Plan, icmp6Plan, tcpPlan, udpPlan, portsWith, hsw] <;> rfl

/-- The rest are NULL pointers. -/
theorem planOf_crash (s : Sighting) (hh : Has s.layer s.reason = true) (hp : ¬ Proper s) : planOf s = .crash := by
  by_cases h1 : s.layer = .tcp ∨ s.layer = .udp → s.laddr ≠ none
  · have h2 : Ending s ∧ s.accepted = none := by
      apply Classical.byContradiction
      intro hc
      exact hp ⟨h1, fun he ha => hc ⟨he, ha⟩⟩
    rw [planOf_eq s h1]
    obtain ⟨⟨hl, hr⟩, ha⟩ := h2
    rw [hl, ha]
    rcases hr with h | h | h <;> rw [h] <;> rfl
  · have h3 : (s.layer = .tcp ∨ s.layer = .udp) ∧ s.laddr = none := by
      apply Classical.byContradiction
      intro hc
      exact h1 (fun h4 h5 => hc ⟨h4, h5⟩)
    obtain ⟨l, r, n, la, ra, lp, rp, c, acc⟩ := s
    obtain ⟨hl, ha⟩ := h3
    simp only at hl ha hh
    subst ha
    have hsw : swOf l acc r ≠ .pass := fun hc => by
      rw [(swOf_pass_iff l acc r).1 hc] at hh; cases hh
    rcases hl with rfl | rfl
    · simp only [swOf] at hsw
      simp only [planOf, tcpPlan, portsWith]
      cases h : tcpSwitch acc r <;> simp_all
    · simp only [swOf] at hsw
      simp only [planOf, udpPlan, portsWith]
      cases h : udpSwitch r <;> simp_all

end WS.Lwip
