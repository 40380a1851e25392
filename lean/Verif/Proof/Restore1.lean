import Verif.Spec.Restore
import Verif.Proof.Loaded6
import Verif.Proof.RoundTrip5
/-
C85: one rule is inserted again.
-/
namespace WS.Rs
open WS WS.Conf WS.LT WS.Ld WS.Spec WS.Spec.Load WS.Spec.Ld WS.Spec.Rs WS.Spec.Dump WS.Spec.RoundTrip

variable {issued : Nat → Nat → Prop} {old : List Nat} {H : Host}

theorem seen_bit' (r : Route) {k : Nat} (h : k < 14 ∨ (20 ≤ k ∧ k ≤ 24)) : (seen r).flags.getLsbD k = r.flags.getLsbD k :=
  seen_bit r k (by omega) (by omega)

/-- The flags a bare rule is created with. -/
theorem given_bare {r : Route} (hb : Bare r) {k : Nat} (h : k < 14 ∨ (20 ≤ k ∧ k ≤ 24)) : (givenFlags r.flags).getLsbD k = r.flags.getLsbD k := by
  rw [RoundTrip.given_bit r.flags k (by omega)]
  split
  · rfl
  · rename_i hn
    split
    · rename_i h12; subst h12
      cases h1 : r.flags.getLsbD 1
      · simp
      · rw [(hb.remote h1).2]; rfl
    · split
      · rename_i h13; subst h13
        cases h1 : r.flags.getLsbD 4
        · simp
        · rw [(hb.loc h1).2]; rfl
      · have : k = 8 := by
          simp only [RoundTrip.namedBits, List.mem_cons, List.not_mem_nil, or_false, not_or] at hn
          omega
        subst this; exact hb.event.symm

theorem stored_flags {g : EventConfig} {t : Int} {a : Flags} {r s : Route} (hb : Bare r) (hS : Settled g r)
    (h : StoredAs g t a (asCreated r r.event) s) {k : Nat} (hk : k < 14 ∨ (20 ≤ k ∧ k ≤ 24)) : s.flags.getLsbD k = r.flags.getLsbD k := by
  rw [h.flags k (by omega)]
  have h14 : decide (k = 14) = false := decide_eq_false (by omega)
  have he : (asCreated r r.event).event = r.event := rfl
  have hf : (asCreated r r.event).flags = givenFlags r.flags := rfl
  rw [h14, Bool.false_or, he, hf, given_bare hb hk, hS.flags k hk]

theorem cleared_back {e e' : Endpoint} {aw pw iw : Bool} (hwf : e.WF) (h0 : aw = true → e.bits = 0) (hp : pw = true → e.port = 0)
    (hi : iw = true → e.iface = 0) (a1 : e'.addr = blanked aw (clearedEnd e aw pw iw).addr) (a2 : e'.bits = (clearedEnd e aw pw iw).bits)
    (a3 : e'.port = if pw then 0 else (clearedEnd e aw pw iw).port) (a4 : e'.iface = if iw then 0 else (clearedEnd e aw pw iw).iface) : e = e' := by
  refine Props.endpoint_ext ?_ ?_ ?_ ?_
  · rw [a3]; unfold clearedEnd
    cases h : pw
    · rfl
    · rw [hp h]; rfl
  · rw [a2]; unfold clearedEnd
    cases h : aw
    · rfl
    · rw [h0 h]; rfl
  · rw [a4]; unfold clearedEnd
    cases h : iw
    · rfl
    · rw [hi h]; rfl
  · rw [a1]; unfold clearedEnd blanked
    cases h : aw
    · rfl
    · have := hwf
      unfold Endpoint.WF at this
      rw [h0 h] at this
      have : e.addr = [] := List.length_eq_zero_iff.mp this
      rw [this]; rfl

/-- What is stored for a rule inserted again is seen as the rule. -/
theorem stored_restored {g : EventConfig} {t : Int} {a : Flags} {r s : Route} (hwf : r.WF) (hz : WildZero r) (hb : Bare r) (hS : Settled g r)
    (h : StoredAs g t a (asCreated r r.event) s) : Restored (seen r) (seen s) := by
  have hf := @stored_flags g t a r s hb hS h
  have f0 := hf (k := 0) (by omega)
  have f1 := hf (k := 1) (by omega)
  have f2 := hf (k := 2) (by omega)
  have f3 := hf (k := 3) (by omega)
  have f4 := hf (k := 4) (by omega)
  have f5 := hf (k := 5) (by omega)
  have f6 := hf (k := 6) (by omega)
  have f7 := hf (k := 7) (by omega)
  refine ⟨⟨?_, ?_, ?_, ?_, ?_, ?_⟩, ?_⟩
  · show r.event.map _ = s.event.map _
    rw [h.event]; rfl
  · show r.family = s.family
    rw [h.family, f0]
    show _ = if _ then _ else if _ then 0 else r.family
    cases h0 : r.flags.getLsbD 0
    · simp
    · simp [hz.family h0]
  · show r.proto = s.proto
    rw [h.proto, f2]
    show _ = if _ then _ else if _ then 0 else r.proto
    cases h0 : r.flags.getLsbD 2
    · simp
    · simp [hz.proto h0]
  · refine cleared_back hwf.1 (fun h => (hb.remote h).1) hz.remotePort hz.remoteIface ?_ ?_ ?_ ?_
    · rw [← f1]; have := h.remoteAddr; rw [f1] at this ⊢; exact this
    · exact h.remoteBits
    · have := h.remotePort; rw [f5] at this; exact this
    · have := h.remoteIface; rw [f6] at this; exact this
  · refine cleared_back hwf.2 (fun h => (hb.loc h).1) hz.localPort hz.localIface ?_ ?_ ?_ ?_
    · have := h.localAddr; rw [f4] at this; exact this
    · exact h.localBits
    · have := h.localPort; rw [f3] at this; exact this
    · have := h.localIface; rw [f7] at this; exact this
  · intro k hk
    rw [seen_bit' r (by omega), seen_bit' s (by omega), hf (by omega)]
  · intro k h1 h2
    rw [seen_bit' r (by omega), seen_bit' s (by omega), hf (by omega)]

/-- Rules inserted under the settings in force are settled. -/
theorem settled_of_stored {g : EventConfig} {t : Int} {a : Flags} {r0 r : Route} (h : StoredAs g t a r0 r)
    (hs : (inForce g r.event).routeFlagsToAdd.getLsbD 14 = false ∧ (inForce g r.event).routeFlagsToAdd.getLsbD 16 = false) : Settled g r := by
  refine ⟨?_, hs⟩
  intro k hk
  rw [h.flags k (by omega), ← h.event]
  have h14 : decide (k = 14) = false := decide_eq_false (by omega)
  rw [h14]
  cases r0.flags.getLsbD k <;> cases (inForce g r.event).routeFlagsToClear.getLsbD k <;> cases (inForce g r.event).routeFlagsToAdd.getLsbD k <;> rfl

end WS.Rs
