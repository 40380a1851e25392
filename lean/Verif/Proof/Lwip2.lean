import Verif.Proof.Lwip
import Verif.Props.DispatchApi
import Verif.Props.RouteInit
/-
Proofs about the lwIP packet filter, continued: the question is always well-formed, and what a dispatch with
observing handlers leaves alone.
-/
namespace WS.Lwip
open WS WS.Spec WS.Spec.Lwip WS.Props

def sound (l : Layer) (acc : Option Bool) (r : Reason) : Bool :=
  match swOf l acc r with
  | .pass => true
  | .crash => true
  | .go f a => flagsSensical f && f.has (RF.DIRECTION_IN ||| RF.DIRECTION_OUT) && !f.has RF.REMOTE_ADDR_BITMASK && !f.has RF.LOCAL_ADDR_BITMASK &&
      initedResultOK a && !f.has (RF.REMOTE_ADDR_BITMASK ||| RF.LOCAL_ADDR_BITMASK)

theorem sound_all (l : Layer) (acc : Option Bool) (r : Reason) : sound l acc r = true := by
  rcases acc with _ | _ | _ <;> cases l <;> cases r <;> decide

theorem addrBytes_cases (s : Sighting) : addrBytes s = 6 ∨ addrBytes s = 4 ∨ addrBytes s = 16 := by
  unfold addrBytes
  split <;> (try split) <;> simp

theorem padAddr_whole (a : List Byte) (n : Nat) : padAddr a (n * 8) = a := by
  unfold padAddr
  simp

theorem question_init (s : Sighting) (hh : Has s.layer s.reason = true) (hp : Proper s) :
    ∃ f a, planOf s = .ask { flags := f, ares := a, remote := remoteOf s, loc := localOf s } ∧
      (∀ k, f.getLsbD k = true ↔ AskedBit s k) ∧ (∀ k, a.getLsbD k = true ↔ ToldBit s k) ∧
      routeInit none (remoteOf s) (localOf s) f = .ok (questionOf s f) ∧ initedResultOK a = true ∧
      f.has (RF.REMOTE_ADDR_BITMASK ||| RF.LOCAL_ADDR_BITMASK) = false := by
  obtain ⟨f, a, h1, h2, h3⟩ := planOf_ask s hh hp
  refine ⟨f, a, h1, h2, h3, ?_⟩
  have hs := sound_all s.layer s.accepted s.reason
  rw [planOf_eq s hp.1] at h1
  have hgo : swOf s.layer s.accepted s.reason = .go f a := by
    cases hsw : swOf s.layer s.accepted s.reason with
    | pass => rw [hsw] at h1; cases h1
    | crash => rw [hsw] at h1; cases h1
    | go f' a' => rw [hsw] at h1; cases h1; rfl
  unfold sound at hs
  rw [hgo] at hs
  simp only [Bool.and_eq_true, Bool.not_eq_true'] at hs
  obtain ⟨⟨⟨⟨⟨e1, e2⟩, e3⟩, e4⟩, e5⟩, e6⟩ := hs
  refine ⟨?_, e5, e6⟩
  have hb : ¬ (bitsToBytes (remoteOf s).ep.bits + bitsToBytes (localOf s).ep.bits > 65535) := by
    have := addrBytes_cases s
    simp only [remoteOf, localOf, bitsToBytes_eq]
    omega
  unfold routeInit
  rw [if_neg hb]
  simp only [e2, e3, e4, e1, Bool.not_true, Bool.false_eq_true, if_false, false_and]
  simp only [initEndpoint, Bool.false_eq_true, if_false, remoteOf, localOf, padAddr_whole, questionOf]

/-- The callback on a proper event. -/
theorem filter_ask {σ : Type} (E : DispEnv σ) (resolve : List Byte → Except Err Event) (thr : Thr) (s : Sighting) (w : World σ) (fuel : Nat)
    (hh : Has s.layer s.reason = true) (hp : Proper s) (hup : thr.up = true) :
    ∃ f a, (∀ k, f.getLsbD k = true ↔ AskedBit s k) ∧ (∀ k, a.getLsbD k = true ↔ ToldBit s k) ∧
      planOf s = .ask { flags := f, ares := a, remote := remoteOf s, loc := localOf s } ∧
      routeInit none (remoteOf s) (localOf s) f = .ok (questionOf s f) ∧
      f.has (RF.REMOTE_ADDR_BITMASK ||| RF.LOCAL_ADDR_BITMASK) = false ∧
      filter E resolve true thr s.layer.ports (planOf s) w fuel =
        match E.dispatch1 resolve w (remoteOf s) (localOf s) f none a fuel with
        | none => .stuck
        | some d => .ret d.w (if !thr.down then .mem else verdict s.layer.ports d.ret d.ares) := by
  obtain ⟨f, a, h1, h2, h3, h4, h5, h6⟩ := question_init s hh hp
  refine ⟨f, a, h2, h3, h1, h4, h6, ?_⟩
  unfold filter
  rw [h1]
  simp only [hup, Bool.not_true, Bool.false_eq_true, if_false]
  unfold DispEnv.dispatchInited
  rw [if_pos h5]
  rfl

theorem dispatch0_ret {σ : Type} {E : DispEnv σ} {trigger : Option Event} {target : Route} {ref : RuleRef} {w : World σ} {a : Flags}
    {x : World σ × Flags × Except Err Unit} (hb : target.flags.has (RF.REMOTE_ADDR_BITMASK ||| RF.LOCAL_ADDR_BITMASK) = false)
    (h : E.dispatch0 trigger target ref w a = some x) : x.2.2 = .ok () := by
  unfold DispEnv.dispatch0 at h
  rw [hb] at h
  simp only [Bool.false_eq_true, if_false] at h
  split at h
  · cases h
  · split at h
    · cases h
    · cases h; rfl

theorem inexactTarget_mask (t : Route) (hb : t.flags.has (RF.REMOTE_ADDR_BITMASK ||| RF.LOCAL_ADDR_BITMASK) = false) :
    (inexactTarget t).flags.has (RF.REMOTE_ADDR_BITMASK ||| RF.LOCAL_ADDR_BITMASK) = false := by
  rw [has_mask_or, Bool.or_eq_false_iff] at hb ⊢
  rw [has_of_bit (m := RF.REMOTE_ADDR_BITMASK) (k := 12) rfl (by decide), has_of_bit (m := RF.LOCAL_ADDR_BITMASK) (k := 13) rfl (by decide)] at hb ⊢
  show (t.flags ||| bit 8).getLsbD 12 = false ∧ (t.flags ||| bit 8).getLsbD 13 = false
  rw [getLsbD_or_bit _ _ _ (by decide), getLsbD_or_bit _ _ _ (by decide)]
  simpa using hb

/-- With a well-formed question and no event label, a dispatch that returns succeeds. -/
theorem dispatch1_ret {σ : Type} {E : DispEnv σ} {resolve : List Byte → Except Err Event} {w : World σ} {remote loc : SockAddr} {f a : Flags}
    {fuel : Nat} {d : DispRes σ} {t : Route} (ht : routeInit none remote loc f = .ok t)
    (hb : t.flags.has (RF.REMOTE_ADDR_BITMASK ||| RF.LOCAL_ADDR_BITMASK) = false)
    (h : E.dispatch1 resolve w remote loc f none a fuel = some d) : ∃ k, d.ret = .ok k := by
  unfold DispEnv.dispatch1 at h
  have htrig : triggerOf resolve f none = .ok none := rfl
  simp only [htrig, ht] at h
  split at h
  · cases h
  · rename_i r inx hl
    split at h
    · cases h
    · rename_i w2 a2 res hd
      split at h
      · cases h
      · cases h
        have := dispatch0_ret hb hd
        simp only at this
        subst this
        exact ⟨_, rfl⟩
  · split at h
    · split at h
      · cases h
      · rename_i w2 a2 res hd
        cases h
        have := dispatch0_ret (inexactTarget_mask t hb) hd
        simp only at this
        subst this
        exact ⟨_, rfl⟩
    · cases h; exact ⟨_, rfl⟩

end WS.Lwip
