import Verif.Spec.RouteMask
import Verif.Proof.RouteMatch
namespace WS
open Spec

theorem bitmask_wild (l r : Endpoint) : (cmpAddrsBitmaskful l.addr l.bits r.addr r.bits true true).1 = .eq := by
  unfold cmpAddrsBitmaskful
  generalize (if l.bits < r.bits then l.bits else r.bits) = m
  simp only [Bool.true_or, if_true]
  repeat' split
  all_goals rfl

/-- The comparison of one address in matching mode, both kinds. -/
theorem addrCmpM_covers (l r : Endpoint) (hl : l.WF) (hr : r.WF) (w masked : Bool) (hreg : w = true ∨ SideRegular masked l r) :
    (addrCmpM l r w masked).1 = .eq ↔ w = true ∨ SideCovers masked l r := by
  cases masked with
  | false =>
    rw [(addrCmpM_prefix l r hl hr w).1]
    rcases hreg with h | h
    · simp [h]
    · unfold SideCovers SideRegular at *
      simp only [Bool.false_eq_true, if_false] at *
      rw [codeCidr_eq l r (by omega)]
  | true =>
    unfold addrCmpM
    simp only [if_true]
    cases w with
    | true => simp [bitmask_wild]
    | false =>
      rcases hreg with h | h
      · cases h
      · unfold SideCovers SideRegular at *
        simp only [if_true, Bool.false_eq_true, false_or] at *
        by_cases h1 : l.bits = 0
        · simp only [h1, true_or, iff_true]
          unfold cmpAddrsBitmaskful
          simp
          split <;> rfl
        · by_cases h2 : r.bits = 0
          · simp only [h2, true_or, or_true, iff_true]
            unfold cmpAddrsBitmaskful
            simp
            split <;> rfl
          · simp only [h1, h2, false_or] at h ⊢
            exact (bitmask_match l r hl hr h2 h.2 h.1).1

theorem routeKeyCmp1_general (l r : Route) :
    (routeKeyCmp1 l r true).1 = .eq ↔
      FieldMatch (wild l r 0) l.family r.family ∧
      (addrCmpM l.remote r.remote (wild l r 1) (wild l r 12)).1 = .eq ∧
      FieldMatch (wild l r 2) l.proto r.proto ∧
      FieldMatch (wild l r 3) l.loc.port r.loc.port ∧
      (addrCmpM l.loc r.loc (wild l r 4) (wild l r 13)).1 = .eq ∧
      FieldMatch (wild l r 5) l.remote.port r.remote.port ∧
      FieldMatch (wild l r 6) l.remote.iface r.remote.iface ∧
      FieldMatch (wild l r 7) l.loc.iface r.loc.iface ∧
      (EventAgree l r ∨ wild l r 8 = true) := by
  have hwk : ∀ k, k < 32 → (l.flags ||| r.flags).has (bit k) = wild l r k := by
    intro k hk; rw [Flags.has_bit _ _ hk, BitVec.getLsbD_or]; rfl
  have pe : RF.PARENT_EVENT_WILDCARD = bit 8 := rfl
  have z : ∀ k, (0 : Flags).has (bit k) = false := by
    intro k; unfold Flags.has; simp
  have inx8 : ∀ (c0 c1 c2 c3 c4 c5 c6 c7 : Prop) [Decidable c0] [Decidable c1] [Decidable c2] [Decidable c3] [Decidable c4] [Decidable c5] [Decidable c6] [Decidable c7],
      ((((((((((0 : Flags) ||| if c0 then bit 0 else 0) ||| if c1 then bit 1 else 0) |||
        if c2 then bit 2 else 0) ||| if c3 then bit 3 else 0) ||| if c4 then bit 4 else 0) |||
        if c5 then bit 5 else 0) ||| if c6 then bit 6 else 0) ||| if c7 then bit 7 else 0) : Flags).has (bit 8) = false := by
    intros
    rw [has_or _ _ _ (by decide), has_or _ _ _ (by decide), has_or _ _ _ (by decide), has_or _ _ _ (by decide),
      has_or _ _ _ (by decide), has_or _ _ _ (by decide), has_or _ _ _ (by decide), has_or _ _ _ (by decide)]
    rw [has_ite_bit _ _ _ (by decide) (by decide), has_ite_bit _ _ _ (by decide) (by decide), has_ite_bit _ _ _ (by decide) (by decide), has_ite_bit _ _ _ (by decide) (by decide), has_ite_bit _ _ _ (by decide) (by decide), has_ite_bit _ _ _ (by decide) (by decide), has_ite_bit _ _ _ (by decide) (by decide), has_ite_bit _ _ _ (by decide) (by decide), z]
    simp
  unfold routeKeyCmp1
  simp only [RF.SA_FAMILY_WILDCARD, RF.SA_REMOTE_ADDR_WILDCARD, RF.SA_PROTO_WILDCARD,
    RF.SA_LOCAL_PORT_WILDCARD, RF.SA_LOCAL_ADDR_WILDCARD, RF.SA_REMOTE_PORT_WILDCARD,
    RF.REMOTE_INTERFACE_WILDCARD, RF.LOCAL_INTERFACE_WILDCARD, RF.REMOTE_ADDR_BITMASK,
    RF.LOCAL_ADDR_BITMASK, Bool.not_true, Bool.false_and, Bool.false_eq_true, if_false]
  simp only [(scalarStage_match _ _ _ _ _ _).1, (addrStage_match _ _ _ _ _ _ _).1]
  rw [(eventStage_match l r _ _ (by rw [pe]; exact inx8 ..)).1]
  simp only [pe, hwk _ (by decide : 0 < 32), hwk _ (by decide : 1 < 32), hwk _ (by decide : 2 < 32),
    hwk _ (by decide : 3 < 32), hwk _ (by decide : 4 < 32), hwk _ (by decide : 5 < 32),
    hwk _ (by decide : 6 < 32), hwk _ (by decide : 7 < 32), hwk _ (by decide : 8 < 32),
    hwk _ (by decide : 12 < 32), hwk _ (by decide : 13 < 32)]

theorem routeKeyCmp1_covers (l r : Route) (hl : l.WF) (hr : r.WF) (hu : Unmasked r) (hreg : Regular l r) :
    (routeKeyCmp1 l r true).1 = .eq ↔ RuleCovers l r := by
  have e12 : wild l r 12 = l.flags.getLsbD 12 := by unfold wild; rw [hu.1, Bool.or_false]
  have e13 : wild l r 13 = l.flags.getLsbD 13 := by unfold wild; rw [hu.2, Bool.or_false]
  rw [routeKeyCmp1_general, e12, e13, addrCmpM_covers _ _ hl.1 hr.1 _ _ hreg.1, addrCmpM_covers _ _ hl.2 hr.2 _ _ hreg.2]
  constructor
  · rintro ⟨a, b, c, d, e, f, g, h, i⟩
    exact ⟨a, b, c, d, e, f, g, h, i⟩
  · rintro ⟨a, b, c, d, e, f, g, h, i⟩
    exact ⟨a, b, c, d, e, f, g, h, i⟩
end WS
