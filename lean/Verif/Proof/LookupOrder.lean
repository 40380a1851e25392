import Verif.Proof.Lookup
import Verif.Spec.Lookup
/-
Where a matching rule sits relative to a fully specified query in the table order.
-/
namespace WS
open Spec Std

theorem inexactTarget_eq (t : Route) : inexactTarget t = AnyEvent t := rfl

theorem lex_le_of_pointwise (a b : List Byte) (hlen : a.length ≤ b.length)
    (h : ∀ i, i < a.length → (byteAt a i).toNat ≤ (byteAt b i).toNat) :
    compare (bytesKey a) (bytesKey b) ≠ .gt := by
  induction a generalizing b with
  | nil =>
    cases b with
    | nil => decide
    | cons y b => simp [bytesKey, List.compare_eq_compareLex, List.compareLex]
  | cons x a ih =>
    cases b with
    | nil => simp at hlen
    | cons y b =>
      have h0 := h 0 (by simp)
      simp only [byteAt, List.getD_cons_zero] at h0
      simp only [bytesKey, List.map_cons, List.compare_eq_compareLex, List.compareLex_cons_cons]
      rcases Nat.lt_or_eq_of_le h0 with hl | he
      · rw [Nat.compare_eq_lt.2 hl]; simp [Ordering.then]
      · rw [Nat.compare_eq_eq.2 he]
        have := ih b (by simpa using hlen) (fun i hi => by
          have := h (i + 1) (by simpa using hi)
          simpa [byteAt] using this)
        simpa [bytesKey, List.compare_eq_compareLex] using this

theorem bitsToBytes_mono {m n : Nat} (h : m ≤ n) : bitsToBytes m ≤ bitsToBytes n := by
  rw [bitsToBytes_eq, bitsToBytes_eq]; omega

/-- Rules whose prefix length is not a whole number of bytes have the unused bits of the last byte
zeroed, the way route creation does it (low `bits % 8` bits). -/
def PadZero (e : Endpoint) : Prop :=
  e.bits % 8 ≠ 0 → ∀ j, j < e.bits % 8 → (byteAt e.addr (e.bits / 8)).getLsbD j = false

theorem byte_le_of_top (x y : Byte) (k : Nat) (hk : k ≤ 8)
    (htop : ∀ j, j < 8 - k → x.getMsbD j = y.getMsbD j) (hlow : ∀ j, j < k → x.getLsbD j = false) :
    x.toNat ≤ y.toNat := by
  have hs : x >>> k = y >>> k := (shift_eq_iff x y k).2 htop
  have hx : x.toNat = (x >>> k).toNat * 2 ^ k := by
    rw [BitVec.toNat_ushiftRight, Nat.shiftRight_eq_div_pow]
    have : x.toNat % 2 ^ k = 0 := by
      apply Nat.eq_of_testBit_eq
      intro i
      rw [Nat.testBit_mod_two_pow, Nat.zero_testBit]
      by_cases hi : i < k
      · simp [hi]
        have := hlow i hi
        simpa [BitVec.getLsbD] using this
      · simp [hi]
    have := Nat.div_add_mod x.toNat (2 ^ k)
    rw [Nat.mul_comm]; omega
  have hy : (y >>> k).toNat * 2 ^ k ≤ y.toNat := by
    rw [BitVec.toNat_ushiftRight, Nat.shiftRight_eq_div_pow]
    exact Nat.div_mul_le_self _ _
  rw [hx, hs]; exact hy

/-- A rule address that matches a query address at least as long is not above it in table order. -/
theorem addr_le (l r : Endpoint) (hl : l.WF) (hr : r.WF) (hle : l.bits ≤ r.bits) (hp : PadZero l)
    (h : (∀ b ∈ l.addr, b = 0) ∨ CodeCidrMatch l r) : compare (bytesKey l.addr) (bytesKey r.addr) ≠ .gt := by
  unfold Endpoint.WF at hl hr
  have hlen : l.addr.length ≤ r.addr.length := by rw [hl, hr]; exact bitsToBytes_mono hle
  apply lex_le_of_pointwise _ _ hlen
  intro i hi
  have hbi : byteAt l.addr i ∈ l.addr := by
    unfold byteAt; rw [List.getD_eq_getElem?_getD, List.getElem?_eq_getElem hi]; simp
  rcases h with h | h
  · rw [h _ hbi]; simp
  · unfold CodeCidrMatch at h
    split at h
    · rw [h]; exact Nat.le_refl _
    · rename_i hne
      rw [Nat.min_eq_left hle] at h
      rcases h with h0 | h0 | hpre
      · rw [h0] at hl
        rw [hl] at hi
        rw [bitsToBytes_eq] at hi; omega
      · omega
      · rw [hl, bitsToBytes_eq] at hi
        unfold effectiveBits at hpre
        split at hpre
        · rename_i h8
          rw [show l.bits = 8 * (l.bits / 8) by omega] at hpre
          rw [(bytes_bits _ _ _).2 hpre i (by omega)]; exact Nat.le_refl _
        · rename_i h8
          obtain ⟨h1, h2⟩ := (bits_split _ _ _ _ (by omega)).1 hpre
          rcases Nat.lt_or_ge i (l.bits / 8) with hlt | hge
          · rw [(bytes_bits _ _ _).2 h1 i hlt]; exact Nat.le_refl _
          · have : i = l.bits / 8 := by omega
            subst this
            exact byte_le_of_top _ _ (l.bits % 8) (by omega) h2 (fun j hj => hp h8 j hj)

theorem then_le {a b : Ordering} (ha : a ≠ .gt) (h : a = .eq → b ≠ .gt) : a.then b ≠ .gt := by
  cases a <;> simp_all [Ordering.then]

theorem cmp_le {a b : Nat} (h : a ≤ b) : compare a b ≠ .gt := by
  intro hc; have := Nat.compare_eq_gt.1 hc; omega

/-- A matching rule that is stored the way insertion leaves it, not more specific than the query,
and different from it in some field, sorts strictly before a fully specified query. -/
theorem rule_before_query (r t : Route) (hr : r.WF) (ht : t.WF) (hfs : FullySpecified t)
    (hw : WildZero r) (hp1 : PadZero r.remote) (hp2 : PadZero r.loc)
    (hb1 : r.remote.bits ≤ t.remote.bits) (hb2 : r.loc.bits ≤ t.loc.bits)
    (hm : RuleMatches CodeCidrMatch r (AnyEvent t)) (hne : ¬ FieldsEqual r t) :
    routeKeyCmp r (AnyEvent t) ≠ .gt := by
  have hwild : ∀ k, k < 8 → wild r (AnyEvent t) k = r.flags.getLsbD k := by
    intro k hk
    unfold wild AnyEvent
    simp only [BitVec.getLsbD_or, hfs.1 k hk, Bool.false_or, BitVec.getLsbD_twoPow]
    have : ¬ 8 = k := by omega
    simp [this]
  have sc : ∀ k, k < 8 → ∀ x y : Nat, FieldMatch (wild r (AnyEvent t) k) x y → (r.flags.getLsbD k = true → x = 0) → x ≤ y := by
    intro k hk x y h1 h2
    rcases h1 with h1 | h1
    · omega
    · rw [hwild k hk] at h1; have := h2 h1; omega
  rw [routeKeyCmp_eq r (AnyEvent t) hr ht]
  unfold exactLex compareLex compareOn
  have a1 : compare (bytesKey r.remote.addr) (bytesKey (AnyEvent t).remote.addr) ≠ .gt := by
    refine addr_le r.remote t.remote hr.1 ht.1 hb1 hp1 ?_
    rcases hm.remoteAddr with h | h
    · rw [hwild 1 (by decide)] at h; exact Or.inl (hw.remoteAddr h)
    · exact Or.inr h
  have a2 : compare (bytesKey r.loc.addr) (bytesKey (AnyEvent t).loc.addr) ≠ .gt := by
    refine addr_le r.loc t.loc hr.2 ht.2 hb2 hp2 ?_
    rcases hm.localAddr with h | h
    · rw [hwild 4 (by decide)] at h; exact Or.inl (hw.localAddr h)
    · exact Or.inr h
  have cl : ∀ a b : List Byte, compare (bytesKey a) (bytesKey b) = .eq → a = b := fun a b h =>
    bytesKey_inj (LawfulEqCmp.eq_of_compare h)
  refine then_le (cmp_le (sc 0 (by decide) _ _ hm.family hw.family)) fun e0 => ?_
  refine then_le a1 fun e1 => ?_
  refine then_le (cmp_le hb1) fun e2 => ?_
  refine then_le (cmp_le (sc 2 (by decide) _ _ hm.proto hw.proto)) fun e3 => ?_
  refine then_le (cmp_le (sc 3 (by decide) _ _ hm.localPort hw.localPort)) fun e4 => ?_
  refine then_le a2 fun e5 => ?_
  refine then_le (cmp_le hb2) fun e6 => ?_
  refine then_le (cmp_le (sc 5 (by decide) _ _ hm.remotePort hw.remotePort)) fun e7 => ?_
  refine then_le (cmp_le (sc 6 (by decide) _ _ hm.remoteIface hw.remoteIface)) fun e8 => ?_
  refine then_le (cmp_le (sc 7 (by decide) _ _ hm.localIface hw.localIface)) fun e9 => ?_
  exact absurd ⟨Nat.compare_eq_eq.1 e0, Nat.compare_eq_eq.1 e3, cl _ _ e1, Nat.compare_eq_eq.1 e2, cl _ _ e5,
    Nat.compare_eq_eq.1 e6, Nat.compare_eq_eq.1 e7, Nat.compare_eq_eq.1 e4, Nat.compare_eq_eq.1 e8, Nat.compare_eq_eq.1 e9⟩ hne

/-- A fully specified query is searched from its sorted position. -/
theorem contiguous_fully (t : Route) (h : FullySpecified t) : contiguousSearch (inexactTarget t) = true := by
  have hm : ~~~(inexactTarget t).flags &&& RF.WILDCARD_FLAGS = RF.WILDCARD_FLAGS := by
    apply BitVec.eq_of_getLsbD_eq
    intro k hk
    have hb : RF.WILDCARD_FLAGS.getLsbD k = decide (k < 8) := by
      have : RF.WILDCARD_FLAGS = BitVec.ofNat 32 (2 ^ 8 - 1) := by decide
      rw [this, BitVec.getLsbD_ofNat, Nat.testBit_two_pow_sub_one]; simp [hk]
    rw [BitVec.getLsbD_and, hb]
    by_cases h8 : k < 8
    · have h1 := h.1 k h8
      have h2 : (inexactTarget t).flags.getLsbD k = false := by
        unfold inexactTarget RF.PARENT_EVENT_WILDCARD bit
        simp only [BitVec.getLsbD_or, h1, Bool.false_or, BitVec.getLsbD_twoPow]
        have : ¬ 8 = k := by omega
        simp [this]
      rw [BitVec.getLsbD_not, h2]; simp [h8, hk]
    · simp [h8]
  unfold contiguousSearch
  simp only [hm]
  decide

theorem considered_iff (t : Route) (ares : Option Flags) (r : Route) :
    considered t ares r = true ↔ Candidate ares r t := by
  have hdir : r.flags.has (t.flags &&& (RF.DIRECTION_IN ||| RF.DIRECTION_OUT)) = true ↔ DirectionOK r t := by
    have e : r.flags &&& (t.flags &&& (RF.DIRECTION_IN ||| RF.DIRECTION_OUT)) =
        ((r.flags &&& t.flags) &&& bit 10) ||| ((r.flags &&& t.flags) &&& bit 11) := by
      unfold RF.DIRECTION_IN RF.DIRECTION_OUT
      ext i hi
      simp only [BitVec.getElem_and, BitVec.getElem_or]
      cases r.flags[i] <;> cases t.flags[i] <;> simp
    have hz : ∀ a b : Flags, ((a ||| b) != 0#32) = ((a != 0#32) || (b != 0#32)) := by
      intro a b
      rw [Bool.eq_iff_iff]
      simp only [bne_iff_ne, ne_eq, Bool.or_eq_true]
      constructor
      · intro h
        by_cases ha : a = 0#32
        · right; intro hb; apply h; rw [ha, hb]; decide
        · left; exact ha
      · rintro (h | h) hc <;> apply h
        · apply BitVec.eq_of_getLsbD_eq
          intro i hi
          have := congrArg (fun x => BitVec.getLsbD x i) hc
          simp at this
          simp [this.1]
        · apply BitVec.eq_of_getLsbD_eq
          intro i hi
          have := congrArg (fun x => BitVec.getLsbD x i) hc
          simp at this
          simp [this.2]
    unfold Flags.has DirectionOK
    rw [e, hz]
    have h10 := Flags.has_bit (r.flags &&& t.flags) 10 (by decide)
    have h11 := Flags.has_bit (r.flags &&& t.flags) 11 (by decide)
    unfold Flags.has at h10 h11
    rw [h10, h11]
    simp
  have hfil : eventFilterOK ares r = true ↔ FilterOK ares r := by
    unfold eventFilterOK FilterOK
    cases ares with
    | none => simp
    | some a =>
      cases he : r.event with
      | none => simp
      | some e =>
        cases hc : e.config with
        | none =>
          simp only [Option.bind_some, hc, true_iff]
          intro a' e' c' _ h2 h3
          cases h2; rw [hc] at h3; cases h3
        | some c =>
          simp only [Option.bind_some, hc, Bool.and_eq_true, beq_iff_eq]
          constructor
          · rintro ⟨h1, h2⟩ a' e' c' rfl1 rfl2 rfl3 k hk
            cases rfl1; cases rfl2; rw [hc] at rfl3; cases rfl3
            constructor
            · intro hs
              have := congrArg (fun x => BitVec.getLsbD x k) h1
              simp [hs] at this; exact this
            · intro hs
              have := congrArg (fun x => BitVec.getLsbD x k) h2
              simp [hs] at this; exact this.2
          · intro h
            have h := h a e c rfl rfl hc
            constructor
            · apply BitVec.eq_of_getLsbD_eq
              intro k hk
              have := (h k hk).1
              rw [BitVec.getLsbD_and]
              cases hb : c.filterBitsSet.getLsbD k <;> simp_all
            · apply BitVec.eq_of_getLsbD_eq
              intro k hk
              have := (h k hk).2
              rw [BitVec.getLsbD_and, BitVec.getLsbD_not]
              cases hb : c.filterBitsUnset.getLsbD k <;> simp_all
  have hexa : ∀ a : Flags, a.hasAll AR.EXCLUDE_REJECT_ROUTES = true ↔ a.getLsbD 4 = true ∧ a.getLsbD 5 = true := by
    intro a
    unfold Flags.hasAll
    rw [beq_iff_eq]
    have hx : AR.EXCLUDE_REJECT_ROUTES = bit 4 ||| bit 5 := rfl
    constructor
    · intro h
      have h4 := congrArg (fun x => BitVec.getLsbD x 4) h
      have h5 := congrArg (fun x => BitVec.getLsbD x 5) h
      have e4 : AR.EXCLUDE_REJECT_ROUTES.getLsbD 4 = true := by decide
      have e5 : AR.EXCLUDE_REJECT_ROUTES.getLsbD 5 = true := by decide
      simp only [BitVec.getLsbD_and, e4, e5, Bool.and_true] at h4 h5
      exact ⟨h4, h5⟩
    · rintro ⟨h4, h5⟩
      apply BitVec.eq_of_getLsbD_eq
      intro k hk
      rw [BitVec.getLsbD_and]
      by_cases k4 : k = 4
      · subst k4; simp [h4]
      · by_cases k5 : k = 5
        · subst k5; simp [h5]
        · have : AR.EXCLUDE_REJECT_ROUTES.getLsbD k = false := by
            rw [hx]; unfold bit
            simp [BitVec.getLsbD_or, BitVec.getLsbD_twoPow]
            omega
          simp [this]
  have hbox : r.flags.has RF.PENALTYBOXED = true ↔ Boxed r := by
    unfold Boxed; rw [show RF.PENALTYBOXED = bit 20 from rfl, Flags.has_bit _ _ (by decide)]
  unfold considered
  rw [Bool.and_eq_true, Bool.and_eq_true, hdir, hfil]
  constructor
  · rintro ⟨⟨h1, h2⟩, h3⟩
    refine ⟨h1, h2, ?_⟩
    rintro ⟨a, rfl, h4, h5⟩ hb
    simp only [(hexa a).2 ⟨h4, h5⟩, hbox.2 hb] at h3
    simp at h3
  · rintro ⟨h1, h2, h3⟩
    refine ⟨⟨h1, h2⟩, ?_⟩
    cases ares with
    | none => rfl
    | some a =>
      simp only [Bool.not_eq_true']
      rw [Bool.and_eq_false_iff]
      by_cases hx : a.hasAll AR.EXCLUDE_REJECT_ROUTES = true
      · right
        have := h3 ⟨a, rfl, (hexa a).1 hx⟩
        rw [← hbox] at this
        simpa using this
      · left; simpa using hx

theorem candidate_any (ares : Option Flags) (r t : Route) : Candidate ares r (AnyEvent t) ↔ Candidate ares r t := by
  have : DirectionOK r (AnyEvent t) ↔ DirectionOK r t := by
    unfold DirectionOK AnyEvent
    simp [BitVec.getLsbD_or, BitVec.getLsbD_twoPow]
  exact ⟨fun ⟨a, b, c⟩ => ⟨this.1 a, b, c⟩, fun ⟨a, b, c⟩ => ⟨this.2 a, b, c⟩⟩

end WS
