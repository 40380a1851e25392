import Verif.Proof.RouteKey
import Verif.Spec.RouteKey
namespace WS
open Spec

theorem memcmp_eq_iff (a b : List Byte) (n : Nat) (ha : n ≤ a.length) (hb : n ≤ b.length) :
    memcmp a b n = .eq ↔ ∀ j, j < n → byteAt a j = byteAt b j := by
  induction n generalizing a b with
  | zero => cases a <;> cases b <;> simp [memcmp]
  | succ n ih =>
    cases a with
    | nil => simp at ha
    | cons x xs =>
      cases b with
      | nil => simp at hb
      | cons y ys =>
        simp only [List.length_cons] at ha hb
        rw [memcmp, Ordering.then_eq_eq, ih xs ys (by omega) (by omega), Nat.compare_eq_eq]
        constructor
        · rintro ⟨h1, h2⟩ j hj
          cases j with
          | zero => simpa [byteAt] using BitVec.eq_of_toNat_eq h1
          | succ j => simpa [byteAt] using h2 j (by omega)
        · intro h
          refine ⟨by have := h 0 (by omega); simp [byteAt] at this; rw [this], fun j hj => ?_⟩
          simpa [byteAt] using h (j+1) (by omega)

theorem byte_eq_iff (x y : Byte) : x = y ↔ ∀ j, j < 8 → x.getMsbD j = y.getMsbD j := by
  constructor
  · rintro rfl j _; rfl
  · intro h
    apply BitVec.eq_of_getMsbD_eq
    intro i hi
    exact h i hi

theorem shift_eq_iff (x y : Byte) (k : Nat) :
    x >>> k = y >>> k ↔ ∀ j, j < 8 - k → x.getMsbD j = y.getMsbD j := by
  rw [byte_eq_iff]
  simp only [BitVec.getMsbD_ushiftRight]
  constructor
  · intro h j hj
    have := h (j + k) (by omega)
    simpa [show ¬ (j + k < k) by omega, show j + k < 8 by omega] using this
  · intro h j hj
    by_cases hk : j < k
    · simp [hk]
    · simp [hk, hj, h (j - k) (by omega)]

theorem bytes_bits (a b : List Byte) (q : Nat) :
    (∀ j, j < q → byteAt a j = byteAt b j) ↔ PrefixAgree (8 * q) a b := by
  unfold PrefixAgree addrBit byteAt
  constructor
  · intro h i hi
    rw [h (i / 8) (by omega)]
  · intro h j hj
    rw [byte_eq_iff]
    intro k hk
    have := h (8 * j + k) (by omega)
    rwa [show (8 * j + k) / 8 = j by omega, show (8 * j + k) % 8 = k by omega] at this

theorem bits_split (a b : List Byte) (q k : Nat) (hk : k ≤ 8) :
    PrefixAgree (8 * q + k) a b ↔
      PrefixAgree (8 * q) a b ∧ ∀ j, j < k → (byteAt a q).getMsbD j = (byteAt b q).getMsbD j := by
  unfold PrefixAgree addrBit byteAt
  constructor
  · intro h
    refine ⟨fun i hi => h i (by omega), fun j hj => ?_⟩
    have := h (8 * q + j) (by omega)
    rwa [show (8 * q + j) / 8 = q by omega, show (8 * q + j) % 8 = j by omega] at this
  · rintro ⟨h1, h2⟩ i hi
    by_cases h : i < 8 * q
    · exact h1 i h
    · have := h2 (i - 8 * q) (by omega)
      rwa [← show i / 8 = q by omega, show i - 8 * (i / 8) = i % 8 by omega] at this

theorem and7 (n : Nat) : n &&& 7 = n % 8 := Nat.and_two_pow_sub_one_eq_mod n 3

/-- The number of leading bits the subnet comparison really examines for a prefix length `n`. -/
def effectiveBits (n : Nat) : Nat := if n % 8 = 0 then n else 8 * (n / 8) + (8 - n % 8)

/-- Different, non-zero lengths, subnet matching on, no wildcard: a match is agreement on
`effectiveBits` leading bits. -/
theorem prefixful_subnet_iff (l r : Endpoint) (hl : l.WF) (hr : r.WF) (hne : l.bits ≠ r.bits)
    (h0 : l.bits ≠ 0) (h0' : r.bits ≠ 0) :
    (cmpAddrsPrefixful l.addr l.bits r.addr r.bits false true).1 = .eq ↔
      PrefixAgree (effectiveBits (min l.bits r.bits)) l.addr r.addr := by
  unfold cmpAddrsPrefixful
  have hm : (if l.bits < r.bits then l.bits else r.bits) = min l.bits r.bits := by
    split <;> omega
  simp only [hm]
  have hmin : min l.bits r.bits ≠ 0 := by omega
  unfold Endpoint.WF at hl hr
  rw [bitsToBytes_eq] at hl hr
  have hla : (min l.bits r.bits + 7) / 8 ≤ l.addr.length := by omega
  have hra : (min l.bits r.bits + 7) / 8 ≤ r.addr.length := by omega
  generalize min l.bits r.bits = n at *
  rw [if_neg hmin, if_pos hne]
  simp only [Bool.false_eq_true, if_false, if_true, and7, bitsToBytes_eq]
  unfold effectiveBits
  by_cases h8 : n % 8 = 0
  · rw [if_pos h8, if_pos h8]
    have e : 8 * ((n + 7) / 8) = n := by omega
    have := (memcmp_eq_iff l.addr r.addr ((n + 7) / 8) hla hra).trans (bytes_bits ..)
    rw [e] at this
    rw [← this]
    cases memcmp l.addr r.addr ((n + 7) / 8) <;> simp
  · rw [if_neg h8, if_neg h8]
    have eq : (n + 7) / 8 - 1 = n / 8 := by omega
    rw [eq, bits_split _ _ _ _ (by omega)]
    have hpre : (if (n + 7) / 8 > 1 then memcmp l.addr r.addr (n / 8) else .eq)
        = memcmp l.addr r.addr (n / 8) := by
      split
      · rfl
      · have : n / 8 = 0 := by omega
        rw [this]
        cases l.addr <;> cases r.addr <;> rfl
    rw [hpre]
    have := (memcmp_eq_iff l.addr r.addr (n / 8) (by omega) (by omega)).trans (bytes_bits ..)
    rw [← this, ← shift_eq_iff]
    cases memcmp l.addr r.addr (n / 8)
    · simp
    · simp only [true_and]
      split
      · simp [*]
      · rename_i h
        simp only [h, iff_false]
        split <;> simp
    · simp

end WS

namespace WS
open Spec

theorem has_or (x y : Flags) (k : Nat) (hk : k < 32) :
    (x ||| y).has (bit k) = (x.has (bit k) || y.has (bit k)) := by
  simp [Flags.has_bit _ _ hk]

theorem has_ite_bit (c : Prop) [Decidable c] (i j : Nat) (hi : i < 32) (hj : j < 32) :
    (if c then bit i else 0 : Flags).has (bit j) = (decide c && decide (i = j)) := by
  rw [Flags.has_bit _ _ hj]
  by_cases h : c
  · rw [if_pos h, bit, BitVec.getLsbD_twoPow]
    simp only [h, hj, decide_true, Bool.true_and]
    by_cases hij : i = j
    · subst hij; simp [hi]
    · simp [hij, beq_eq_false_iff_ne.2 hij, beq_eq_false_iff_ne.2 (Ne.symm hij)]
  · simp [h]

/-- Matching stage for a scalar field. -/
theorem scalarStage_match (l r : Nat) (wf b inx : Flags) (k : Flags → Ordering × Flags) :
    ((scalarStage l r true wf b inx k).1 = .eq ↔
      FieldMatch (wf.has b) l r ∧ (k (inx ||| if l ≠ r then b else 0)).1 = .eq) ∧
    ((scalarStage l r true wf b inx k).1 = .eq →
      (scalarStage l r true wf b inx k).2 = (k (inx ||| if l ≠ r then b else 0)).2) := by
  unfold scalarStage FieldMatch
  by_cases h : l = r
  · simp [h]
  · by_cases hw : wf.has b = true
    · simp [h, hw]
    · by_cases hlt : l < r <;> simp [h, hw, hlt]

/-- The two address comparators in matching mode. -/
def addrCmpM (l r : Endpoint) (wild mask : Bool) : Ordering × Bool :=
  if mask then cmpAddrsBitmaskful l.addr l.bits r.addr r.bits wild true
  else cmpAddrsPrefixful l.addr l.bits r.addr r.bits wild true

theorem addrStage_match (l r : Endpoint) (wf b bm inx : Flags) (k : Flags → Ordering × Flags) :
    ((addrStage l r true wf b bm inx k).1 = .eq ↔
      (addrCmpM l r (wf.has b) (wf.has bm)).1 = .eq ∧
      (k (inx ||| if (addrCmpM l r (wf.has b) (wf.has bm)).2 = true then b else 0)).1 = .eq) ∧
    ((addrStage l r true wf b bm inx k).1 = .eq →
      (addrStage l r true wf b bm inx k).2 =
        (k (inx ||| if (addrCmpM l r (wf.has b) (wf.has bm)).2 = true then b else 0)).2) := by
  unfold addrStage addrCmpM
  simp only [Bool.true_and]
  generalize (if wf.has bm = true then
      cmpAddrsBitmaskful l.addr l.bits r.addr r.bits (wf.has b) true
    else cmpAddrsPrefixful l.addr l.bits r.addr r.bits (wf.has b) true) = c
  obtain ⟨c1, c2⟩ := c
  cases c1 <;> cases c2 <;> simp

theorem labelCmp_eq_iff (a b : List Byte) : labelCmp a b = .eq ↔ a = b := by
  rw [labelCmp_lex]
  constructor
  · intro h; exact bytesKey_inj (Std.LawfulEqCmp.eq_of_compare h)
  · rintro rfl; exact Std.ReflCmp.compare_self

theorem effPriority_eq (r : Route) : r.effPriority = priority r := by
  unfold Route.effPriority priority; cases r.event <;> rfl

open Classical in
theorem eventStage_match (l r : Route) (wf inx : Flags)
    (hi : inx.has RF.PARENT_EVENT_WILDCARD = false) :
    ((eventStage l r true wf inx).1 = .eq ↔ EventAgree l r ∨ wf.has RF.PARENT_EVENT_WILDCARD = true) ∧
    ((eventStage l r true wf inx).1 = .eq →
      (eventStage l r true wf inx).2 =
        inx ||| if ¬ EventAgree l r then RF.PARENT_EVENT_WILDCARD else 0) := by
  unfold eventStage scalarStage EventAgree
  simp only [effPriority_eq]
  by_cases hp : priority l = priority r
  · simp only [hp, ne_eq, not_true_eq_false, if_false, true_and, hi, Bool.true_and]
    by_cases he : l.event = r.event
    · simp [he]
    · simp only [he, if_false, Bool.false_eq_true]
      cases hl : l.event <;> cases hr : r.event
      · simp [hl, hr] at he
      · cases hw : wf.has RF.PARENT_EVENT_WILDCARD <;> simp
      · cases hw : wf.has RF.PARENT_EVENT_WILDCARD <;> simp
      · rename_i a b
        have hlab := labelCmp_eq_iff a.label b.label
        simp only [Option.map_some, Option.some.injEq]
        by_cases hab : a.label = b.label
        · have e := hlab.2 hab
          rw [e]; simp [hab]
        · have : labelCmp a.label b.label ≠ .eq := fun h => hab (hlab.1 h)
          cases hw : wf.has RF.PARENT_EVENT_WILDCARD <;>
            cases hc : labelCmp a.label b.label <;> simp_all
  · simp only [hp, ne_eq, not_false_eq_true, if_true, false_and, Bool.true_and, false_or]
    cases hw : wf.has RF.PARENT_EVENT_WILDCARD
    · simp only [Bool.false_eq_true, if_false, iff_false]
      constructor
      · split <;> simp
      · intro h; split at h <;> simp at h
    · simp only [if_true, iff_true]
      have h1 : (inx ||| RF.PARENT_EVENT_WILDCARD).has RF.PARENT_EVENT_WILDCARD = true := by
        have := has_or inx RF.PARENT_EVENT_WILDCARD 8 (by decide)
        unfold RF.PARENT_EVENT_WILDCARD at *
        rw [this]; simp [Flags.has_bit]
        simp [bit]
      simp only [h1, if_true]
      by_cases he : l.event = r.event
      · simp [he]
      · simp [he]

end WS

namespace WS
open Spec

theorem memcmp_all (a b : List Byte) (n : Nat) (ha : a.length = n) (hb : b.length = n) :
    memcmp a b n = .eq ↔ a = b := by
  rw [memcmp_eq_iff a b n (by omega) (by omega)]
  constructor
  · intro h
    apply List.ext_getElem (by omega)
    intro i h1 h2
    have := h i (by omega)
    simpa [byteAt, List.getD, h1, h2] using this
  · rintro rfl j _; rfl

/-- What the subnet comparison really tests. -/
def CodeCidrMatch (l r : Endpoint) : Prop :=
  if l.bits = r.bits then l.addr = r.addr
  else l.bits = 0 ∨ r.bits = 0 ∨ PrefixAgree (effectiveBits (min l.bits r.bits)) l.addr r.addr

theorem codeCidr_eq (l r : Endpoint)
    (h : min l.bits r.bits % 8 = 0 ∨ min l.bits r.bits % 8 = 4) :
    CodeCidrMatch l r ↔ CidrMatch l r := by
  unfold CodeCidrMatch CidrMatch effectiveBits
  generalize min l.bits r.bits = n at *
  have : (if n % 8 = 0 then n else 8 * (n / 8) + (8 - n % 8)) = n := by split <;> omega
  rw [this]

theorem addrCmpM_prefix (l r : Endpoint) (hl : l.WF) (hr : r.WF) (wild : Bool) :
    ((addrCmpM l r wild false).1 = .eq ↔ wild = true ∨ CodeCidrMatch l r) ∧
    ((addrCmpM l r wild false).1 = .eq →
      ((addrCmpM l r wild false).2 = true ↔ ¬ (l.bits = r.bits ∧ l.addr = r.addr))) := by
  unfold addrCmpM CodeCidrMatch
  simp only [Bool.false_eq_true, if_false]
  unfold Endpoint.WF at hl hr
  by_cases he : l.bits = r.bits
  · have hmem := memcmp_all l.addr r.addr (bitsToBytes l.bits) hl (by rw [he]; exact hr)
    simp only [he, if_true, true_and]
    unfold cmpAddrsPrefixful
    simp only [Nat.lt_irrefl, if_false, if_true, ne_eq, not_true_eq_false]
    by_cases h0 : r.bits = 0
    · have h1 : l.addr = [] := List.length_eq_zero_iff.1 (by rw [hl, he, h0]; rfl)
      have h2 : r.addr = [] := List.length_eq_zero_iff.1 (by rw [hr, h0]; rfl)
      simp [h0, h1, h2]
    · simp only [h0, if_false]
      rw [he] at hmem
      by_cases ha : l.addr = r.addr
      · rw [hmem.2 ha]; simp [ha]
      · have : memcmp l.addr r.addr (bitsToBytes r.bits) ≠ .eq := fun h => ha (hmem.1 h)
        cases wild <;> cases hc : memcmp l.addr r.addr (bitsToBytes r.bits) <;> simp_all
  · simp only [he, if_false, false_and, not_false_eq_true, iff_true]
    by_cases hz : l.bits = 0 ∨ r.bits = 0
    · have hm : (if l.bits < r.bits then l.bits else r.bits) = 0 := by split <;> omega
      unfold cmpAddrsPrefixful
      rcases hz with hz | hz <;> simp [hz] at he ⊢ <;> simp [he, Ne.symm he]
    · have hl0 : l.bits ≠ 0 := fun h => hz (Or.inl h)
      have hr0 : r.bits ≠ 0 := fun h => hz (Or.inr h)
      have hm : (if l.bits < r.bits then l.bits else r.bits) ≠ 0 := by split <;> omega
      cases wild with
      | true => unfold cmpAddrsPrefixful; simp [hm, he]
      | false =>
        have := prefixful_subnet_iff l r hl hr he hl0 hr0
        simp only [hl0, hr0, false_or, Bool.false_eq_true]
        refine ⟨this, ?_⟩
        unfold cmpAddrsPrefixful
        simp only [hm, he, ne_eq, not_false_eq_true, if_true, if_false, Bool.false_eq_true]
        generalize (if l.bits < r.bits then l.bits else r.bits) = n
        by_cases h8 : n &&& 7 = 0
        · simp only [h8, if_true]
          cases memcmp l.addr r.addr (bitsToBytes n) <;> simp
        · simp only [h8, if_false]
          generalize (if bitsToBytes n > 1 then memcmp l.addr r.addr (bitsToBytes n - 1) else Ordering.eq) = p
          cases p
          · simp
          · simp only
            split
            · simp
            · split <;> simp
          · simp

theorem maskLoop_zero (as ms ts : List Byte) (inx : Bool) (h1 : as.length = ts.length)
    (h2 : ms.length = ts.length) :
    ((maskLoop as ms ts 0 inx).1 = .eq ↔
      ∀ i, i < ts.length → ts.getD i 0 &&& ms.getD i 0 = as.getD i 0) ∧
    ((maskLoop as ms ts 0 inx).1 = .eq → (maskLoop as ms ts 0 inx).2 = (inx || decide (ts ≠ as))) := by
  induction ts generalizing as ms inx with
  | nil =>
    have := List.length_eq_zero_iff.1 h1
    subst this
    simp [maskLoop]
  | cons t ts ih =>
    cases as with
    | nil => simp at h1
    | cons a as =>
      cases ms with
      | nil => simp at h2
      | cons m ms =>
        simp only [List.length_cons, Nat.add_right_cancel_iff] at h1 h2
        rw [maskLoop]
        by_cases hx : t &&& m = a
        · simp only [hx, if_true]
          obtain ⟨i1, i2⟩ := ih as ms (if t ≠ a then true else inx) h1 h2
          constructor
          · rw [i1]
            constructor
            · intro h i hi
              cases i with
              | zero => simpa using hx
              | succ i => simpa using h i (by simpa using hi)
            · intro h i hi
              simpa using h (i+1) (by simpa using hi)
          · intro h
            rw [i2 h]
            by_cases ht : t = a
            · simp [ht]
            · simp [ht]
        · simp only [hx, if_false]
          have hne : compare a.toNat (t &&& m).toNat ≠ .eq := by
            rw [ne_eq, Nat.compare_eq_eq]
            intro h; exact hx (BitVec.eq_of_toNat_eq h.symm)
          constructor
          · constructor
            · intro h; exact absurd h hne
            · intro h; have := h 0 (by simp); simp at this; exact absurd this hx
          · intro h; exact absurd h hne

/-- Mask-mode comparison of a rule address (with mask appended) against a target of the matching
width. -/
theorem bitmask_match (rule target : Endpoint) (hr : rule.WF) (ht : target.WF)
    (h0 : target.bits ≠ 0) (h8 : target.bits % 8 = 0) (hw : rule.bits = 2 * target.bits) :
    ((cmpAddrsBitmaskful rule.addr rule.bits target.addr target.bits false true).1 = .eq ↔
      MaskAgree rule.addr target.addr) ∧
    ((cmpAddrsBitmaskful target.addr target.bits rule.addr rule.bits false true).1 = .eq ↔
      MaskAgree rule.addr target.addr) ∧
    ((cmpAddrsBitmaskful rule.addr rule.bits target.addr target.bits false true).1 = .eq →
     ((cmpAddrsBitmaskful rule.addr rule.bits target.addr target.bits false true).2 = true ↔
        rule.addr.take target.addr.length ≠ target.addr)) := by
  unfold Endpoint.WF at hr ht
  rw [bitsToBytes_eq] at hr ht
  have hlen : rule.addr.length = 2 * target.addr.length := by omega
  have hbm : bitsToBytes target.bits = target.addr.length := by rw [bitsToBytes_eq]; omega
  have hsh : rule.bits >>> 1 = target.bits := by rw [Nat.shiftRight_eq_div_pow]; omega
  have hsh' : target.bits >>> 1 < rule.bits := by rw [Nat.shiftRight_eq_div_pow]; omega
  have key := maskLoop_zero (rule.addr.take target.addr.length) (rule.addr.drop target.addr.length)
    target.addr false (by simp; omega) (by simp; omega)
  have hMA : (∀ i, i < target.addr.length →
      target.addr.getD i 0 &&& (rule.addr.drop target.addr.length).getD i 0
        = (rule.addr.take target.addr.length).getD i 0) ↔ MaskAgree rule.addr target.addr := by
    unfold MaskAgree
    constructor
    · intro h i hi
      have := h i hi
      simpa [List.getD, List.getElem?_drop, List.getElem?_take, hi] using this
    · intro h i hi
      have := h i hi
      simpa [List.getD, List.getElem?_drop, List.getElem?_take, hi] using this
  rw [hMA] at key
  have hlt : ¬ rule.bits < target.bits := by omega
  have hlt' : target.bits < rule.bits := by omega
  have hne : rule.bits ≠ target.bits := by omega
  unfold cmpAddrsBitmaskful
  simp only [hsh, hlt, hlt', if_false, if_true, Nat.lt_irrefl, decide_false, Bool.and_false, Bool.true_and,
    Bool.false_eq_true, h0, hne, Ne.symm hne, Nat.sub_self, hbm, Bool.false_and]
  refine ⟨key.1, key.1, fun h => ?_⟩
  rw [key.2 h]
  simp only [Bool.false_or, decide_eq_true_eq]
  exact ⟨Ne.symm, Ne.symm⟩

end WS

namespace WS
open Spec

theorem scalar_fwd (l r : Nat) (wf b inx : Flags) (k : Flags → Ordering × Flags)
    (h : (scalarStage l r true wf b inx k).1 = .eq) :
    scalarStage l r true wf b inx k = k (inx ||| if l ≠ r then b else 0) := by
  have m := scalarStage_match l r wf b inx k
  exact Prod.ext (by rw [h, (m.1.1 h).2]) (m.2 h)

theorem addr_fwd (l r : Endpoint) (wf b bm inx : Flags) (k : Flags → Ordering × Flags)
    (h : (addrStage l r true wf b bm inx k).1 = .eq) :
    (addrCmpM l r (wf.has b) (wf.has bm)).1 = .eq ∧
    addrStage l r true wf b bm inx k =
      k (inx ||| if (addrCmpM l r (wf.has b) (wf.has bm)).2 = true then b else 0) := by
  have m := addrStage_match l r wf b bm inx k
  exact ⟨(m.1.1 h).1, Prod.ext (by rw [h, (m.1.1 h).2]) (m.2 h)⟩

open Classical in
theorem routeKeyCmp1_match (l r : Route) (hl : l.WF) (hr : r.WF) (hb : NoBitmask l r) :
    ((routeKeyCmp1 l r true).1 = .eq ↔ RuleMatches CodeCidrMatch l r) ∧
    ((routeKeyCmp1 l r true).1 = .eq → ∀ k, k < 32 →
      ((routeKeyCmp1 l r true).2.getLsbD k = true ↔ Differs l r k)) := by
  have hwk : ∀ k, k < 32 → (l.flags ||| r.flags).has (bit k) = wild l r k := by
    intro k hk; rw [Flags.has_bit _ _ hk, BitVec.getLsbD_or]; rfl
  have pe : RF.PARENT_EVENT_WILDCARD = bit 8 := rfl
  have z : ∀ k, (0 : Flags).has (bit k) = false := by
    intro k; unfold Flags.has; simp
  have inx8 : ∀ (c0 c1 c2 c3 c4 c5 c6 c7 : Prop) [Decidable c0] [Decidable c1] [Decidable c2] [Decidable c3] [Decidable c4] [Decidable c5] [Decidable c6] [Decidable c7],
      ((((((((((0 : Flags) ||| if c0 then bit 0 else 0) ||| if c1 then bit 1 else 0) |||
        if c2 then bit 2 else 0) ||| if c3 then bit 3 else 0) ||| if c4 then bit 4 else 0) |||
        if c5 then bit 5 else 0) ||| if c6 then bit 6 else 0) ||| if c7 then bit 7 else 0) : Flags).has (bit 8) = false := by
    intros
    rw [has_or _ _ _ (by decide), has_or _ _ _ (by decide), has_or _ _ _ (by decide), has_or _ _ _ (by decide),
      has_or _ _ _ (by decide), has_or _ _ _ (by decide), has_or _ _ _ (by decide), has_or _ _ _ (by decide)]
    rw [has_ite_bit _ _ _ (by decide) (by decide), has_ite_bit _ _ _ (by decide) (by decide), has_ite_bit _ _ _ (by decide) (by decide), has_ite_bit _ _ _ (by decide) (by decide), has_ite_bit _ _ _ (by decide) (by decide), has_ite_bit _ _ _ (by decide) (by decide), has_ite_bit _ _ _ (by decide) (by decide), has_ite_bit _ _ _ (by decide) (by decide), z]
    simp
  unfold routeKeyCmp1
  simp only [RF.SA_FAMILY_WILDCARD, RF.SA_REMOTE_ADDR_WILDCARD, RF.SA_PROTO_WILDCARD,
    RF.SA_LOCAL_PORT_WILDCARD, RF.SA_LOCAL_ADDR_WILDCARD, RF.SA_REMOTE_PORT_WILDCARD,
    RF.REMOTE_INTERFACE_WILDCARD, RF.LOCAL_INTERFACE_WILDCARD, RF.REMOTE_ADDR_BITMASK,
    RF.LOCAL_ADDR_BITMASK, Bool.not_true, Bool.false_and, Bool.false_eq_true, if_false]
  constructor
  · simp only [(scalarStage_match _ _ _ _ _ _).1, (addrStage_match _ _ _ _ _ _ _).1]
    rw [(eventStage_match l r _ _ (by rw [pe]; exact inx8 ..)).1]
    simp only [pe, hwk _ (by decide : 0 < 32), hwk _ (by decide : 1 < 32), hwk _ (by decide : 2 < 32),
      hwk _ (by decide : 3 < 32), hwk _ (by decide : 4 < 32), hwk _ (by decide : 5 < 32),
      hwk _ (by decide : 6 < 32), hwk _ (by decide : 7 < 32), hwk _ (by decide : 8 < 32),
      hwk _ (by decide : 12 < 32), hwk _ (by decide : 13 < 32), hb.1, hb.2,
      (addrCmpM_prefix _ _ hl.1 hr.1 _).1, (addrCmpM_prefix _ _ hl.2 hr.2 _).1]
    constructor
    · rintro ⟨a, b, c, d, e, f, g, h, i⟩
      exact ⟨a, b, c, d, e, f, g, h, i⟩
    · rintro ⟨a, b, c, d, e, f, g, h, i⟩
      exact ⟨a, b, c, d, e, f, g, h, i⟩
  · intro h
    have e := scalar_fwd _ _ _ _ _ _ h; rw [e] at h ⊢; clear e
    obtain ⟨a1, e⟩ := addr_fwd _ _ _ _ _ _ _ h; rw [e] at h ⊢; clear e
    have e := scalar_fwd _ _ _ _ _ _ h; rw [e] at h ⊢; clear e
    have e := scalar_fwd _ _ _ _ _ _ h; rw [e] at h ⊢; clear e
    obtain ⟨a2, e⟩ := addr_fwd _ _ _ _ _ _ _ h; rw [e] at h ⊢; clear e
    have e := scalar_fwd _ _ _ _ _ _ h; rw [e] at h ⊢; clear e
    have e := scalar_fwd _ _ _ _ _ _ h; rw [e] at h ⊢; clear e
    have e := scalar_fwd _ _ _ _ _ _ h; rw [e] at h ⊢; clear e
    rw [(eventStage_match l r _ _ (by rw [pe]; exact inx8 ..)).2 h]
    clear h
    rw [hwk _ (by decide), hwk _ (by decide), hb.1] at a1
    rw [hwk _ (by decide), hwk _ (by decide), hb.2] at a2
    rw [hwk _ (by decide), hwk _ (by decide), hb.1]
    rw [hwk _ (by decide), hwk _ (by decide), hb.2]
    have c1 := (addrCmpM_prefix _ _ hl.1 hr.1 _).2 a1
    have c2 := (addrCmpM_prefix _ _ hl.2 hr.2 _).2 a2
    intro k hk
    rw [← Flags.has_bit _ _ hk, pe]
    rw [has_or _ _ _ hk, has_or _ _ _ hk, has_or _ _ _ hk, has_or _ _ _ hk, has_or _ _ _ hk, has_or _ _ _ hk,
      has_or _ _ _ hk, has_or _ _ _ hk, has_or _ _ _ hk]
    rw [has_ite_bit _ _ _ (by decide) hk, has_ite_bit _ _ _ (by decide) hk, has_ite_bit _ _ _ (by decide) hk,
      has_ite_bit _ _ _ (by decide) hk, has_ite_bit _ _ _ (by decide) hk, has_ite_bit _ _ _ (by decide) hk,
      has_ite_bit _ _ _ (by decide) hk, has_ite_bit _ _ _ (by decide) hk, has_ite_bit _ _ _ (by decide) hk, z]
    simp only [c1, c2, Bool.or_eq_true, Bool.and_eq_true, decide_eq_true_eq, Bool.false_eq_true, false_or]
    unfold Differs
    by_cases hk8 : k ≤ 8
    · rcases (by omega : k = 0 ∨ k = 1 ∨ k = 2 ∨ k = 3 ∨ k = 4 ∨ k = 5 ∨ k = 6 ∨ k = 7 ∨ k = 8) with h | h | h | h | h | h | h | h | h <;>
        subst h <;> simp
    · have : ∀ j, j ≤ 8 → (j = k) = False := by intro j hj; simp; omega
      simp [this]
      split <;> first | omega | simp
end WS
