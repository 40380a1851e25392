import Verif.Model.JsonNum
import Verif.Spec.JsonNum
/-
Lemmas for property C52.
-/
namespace WS.JNum
open WS WS.Spec.Json

def dig (c : Byte) : Prop := 0x30 ≤ c.toNat ∧ c.toNat ≤ 0x39

/-- The value of a string of digits. -/
def val : List Byte → Nat
  | [] => 0
  | c :: r => (c.toNat - 0x30) * 10 ^ r.length + val r

theorem val_append (a b : List Byte) : val (a ++ b) = val a * 10 ^ b.length + val b := by
  induction a with
  | nil => simp [val]
  | cons c a ih => simp only [List.cons_append, val, ih, List.length_append, Nat.pow_add, Nat.add_mul, Nat.mul_assoc, Nat.add_assoc]

theorem val_lt : ∀ {a : List Byte}, (∀ c ∈ a, dig c) → val a < 10 ^ a.length
  | [], _ => by simp [val]
  | c :: a, h => by
    have h1 := h c (by simp)
    have ih := val_lt (a := a) (fun c hc => h c (by simp [hc]))
    unfold dig at h1
    simp only [val, List.length_cons, Nat.pow_succ]
    have : (c.toNat - 0x30) * 10 ^ a.length ≤ 9 * 10 ^ a.length := Nat.mul_le_mul_right _ (by omega)
    omega

theorem byteEq {a b : Byte} (h : a.toNat = b.toNat) : a = b := BitVec.eq_of_toNat_eq h

/-- On digit strings of equal length `strncmp` compares the values. -/
theorem strncmp_val : ∀ {a b : List Byte}, a.length = b.length → (∀ c ∈ a, dig c) → (∀ c ∈ b, dig c) →
    (strncmp a b < 0 ↔ val a < val b) ∧ (0 < strncmp a b ↔ val b < val a)
  | [], [], _, _, _ => by simp [strncmp, val]
  | c :: a, d :: b, hl, ha, hb => by
    have hl' : a.length = b.length := by simpa using hl
    clear hl
    have h1 := ha c (by simp)
    have h2 := hb d (by simp)
    have va := val_lt (a := a) (fun c hc => ha c (by simp [hc]))
    have vb := val_lt (a := b) (fun c hc => hb c (by simp [hc]))
    unfold dig at h1 h2
    simp only [strncmp, val]
    by_cases e : c = d
    · subst e
      have : c ≠ 0#8 := by intro h; rw [h] at h1; simp at h1
      rw [if_pos rfl, if_neg this, hl']
      have ih := strncmp_val hl' (fun c hc => ha c (by simp [hc])) (fun c hc => hb c (by simp [hc]))
      rw [ih.1, ih.2]
      constructor <;> omega
    · rw [if_neg e]
      have hne : c.toNat ≠ d.toNat := fun h => e (byteEq h)
      rw [hl'] at va ⊢
      generalize 10 ^ b.length = m at *
      rcases Nat.lt_or_gt_of_ne hne with h | h
      · have : (c.toNat - 0x30) * m + m ≤ (d.toNat - 0x30) * m := by
          rw [← Nat.succ_mul]; exact Nat.mul_le_mul_right _ (by omega)
        constructor <;> constructor <;> intro <;> omega
      · have : (d.toNat - 0x30) * m + m ≤ (c.toNat - 0x30) * m := by
          rw [← Nat.succ_mul]; exact Nat.mul_le_mul_right _ (by omega)
        constructor <;> constructor <;> intro <;> omega

/-- A digit string without superfluous leading zeros, decidably. -/
def canon (d : List Byte) : Bool :=
  d.all (fun c => decide (0x30 ≤ c.toNat) && decide (c.toNat ≤ 0x39)) && d != [] && (d.head? != some 0x30#8 || d.length == 1)

theorem digit_iff {c : Byte} : Digit c ↔ dig c := by
  unfold Digit dig ch
  rw [BitVec.le_def, BitVec.le_def]
  exact Iff.rfl

theorem canon_of_int {d : List Byte} (h : IntPart d) : canon d = true := by
  induction h with
  | zero => decide
  | first hd hz =>
    rename_i c
    have := digit_iff.1 hd
    unfold dig at this
    simp only [canon, List.all_cons, List.all_nil, List.head?_cons, Bool.and_true, List.length_singleton]
    simp [this.1, this.2]
  | next ht hne hd ih =>
    rename_i t c
    have hc := digit_iff.1 hd
    unfold dig at hc
    unfold canon at ih ⊢
    simp only [Bool.and_eq_true, Bool.or_eq_true, bne_iff_ne, ne_eq, beq_iff_eq, List.all_eq_true, decide_eq_true_eq] at ih ⊢
    obtain ⟨⟨i1, i2⟩, i3⟩ := ih
    refine ⟨⟨?_, by simp⟩, ?_⟩
    · intro x hx
      rcases List.mem_append.1 hx with hx | hx
      · exact i1 x hx
      · simp at hx; subst hx; exact hc
    · left
      cases t with
      | nil => exact absurd rfl i2
      | cons a t =>
        intro h
        simp only [List.cons_append, List.head?_cons, Option.some.injEq] at h
        rcases i3 with i3 | i3
        · exact i3 (by simp [h])
        · have : t = [] := by simpa using i3
          subst this
          exact hne (by rw [h]; rfl)

theorem canon_dig {d : List Byte} (h : canon d = true) : ∀ c ∈ d, dig c := by
  unfold canon at h
  simp only [Bool.and_eq_true, List.all_eq_true, decide_eq_true_eq] at h
  exact h.1.1

theorem canon_low {d : List Byte} (h : canon d = true) (hl : 2 ≤ d.length) : 10 ^ (d.length - 1) ≤ val d := by
  cases d with
  | nil => simp at hl
  | cons c d =>
    have hc := canon_dig h c (by simp)
    unfold dig at hc
    unfold canon at h
    simp only [Bool.and_eq_true, Bool.or_eq_true, bne_iff_ne, ne_eq, beq_iff_eq] at h
    have : c ≠ 0x30#8 := by
      rcases h.2 with h2 | h2
      · simpa using h2
      · simp only [List.length_cons] at h2 hl; omega
    have : 0x30 < c.toNat := by
      have : c.toNat ≠ 0x30 := fun e => this (byteEq (by rw [e]; rfl))
      omega
    simp only [val, List.length_cons, Nat.add_sub_cancel]
    have : 1 * 10 ^ d.length ≤ (c.toNat - 0x30) * 10 ^ d.length := Nat.mul_le_mul_right _ (by omega)
    omega

theorem canon_ne {d : List Byte} (h : canon d = true) : d ≠ [] := by
  unfold canon at h
  simp only [Bool.and_eq_true, bne_iff_ne] at h
  exact h.1.2

/-- On canonical digit strings `intstrncmp_pos` compares the values. -/
theorem cmpPos_val {a b : List Byte} (ha : canon a = true) (hb : canon b = true) :
    (cmpPos a b < 0 ↔ val a < val b) ∧ (0 < cmpPos a b ↔ val b < val a) := by
  have key : ∀ {a b : List Byte}, canon a = true → canon b = true → a.length < b.length → val a < val b := by
    intro a b ha hb hl
    have h1 := val_lt (canon_dig ha)
    have h2 := canon_low hb (by
      cases a with
      | nil => exact absurd rfl (canon_ne ha)
      | cons => simp only [List.length_cons] at hl ⊢; omega)
    have h3 : 10 ^ a.length ≤ 10 ^ (b.length - 1) := Nat.pow_le_pow_right (by omega) (by omega)
    omega
  unfold cmpPos
  by_cases hl : a.length = b.length
  · rw [if_neg (by simpa using hl)]
    exact strncmp_val hl (canon_dig ha) (canon_dig hb)
  · rw [if_pos hl]
    by_cases h : a.length < b.length
    · rw [if_pos h]
      have := key ha hb h
      constructor <;> constructor <;> intro <;> omega
    · rw [if_neg h]
      have := key hb ha (by omega)
      constructor <;> constructor <;> intro <;> omega

theorem canon_head {d : List Byte} (h : canon d = true) : (d.head? != some 0x2d#8) = true := by
  cases d with
  | nil => rfl
  | cons c d =>
    have := canon_dig h c (by simp)
    unfold dig at this
    simp only [List.head?_cons, bne_iff_ne, ne_eq, Option.some.injEq]
    intro e; rw [e] at this; simp at this

/-- What a text with an optional minus sign stands for. -/
def sval (t : List Byte) : Int := if t.head? = some 0x2d#8 then -(val t.tail : Int) else val t

/-- A canonical integer text other than "-0". -/
def scanon (t : List Byte) : Bool :=
  canon t || (t.head? == some 0x2d#8 && canon t.tail && t.tail != [0x30#8])

theorem val_pos {d : List Byte} (h : canon d = true) (hz : d ≠ [0x30#8]) : 0 < val d := by
  by_cases hl : 2 ≤ d.length
  · have := canon_low h hl
    have : 0 < 10 ^ (d.length - 1) := Nat.pow_pos (by omega)
    omega
  · cases d with
    | nil => exact absurd rfl (canon_ne h)
    | cons c d =>
      have : d = [] := by
        cases d with
        | nil => rfl
        | cons => simp at hl
      subst this
      have hc := canon_dig h c (by simp)
      unfold dig at hc
      have : c.toNat ≠ 0x30 := fun e => hz (by rw [byteEq (a := c) (b := 0x30#8) (by rw [e]; rfl)])
      simp [val]; omega

/-- On canonical integer texts `intstrncmp` compares the values. -/
theorem cmp_val {a b : List Byte} (ha : scanon a = true) (hb : scanon b = true) : cmp a b ≤ 0 ↔ sval a ≤ sval b := by
  unfold scanon at ha hb
  simp only [Bool.or_eq_true, Bool.and_eq_true, beq_iff_eq, bne_iff_ne] at ha hb
  unfold cmp sval
  rcases ha with ha | ⟨⟨a1, a2⟩, a3⟩
  · have ha' := canon_head ha
    have hna : a.head? ≠ some 0x2d#8 := by simpa using ha'
    rcases hb with hb | ⟨⟨b1, b2⟩, b3⟩
    · have hb' := canon_head hb
      have hnb : b.head? ≠ some 0x2d#8 := by simpa using hb'
      simp only [ha', hb', beq_self_eq_true, if_true, if_neg hna, if_neg hnb]
      have := cmpPos_val ha hb
      omega
    · have := val_pos b2 b3
      simp [ha', b1, hna]
      try omega
  · rcases hb with hb | ⟨⟨b1, b2⟩, b3⟩
    · have hb' := canon_head hb
      have hnb : b.head? ≠ some 0x2d#8 := by simpa using hb'
      have := val_pos a2 a3
      simp [hb', a1, hnb]
      try omega
    · simp only [a1, b1, bne_self_eq_false, beq_self_eq_true, if_true, Bool.false_eq_true, if_false]
      unfold cmpNeg
      have := cmpPos_val a2 b2
      omega

theorem dec_val {d : List Byte} {n : Nat} (h : Dec d n) : val d = n := by
  induction h with
  | nil => rfl
  | snoc _ hk ih =>
    rename_i t n k _
    rw [val_append, ih]
    simp only [val, List.length_singleton, List.length_nil, Nat.pow_one, Nat.pow_zero, Nat.mul_one, Nat.add_zero, BitVec.toNat_ofNat]
    have : (48 + k) % 2 ^ 8 = 48 + k := Nat.mod_eq_of_lt (by omega)
    omega

theorem val_dec {d : List Byte} (h : ∀ c ∈ d, dig c) : Dec d (val d) := by
  have : ∀ (r : List Byte), (∀ c ∈ r, dig c) → Dec r.reverse (val r.reverse) := by
    intro r
    induction r with
    | nil => intro _; exact Dec.nil
    | cons c r ih =>
      intro h
      have hc := h c (by simp)
      unfold dig at hc
      have i := ih (fun c hc => h c (by simp [hc]))
      rw [List.reverse_cons, val_append]
      have := Dec.snoc i (k := c.toNat - 0x30) (by omega)
      have e : BitVec.ofNat 8 (0x30 + (c.toNat - 0x30)) = c := byteEq (by
        rw [BitVec.toNat_ofNat, Nat.mod_eq_of_lt (by omega)]; omega)
      rw [e] at this
      simpa [val] using this
  have := this d.reverse (by simpa using h)
  simpa using this

theorem between_val {t lo hi : List Byte} (ht : scanon t = true) (hlo : scanon lo = true) (hhi : scanon hi = true) :
    between t lo hi = decide (sval lo ≤ sval t ∧ sval t ≤ sval hi) := by
  unfold between
  rw [Bool.eq_iff_iff]
  simp only [Bool.and_eq_true, decide_eq_true_eq, cmp_val hlo ht, cmp_val ht hhi]

theorem canon_notin {d : List Byte} (h : canon d = true) (x : Byte) (hx : ¬ dig x) : x ∉ d :=
  fun hm => hx (canon_dig h x hm)

theorem ch_minus : ch '-' = 0x2d#8 := rfl

/-- Which integer types have the value. -/
def kindsOf (v : Int) : Kinds :=
  { i32 := decide (-2147483648 ≤ v ∧ v ≤ 2147483647), u32 := decide (0 ≤ v ∧ v ≤ 4294967295),
      i64 := decide (-9223372036854775808 ≤ v ∧ v ≤ 9223372036854775807),
      u64 := decide (0 ≤ v ∧ v ≤ 18446744073709551615) }

/-- Classification of every JSON integer. -/
theorem analyze_int {t : List Byte} {v : Int} (h : Integer t v) : analyze t =
    kindsOf v := by
  obtain ⟨d, n, hd, hn, hc⟩ := h
  have hcan := canon_of_int hd
  have hval := dec_val hn
  have hlen20 : (lit "18446744073709551615").length = 20 := by decide
  have core : ∀ u : List Byte, scanon u = true → sval u = v → 0x2e#8 ∉ u → 0x65#8 ∉ u → 0x45#8 ∉ u →
      (if 0x2e#8 ∉ u ∧ 0x65#8 ∉ u ∧ 0x45#8 ∉ u then
      ({ i32 := between u (lit "-2147483648") (lit "2147483647")
         u32 := between u (lit "0") (lit "4294967295")
         i64 := between u (lit "-9223372036854775808") (lit "9223372036854775807")
         u64 := between u (lit "0") (lit "18446744073709551615") } : Kinds)
      else {}) = kindsOf v := by
    intro u hu hv h1 h2 h3
    rw [if_pos ⟨h1, h2, h3⟩]
    rw [between_val hu (by decide) (by decide), between_val hu (by decide) (by decide),
      between_val hu (by decide) (by decide), between_val hu (by decide) (by decide), hv]
    have e1 : sval (lit "-2147483648") = -2147483648 := by decide
    have e2 : sval (lit "2147483647") = 2147483647 := by decide
    have e3 : sval (lit "0") = 0 := by decide
    have e4 : sval (lit "4294967295") = 4294967295 := by decide
    have e5 : sval (lit "-9223372036854775808") = -9223372036854775808 := by decide
    have e6 : sval (lit "9223372036854775807") = 9223372036854775807 := by decide
    have e7 : sval (lit "18446744073709551615") = 18446744073709551615 := by decide
    rw [e1, e2, e3, e4, e5, e6, e7]
    rfl
  have out : (v < -9223372036854775808 ∨ 18446744073709551615 < v) → ({} : Kinds) =
      kindsOf v := by
    intro h
    unfold kindsOf
    simp only [Kinds.mk.injEq]
    refine ⟨?_, ?_, ?_, ?_⟩ <;> (symm; rw [decide_eq_false_iff_not]; omega)
  have nd : ¬ dig 0x2e#8 ∧ ¬ dig 0x65#8 ∧ ¬ dig 0x45#8 := by unfold dig; decide
  unfold analyze
  rw [hlen20]
  rcases hc with ⟨rfl, rfl⟩ | ⟨rfl, rfl⟩
  · -- no sign
    have hh := canon_head hcan
    by_cases hl : t.length ≤ 20
    · rw [if_pos hl]
      have hne : ¬ (t.length = 2 ∧ t[0]? = some 0x2d#8 ∧ t[1]? = some 0x30#8) := by
        rintro ⟨_, h0, _⟩
        rw [← List.head?_eq_getElem?] at h0
        rw [h0] at hh; simp at hh
      simp only [if_neg hne]
      refine core t (by unfold scanon; rw [hcan]; rfl) ?_ (canon_notin hcan _ nd.1) (canon_notin hcan _ nd.2.1) (canon_notin hcan _ nd.2.2)
      unfold sval
      rw [if_neg (by simpa using hh), hval]
    · rw [if_neg hl]
      apply out
      right
      have := canon_low hcan (by omega)
      rw [hval] at this
      have : 10 ^ 20 ≤ 10 ^ (t.length - 1) := Nat.pow_le_pow_right (by omega) (by omega)
      omega
  · rw [ch_minus]
    by_cases hl : (0x2d#8 :: d).length ≤ 20
    · rw [if_pos hl]
      by_cases hz : d = [0x30#8]
      · subst hz
        have hn0 : n = 0 := by rw [← hval]; decide
        subst hn0
        exact core [0x30#8] (by decide) (by decide) (by decide) (by decide) (by decide)
      · have hne : ¬ ((0x2d#8 :: d).length = 2 ∧ (0x2d#8 :: d)[0]? = some 0x2d#8 ∧ (0x2d#8 :: d)[1]? = some 0x30#8) := by
          rintro ⟨h1, _, h2⟩
          apply hz
          cases d with
          | nil => simp at h1
          | cons c d =>
            have : d = [] := by
              cases d with
              | nil => rfl
              | cons => simp at h1
            subst this
            simpa using h2
        simp only [if_neg hne]
        refine core _ ?_ ?_ ?_ ?_ ?_
        · unfold scanon
          simp only [List.head?_cons, List.tail_cons, hcan, beq_self_eq_true, Bool.true_and, Bool.or_eq_true, bne_iff_ne]
          exact Or.inr hz
        · unfold sval
          rw [if_pos (by rfl), List.tail_cons, hval]
        · simp only [List.mem_cons, not_or]; exact ⟨by decide, canon_notin hcan _ nd.1⟩
        · simp only [List.mem_cons, not_or]; exact ⟨by decide, canon_notin hcan _ nd.2.1⟩
        · simp only [List.mem_cons, not_or]; exact ⟨by decide, canon_notin hcan _ nd.2.2⟩
    · rw [if_neg hl]
      apply out
      left
      simp only [List.length_cons] at hl
      have := canon_low hcan (by omega)
      rw [hval] at this
      have : 10 ^ 19 ≤ 10 ^ (d.length - 1) := Nat.pow_le_pow_right (by omega) (by omega)
      omega

/-! ### Conversion -/

theorem u64Loop_digits : ∀ {d : List Byte} (m : Nat) (rest : List Byte), (∀ c ∈ d, dig c) →
    (rest = [] ∨ ∃ c r, rest = c :: r ∧ ¬ dig c) →
    u64Loop (BitVec.ofNat 64 m) (d ++ rest) = BitVec.ofNat 64 (m * 10 ^ d.length + val d)
  | [], m, rest, _, hr => by
    have : u64Loop (BitVec.ofNat 64 m) rest = BitVec.ofNat 64 m := by
      rcases hr with rfl | ⟨c, r, rfl, hc⟩
      · rfl
      · unfold dig at hc
        simp only [u64Loop, if_neg hc]
    simp [this, val]
  | c :: d, m, rest, h, hr => by
    have hc := h c (by simp)
    unfold dig at hc
    simp only [List.cons_append, u64Loop, if_pos hc]
    have e : BitVec.ofNat 64 m * 10#64 + BitVec.ofNat 64 (c.toNat - 0x30) = BitVec.ofNat 64 (m * 10 + (c.toNat - 0x30)) := by
      rw [BitVec.ofNat_add, BitVec.ofNat_mul]
    rw [e, u64Loop_digits _ rest (fun c hc => h c (by simp [hc])) hr]
    simp only [val, List.length_cons, Nat.pow_succ, Nat.add_mul]
    rw [Nat.mul_assoc m 10, Nat.mul_comm 10, Nat.add_assoc]

theorem toU64_digits {d : List Byte} (h : ∀ c ∈ d, dig c) : toU64 d = BitVec.ofNat 64 (val d) := by
  have := u64Loop_digits (d := d) 0 [] h (Or.inl rfl)
  simpa [toU64] using this

theorem toI64_int {t : List Byte} {v : Int} (h : Integer t v) (h1 : -9223372036854775808 ≤ v) (h2 : v ≤ 9223372036854775807) :
    toI64 t = some v := by
  obtain ⟨d, n, hd, hn, hc⟩ := h
  have hcan := canon_of_int hd
  have hval := dec_val hn
  have hu := toU64_digits (canon_dig hcan)
  rw [hval] at hu
  unfold toI64
  rcases hc with ⟨rfl, rfl⟩ | ⟨rfl, rfl⟩
  · have hh : (t.head? == some 0x2d#8) = false := by
      have := canon_head hcan
      rw [bne_iff_ne] at this
      rw [beq_eq_false_iff_ne]; exact this
    simp only [hh, Bool.false_eq_true, if_false, hu]
    congr 1
    rw [BitVec.toInt_eq_toNat_cond, BitVec.toNat_ofNat]
    have : n % 2 ^ 64 = n := Nat.mod_eq_of_lt (by omega)
    rw [this]
    split <;> omega
  · rw [ch_minus]
    simp only [List.head?_cons, beq_self_eq_true, if_true, List.tail_cons, hu]
    have hv : (BitVec.ofNat 64 n - 1#64).toInt = (n : Int) - 1 := by
      rw [BitVec.toInt_eq_toNat_cond, BitVec.toNat_sub, BitVec.toNat_ofNat n]
      have e1 : n % 2 ^ 64 = n := Nat.mod_eq_of_lt (by omega)
      have e2 : (1#64 : BitVec 64).toNat = 1 := rfl
      rw [e1, e2]
      by_cases hn0 : n = 0
      · subst hn0; simp
      · have : (2 ^ 64 - 1 + n) % 2 ^ 64 = n - 1 := by
          rw [show 2 ^ 64 - 1 + n = (n - 1) + 2 ^ 64 by omega, Nat.add_mod_right, Nat.mod_eq_of_lt (by omega)]
        rw [this]
        split <;> omega
    rw [hv, if_neg (by omega)]
    congr 1
    omega

theorem toU64_int {t : List Byte} {v : Int} (h : Integer t v) (h0 : t.head? ≠ some 0x2d#8) :
    toU64 t = BitVec.ofInt 64 v := by
  obtain ⟨d, n, hd, hn, hc⟩ := h
  have hcan := canon_of_int hd
  have hval := dec_val hn
  have hu := toU64_digits (canon_dig hcan)
  rw [hval] at hu
  rcases hc with ⟨rfl, rfl⟩ | ⟨rfl, rfl⟩
  · rw [hu]; rfl
  · exact absurd rfl h0

/-! ### Writing -/

theorem digit_byte {k : Nat} (hk : k < 10) : (BitVec.ofNat 8 (0x30 + k)).toNat = 0x30 + k := by
  rw [BitVec.toNat_ofNat, Nat.mod_eq_of_lt (by omega)]

theorem dumpULoop_spec : ∀ (room u : Nat) (acc : List Byte), u < 10 ^ room → (∀ c ∈ acc, dig c) →
    ∃ t, dumpULoop room u acc = some (t ++ acc) ∧ (∀ c ∈ t, dig c) ∧ val t = u ∧ t.length ≤ room ∧
      (u = 0 → t = []) ∧ (u ≠ 0 → t.head? ≠ some 0x30#8 ∧ t ≠ [])
  | 0, u, acc, hu, _ => by
    have : u = 0 := by simpa using hu
    exact ⟨[], by simp [dumpULoop, this], by simp, by simp [val, this], by simp, by simp, fun h => absurd this h⟩
  | room + 1, u, acc, hu, ha => by
    by_cases h0 : u = 0
    · exact ⟨[], by simp [dumpULoop, h0], by simp, by simp [val, h0], by simp, by simp, fun h => absurd h0 h⟩
    · simp only [dumpULoop, if_neg h0]
      have hk : u % 10 < 10 := Nat.mod_lt _ (by omega)
      obtain ⟨t, e1, e2, e3, e4, e5, e6⟩ := dumpULoop_spec room (u / 10) (BitVec.ofNat 8 (0x30 + u % 10) :: acc)
        (by rw [Nat.pow_succ] at hu; exact Nat.div_lt_of_lt_mul (by omega)) (by
          intro c hc
          rcases List.mem_cons.1 hc with rfl | hc
          · unfold dig; rw [digit_byte hk]; omega
          · exact ha c hc)
      refine ⟨t ++ [BitVec.ofNat 8 (0x30 + u % 10)], by rw [e1]; simp, ?_, ?_, by simp; omega, fun h => absurd h h0, fun _ => ?_⟩
      · intro c hc
        rcases List.mem_append.1 hc with hc | hc
        · exact e2 c hc
        · simp at hc; subst hc; unfold dig; rw [digit_byte hk]; omega
      · rw [val_append, e3]
        simp only [val, digit_byte hk, List.length_singleton, List.length_nil, Nat.pow_one, Nat.pow_zero]
        omega
      · refine ⟨?_, by simp⟩
        by_cases hq : u / 10 = 0
        · rw [e5 hq]
          simp only [List.nil_append, List.head?_cons, ne_eq, Option.some.injEq]
          intro e
          have := congrArg BitVec.toNat e
          rw [digit_byte hk] at this
          simp at this
          omega
        · obtain ⟨h1, h2⟩ := e6 hq
          cases t with
          | nil => exact absurd rfl h2
          | cons c t => simpa using h1

theorem int_of_canon {d : List Byte} (h : ∀ c ∈ d, dig c) (hne : d ≠ []) (hh : d.head? ≠ some 0x30#8) : IntPart d := by
  have : ∀ (r : List Byte), (∀ c ∈ r, dig c) → r ≠ [] → r.reverse.head? ≠ some 0x30#8 → IntPart r.reverse := by
    intro r
    induction r with
    | nil => intro _ h; exact absurd rfl h
    | cons c r ih =>
      intro h _ hh
      rw [List.reverse_cons] at hh ⊢
      have hc := h c (by simp)
      cases hr : r with
      | nil =>
        subst hr
        exact IntPart.first (digit_iff.2 hc) (by simpa [ch] using hh)
      | cons x r' =>
        rw [← hr]
        have hrn : r.reverse ≠ [] := by rw [hr]; simp
        have hh' : r.reverse.head? ≠ some 0x30#8 := by
          cases hrr : r.reverse with
          | nil => exact absurd hrr hrn
          | cons y l => rw [hrr] at hh; simpa using hh
        refine IntPart.next (ih (fun c hc => h c (by simp [hc])) (by rw [hr]; simp) hh') ?_ (digit_iff.2 hc)
        intro e; rw [e] at hh'; exact hh' rfl
  have := this d.reverse (by simpa using h) (by simpa using hne) (by simpa using hh)
  simpa using this

theorem dumpU64_int {u : Nat} (hu : u < 2 ^ 64) : ∃ t, dumpU64 u = some t ∧ Integer t u ∧ t.length ≤ 20 := by
  unfold dumpU64
  by_cases h0 : u = 0
  · subst h0
    exact ⟨[0x30#8], by simp, ⟨_, 0, IntPart.zero, by simpa [ch] using Dec.snoc (k := 0) Dec.nil (by omega), Or.inl ⟨rfl, rfl⟩⟩, by simp⟩
  · rw [if_pos h0]
    obtain ⟨t, e1, e2, e3, e4, _, e6⟩ := dumpULoop_spec 32 u [] (by omega) (by simp)
    refine ⟨t, by simpa using e1, ⟨t, u, int_of_canon e2 (e6 h0).2 (e6 h0).1, ?_, Or.inl ⟨rfl, rfl⟩⟩, ?_⟩
    · have := val_dec e2; rwa [e3] at this
    · have hc := canon_of_int (int_of_canon e2 (e6 h0).2 (e6 h0).1)
      apply Classical.byContradiction
      intro hl
      have := canon_low hc (by omega)
      rw [e3] at this
      have : 10 ^ 20 ≤ 10 ^ (t.length - 1) := Nat.pow_le_pow_right (by omega) (by omega)
      omega

/-- The signed loop writes the digits of the absolute value. -/
theorem dumpLoop_eq : ∀ (room : Nat) (i : Int) (acc : List Byte),
    (dumpLoop room i acc).map Prod.snd = dumpULoop room i.natAbs acc ∧
    ∀ r t, dumpLoop room i acc = some (r, t) → r + t.length = room + acc.length
  | 0, i, acc => by
    simp only [dumpLoop, dumpULoop, Int.natAbs_eq_zero]
    split
    · refine ⟨rfl, fun r t h => ?_⟩
      simp at h; rw [← h.1, ← h.2]
    · exact ⟨rfl, fun r t h => by cases h⟩
  | room + 1, i, acc => by
    simp only [dumpLoop, dumpULoop, Int.natAbs_eq_zero]
    split
    · refine ⟨rfl, fun r t h => ?_⟩
      simp at h; rw [← h.1, ← h.2]
    · have := dumpLoop_eq room (i.tdiv 10) (BitVec.ofNat 8 (0x30 + (i.tmod 10).natAbs) :: acc)
      rw [Int.natAbs_tdiv] at this
      have e : (i.tmod 10).natAbs = i.natAbs % 10 := by rw [Int.natAbs_tmod]; rfl
      rw [e] at this ⊢
      refine ⟨this.1, fun r t h => ?_⟩
      have := this.2 r t h
      simp only [List.length_cons] at this
      omega

theorem dumpI64_int {i : Int} (h1 : -9223372036854775808 ≤ i) (h2 : i ≤ 9223372036854775807) :
    ∃ t, dumpI64 i = some t ∧ Integer t i ∧ t.length ≤ 20 := by
  unfold dumpI64
  by_cases h0 : i = 0
  · subst h0
    exact ⟨[0x30#8], by simp, ⟨_, 0, IntPart.zero, by simpa [ch] using Dec.snoc (k := 0) Dec.nil (by omega), Or.inl ⟨rfl, rfl⟩⟩, by simp⟩
  · rw [if_pos h0]
    have hn0 : i.natAbs ≠ 0 := by omega
    obtain ⟨t, e1, e2, e3, _, _, e6⟩ := dumpULoop_spec 32 i.natAbs [] (by omega) (by simp)
    obtain ⟨k1, k2⟩ := dumpLoop_eq 32 i []
    rw [e1] at k1
    cases hd : dumpLoop 32 i [] with
    | none => rw [hd] at k1; cases k1
    | some p =>
      obtain ⟨r, t'⟩ := p
      rw [hd] at k1
      have ht : t' = t := by simpa using k1
      subst ht
      have hlen := k2 _ _ hd
      simp only [List.length_nil, Nat.add_zero] at hlen
      have hint := int_of_canon e2 (e6 hn0).2 (e6 hn0).1
      have hdec := val_dec e2
      rw [e3] at hdec
      have h19 : t'.length ≤ 19 := by
        apply Classical.byContradiction
        intro hl
        have := canon_low (canon_of_int hint) (by omega)
        rw [e3] at this
        have : 10 ^ 19 ≤ 10 ^ (t'.length - 1) := Nat.pow_le_pow_right (by omega) (by omega)
        omega
      simp only
      by_cases hneg : i < 0
      · rw [if_pos hneg, if_neg (by omega)]
        exact ⟨_, rfl, ⟨t', i.natAbs, hint, hdec, Or.inr ⟨rfl, by omega⟩⟩, by simp; omega⟩
      · rw [if_neg hneg]
        exact ⟨_, rfl, ⟨t', i.natAbs, hint, hdec, Or.inl ⟨rfl, by omega⟩⟩, by omega⟩

end WS.JNum
