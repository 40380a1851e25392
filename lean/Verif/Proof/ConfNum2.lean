import Verif.Proof.ConfNum
/-
Lemmas for C54: JSON numbers as literals; durations.
-/
namespace WS.ConfNum
open WS WS.Sax WS.Time WS.Spec.Conf WS.Spec.Json WS.JNum

theorem dig_digit {c : Byte} (h : dig c) : digit 10 c = some (c.toNat - 0x30) := by
  unfold dig at h
  exact digit_of.2 ⟨Or.inl ⟨by omega, by omega⟩, by omega⟩

theorem digit_dig {base : Nat} {c : Byte} (hb : base ≤ 10) (h : (digit base c).isSome) : dig c := by
  obtain ⟨k, hk⟩ := Option.isSome_iff_exists.1 h
  have := digit_of.1 hk
  unfold DigitOf at this
  unfold dig; omega

theorem dec_positional {d : List Byte} {n : Nat} (h : Dec d n) : Positional 10 d n := by
  induction h with
  | nil => exact Positional.nil
  | @snoc t n k _ hk ih => exact Positional.snoc ih (Or.inl ⟨hk, digit_byte hk⟩) hk

theorem positional_dec {d : List Byte} {n : Nat} (h : Positional 10 d n) : Dec d n := by
  induction h with
  | nil => exact Dec.nil
  | @snoc t n k c _ hc hk ih =>
    have : c = BitVec.ofNat 8 (0x30 + k) := byteEq (by rw [digit_byte hk]; unfold DigitOf at hc; omega)
    rw [this]; exact Dec.snoc ih hk

theorem int_unsigned {d : List Byte} {n : Nat} (hi : IntPart d) (hd : Dec d n) : Unsigned d n := by
  have hc := canon_of_int hi
  by_cases h0 : d.head? = some (ch '0')
  · have : d = [ch '0'] := by
      unfold canon at hc
      cases d with
      | nil => cases h0
      | cons c t =>
        simp at h0; subst h0
        cases t with
        | nil => rfl
        | cons => revert hc; simp [show ch '0' = 0x30#8 by decide]
    subst this
    have : n = 0 := by rw [← dec_val hd]; decide
    subst this
    exact Unsigned.octal Positional.nil
  · exact Unsigned.decimal (dec_positional hd) (canon_ne hc) h0

theorem integer_literal {t : List Byte} {v : Int} (h : Integer t v) : Literal t v := by
  obtain ⟨d, n, hi, hd, hc⟩ := h
  rcases hc with ⟨rfl, rfl⟩ | ⟨rfl, rfl⟩
  · exact ⟨[], [], t, n, by simp, by simp, int_unsigned hi hd, Or.inl ⟨rfl, rfl⟩⟩
  · exact ⟨[], [ch '-'], d, n, by simp, by simp, int_unsigned hi hd, Or.inr (Or.inr ⟨rfl, rfl⟩)⟩

theorem int_head {d : List Byte} (h : IntPart d) : ∃ c t, d = c :: t ∧ dig c := by
  have h1 := canon_of_int h
  obtain ⟨c, t, rfl⟩ := List.exists_cons_of_ne_nil (canon_ne h1)
  exact ⟨c, t, rfl, canon_dig h1 c (by simp)⟩

/-- The tail of a number after the integer part starts with no digit and no x. -/
theorem number_tail {frac exp : List Byte} (hf : frac = [] ∨ ∃ ds, frac = ch '.' :: ds ∧ Digits ds)
    (he : exp = [] ∨ ∃ e sg ds, exp = e :: sg ++ ds ∧ (e = ch 'e' ∨ e = ch 'E') ∧ (sg = [] ∨ sg = [ch '+'] ∨ sg = [ch '-']) ∧ Digits ds) :
    frac ++ exp = [] ∨ ∃ c r, frac ++ exp = c :: r ∧ (c = 0x2e#8 ∨ c = 0x65#8 ∨ c = 0x45#8) := by
  rcases hf with rfl | ⟨ds, rfl, _⟩
  · rcases he with rfl | ⟨e, sg, ds, rfl, h, _⟩
    · exact Or.inl rfl
    · refine Or.inr ⟨e, sg ++ ds, by simp, ?_⟩
      rcases h with h | h
      · right; left; rw [h]; decide
      · right; right; rw [h]; decide
  · exact Or.inr ⟨ch '.', ds ++ exp, by simp, Or.inl (by decide)⟩

theorem number_literal {t : List Byte} {v : Int} (hn : Number t) (hl : Literal t v) : Integer t v := by
  obtain ⟨sign, int, frac, exp, rfl, hs, hi, hf, he⟩ := hn
  obtain ⟨w, s, b, m, hw, hsp, hu, hv⟩ := hl
  have ht := number_tail hf he
  obtain ⟨c, i, rfl, hc⟩ := int_head hi
  obtain ⟨x, y, rfl, hx1, hx2⟩ := unsigned_head hu
  have em : ch '-' = 0x2d#8 := by decide
  have ep : ch '+' = 0x2b#8 := by decide
  unfold dig at hc
  -- no white space
  have hw0 : w = [] := by
    cases w with
    | nil => rfl
    | cons z w =>
      have h1 := hsp z (by simp)
      rw [show ch ' ' = 0x20#8 by decide] at h1
      rcases hs with rfl | rfl
      · simp at hw; rw [← hw.1] at h1
        rcases h1 with h1 | h1
        · exfalso; rw [h1] at hc; revert hc; decide
        · omega
      · exfalso; simp at hw; rw [← hw.1, em] at h1; revert h1; decide
  subst hw0
  -- the sign agrees
  have hsame : s = sign ∧ (x :: y) = c :: i ++ (frac ++ exp) := by
    rw [em, ep] at hv
    rcases hs with rfl | rfl <;> rcases hv with ⟨rfl, _⟩ | ⟨rfl, _⟩ | ⟨rfl, _⟩
    · exact ⟨rfl, by simpa using hw.symm⟩
    · exfalso; simp at hw; rw [hw.1] at hc; revert hc; decide
    · exfalso; simp at hw; rw [hw.1] at hc; revert hc; decide
    · exfalso; simp at hw; rw [← hw.1, em] at hx1; revert hx1; decide
    · exfalso; simp at hw; rw [em] at hw; revert hw; simp
    · refine ⟨by rw [em], ?_⟩; simp at hw; simpa using ⟨hw.2.1.symm, hw.2.2.symm⟩
  obtain ⟨rfl, hb⟩ := hsame
  have hcan := canon_of_int hi
  -- no fraction, no exponent, plain decimal
  have hnil : frac ++ exp = [] ∧ Dec (c :: i) m := by
    cases hu with
    | decimal hp hne hh =>
      have hd := (positional_fold hp).2
      have h0 : frac ++ exp = [] := by
        rcases ht with h | ⟨z, r, h, hz⟩
        · exact h
        · exfalso
          have := digit_dig (Nat.le_refl 10) (hd z (by rw [hb, h]; simp))
          unfold dig at this
          rcases hz with h | h | h <;> rw [h] at this <;> revert this <;> decide
      refine ⟨h0, ?_⟩
      rw [h0, List.append_nil] at hb
      rw [← hb]; exact positional_dec hp
    | octal hp =>
      have hd := (positional_fold hp).2
      simp only [List.cons_append, List.cons.injEq] at hb
      have hi0 : i = [] := by
        rw [← hb.1] at hcan
        unfold canon at hcan
        cases i with
        | nil => rfl
        | cons => revert hcan; simp [show ch '0' = 0x30#8 by decide]
      subst hi0
      have h0 : frac ++ exp = [] := by
        rcases ht with h | ⟨z, r, h, hz⟩
        · exact h
        · exfalso
          have := digit_dig (by omega) (hd z (by rw [hb.2, h]; simp))
          unfold dig at this
          rcases hz with h | h | h <;> rw [h] at this <;> revert this <;> decide
      refine ⟨h0, ?_⟩
      have hy : y = [] := by rw [hb.2, h0]; rfl
      rw [hy] at hp
      have : m = 0 := by rw [← (positional_fold hp).1]; rfl
      rw [← hb.1, this]
      have := Dec.snoc (k := 0) Dec.nil (by omega)
      simpa [ch] using this
    | @hex t' _ z hz hp hne =>
      exfalso
      simp only [List.cons_append, List.cons.injEq] at hb
      have hi0 : i = [] := by
        rw [← hb.1] at hcan
        unfold canon at hcan
        cases i with
        | nil => rfl
        | cons => revert hcan; simp [show ch '0' = 0x30#8 by decide]
      subst hi0
      rcases ht with h | ⟨q, r, h, hq⟩
      · rw [h] at hb; simp at hb
      · rw [h] at hb
        simp only [List.nil_append, List.cons.injEq] at hb
        rw [hb.2.1] at hz
        rcases hz with h | h <;> rw [h] at hq <;> revert hq <;> decide
  refine ⟨c :: i, m, hi, hnil.2, ?_⟩
  rw [show s ++ c :: i ++ frac ++ exp = s ++ c :: i by rw [List.append_assoc, hnil.1, List.append_nil]]
  rcases hv with ⟨rfl, h⟩ | ⟨rfl, h⟩ | ⟨rfl, h⟩
  · exact Or.inl ⟨rfl, h⟩
  · exfalso; rcases hs with h | h <;> revert h <;> decide
  · exact Or.inr ⟨rfl, h⟩

/-- The length of a JSON integer is bounded by its value, and conversely. -/
theorem integer_len {t : List Byte} {v : Int} (h : Integer t v) {k : Nat} (hk : 1 ≤ k) (hv : v.natAbs < 10 ^ k) :
    (0 < v → t.length ≤ k) ∧ t.length ≤ k + 1 := by
  obtain ⟨d, n, hi, hd, hc⟩ := h
  have hcan := canon_of_int hi
  have hval := dec_val hd
  have hl : d.length ≤ k := by
    apply Classical.byContradiction
    intro hl
    have h1 := canon_low hcan (by omega)
    have : 10 ^ k ≤ 10 ^ (d.length - 1) := Nat.pow_le_pow_right (by omega) (by omega)
    rcases hc with ⟨_, rfl⟩ | ⟨_, rfl⟩ <;> omega
  rcases hc with ⟨rfl, rfl⟩ | ⟨rfl, rfl⟩
  · exact ⟨fun _ => hl, by omega⟩
  · exact ⟨fun h => by omega, by simp; omega⟩

theorem integer_low {t : List Byte} {v : Int} (h : Integer t v) {k : Nat} (hv : 10 ^ k ≤ v.natAbs) : k < t.length ∧ (v < 0 → k + 1 < t.length) := by
  obtain ⟨d, n, hi, hd, hc⟩ := h
  have hcan := canon_of_int hi
  have hval := dec_val hd
  have h1 := val_lt (canon_dig hcan)
  have : k < d.length := by
    apply Classical.byContradiction
    intro hl
    have : 10 ^ d.length ≤ 10 ^ k := Nat.pow_le_pow_right (by omega) (by omega)
    rcases hc with ⟨_, rfl⟩ | ⟨_, rfl⟩ <;> omega
  rcases hc with ⟨rfl, rfl⟩ | ⟨rfl, rfl⟩
  · exact ⟨this, fun h => by omega⟩
  · exact ⟨by simp; omega, fun _ => by simp; omega⟩

theorem number_ne {t : List Byte} (h : Number t) : t ≠ [] := by
  obtain ⟨sign, int, frac, exp, rfl, hs, hi, _⟩ := h
  obtain ⟨c, i, rfl, _⟩ := int_head hi
  simp

theorem fold_lt {base : Nat} (hb : 0 < base) : ∀ (acc : Nat) (t : List Byte), fold base acc t < (acc + 1) * base ^ t.length
  | acc, [] => by simp [fold]
  | acc, c :: t => by
    have h := fold_lt hb (acc * base + (digit base c).getD 0) t
    have hd : (digit base c).getD 0 < base := by
      cases hk : digit base c with
      | none => simpa using hb
      | some k => exact (digit_of.1 hk).2
    have : (acc * base + (digit base c).getD 0 + 1) ≤ (acc + 1) * base := by rw [Nat.add_mul]; omega
    have h2 := Nat.mul_le_mul_right (base ^ t.length) this
    rw [List.length_cons, Nat.pow_succ, Nat.mul_comm (base ^ t.length) base, ← Nat.mul_assoc]
    exact Nat.lt_of_lt_of_le h h2

/-- The absolute value of a literal is bounded by its length. -/
theorem literal_bound {t : List Byte} {v : Int} (h : Literal t v) : v.natAbs < 16 ^ t.length := by
  obtain ⟨w, s, b, m, rfl, _, hu, hv⟩ := h
  have key : ∀ {base : Nat} {d : List Byte} {m : Nat}, 0 < base → base ≤ 16 → Positional base d m → m < 16 ^ d.length := by
    intro base d m h0 h1 hp
    have := fold_lt h0 0 d
    rw [(positional_fold hp).1, Nat.zero_add, Nat.one_mul] at this
    exact Nat.lt_of_lt_of_le this (Nat.pow_le_pow_left h1 _)
  have hm : m < 16 ^ b.length := by
    cases hu with
    | decimal hp _ _ => exact key (by omega) (by omega) hp
    | octal hp => exact Nat.lt_of_lt_of_le (key (by omega) (by omega) hp) (Nat.pow_le_pow_right (by omega) (by simp))
    | hex _ hp _ => exact Nat.lt_of_lt_of_le (key (by omega) (by omega) hp) (Nat.pow_le_pow_right (by omega) (by simp; omega))
  have : m < 16 ^ (w ++ s ++ b).length := Nat.lt_of_lt_of_le hm (Nat.pow_le_pow_right (by omega) (by simp; omega))
  rcases hv with h | h | h <;> omega

/-- The narrow unsigned conversions on JSON numbers. -/
theorem convert_narrow {bits buf k : Nat} (hk : 1 ≤ k) (hkb : k + 1 < buf ∨ (k < buf ∧ 2 < buf)) (hb : 2 ^ bits ≤ 10 ^ k) (hbuf : buf ≤ 16) (hbits : bits ≤ 32)
    {t : List Byte} (hn : Number t) (u : Nat) :
    fitting bits (convertU buf .number t) = .ok u ↔ Integer t u ∧ u < 2 ^ bits := by
  have h32 : 2 ^ bits ≤ 2 ^ 32 := Nat.pow_le_pow_right (by omega) hbits
  rw [fitting_ok, convertU_ok]
  constructor
  · rintro ⟨⟨_, h2, ⟨h3, _⟩ | ⟨v, h3, h4, h5, h6⟩⟩, h7⟩
    · exact absurd h3 (number_ne hn)
    · have hi := number_literal hn h3
      have hv : v = u := by
        apply Classical.byContradiction
        intro hne
        have : v < 0 := by omega
        have h8 : 10 ^ 16 ≤ v.natAbs := by omega
        have := (integer_low hi h8).1
        omega
      rw [← hv]; exact ⟨hi, h7⟩
  · rintro ⟨hi, hu⟩
    refine ⟨⟨Or.inl rfl, ?_, Or.inr ⟨u, integer_literal hi, by omega, by omega, by omega⟩⟩, hu⟩
    have hlen := integer_len hi hk (by omega : (u : Int).natAbs < 10 ^ k)
    rcases hkb with h | ⟨h, h'⟩
    · omega
    · by_cases h0 : (0 : Int) < u
      · have := hlen.1 h0; omega
      · have h00 : u = 0 := by omega
        have := (integer_len hi (k := 1) (by omega) (by omega)).2
        omega

/-- Out-of-range integers are too big for the narrow conversions. -/
theorem convert_narrow_big {bits buf : Nat} (hbuf : buf ≤ 16) (hbits : bits ≤ 32)
    {t : List Byte} {v : Int} (hi : Integer t v) (hv : v < 0 ∨ 2 ^ bits ≤ v) : fitting bits (convertU buf .number t) = .err .numericArgTooBig := by
  have h32 : 2 ^ bits ≤ 2 ^ 32 := Nat.pow_le_pow_right (by omega) hbits
  have hp := Nat.two_pow_pos bits
  have hc : ((2 ^ bits : Nat) : Int) = 2 ^ bits := by push_cast; rfl
  by_cases hl : buf ≤ t.length
  · unfold convertU
    rw [if_neg (by simp), if_pos hl]; rfl
  · have hb : v.natAbs < 10 ^ 16 := by
      apply Classical.byContradiction
      intro h
      have := (integer_low hi (k := 16) (by omega)).1
      omega
    have : convertU buf .number t = .ok (v % 2 ^ 64).toNat := by
      rw [convertU_ok]
      exact ⟨Or.inl rfl, by omega, Or.inr ⟨v, integer_literal hi, by omega, by omega, by omega⟩⟩
    rw [this]
    simp only [fitting]
    rw [if_pos]
    omega

end WS.ConfNum
