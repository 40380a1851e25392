import Verif.Model.ConfNum
import Verif.Spec.ConfNum
import Verif.Proof.JsonInts
/-
Lemmas for C54: what the scanning functions of Model/ConfNum recognise.
-/
namespace WS.ConfNum
open WS WS.Sax WS.Time WS.Spec.Conf WS.Spec.Json

theorem digit_of {base : Nat} {c : Byte} {k : Nat} : digit base c = some k ↔ DigitOf c k ∧ k < base := by
  unfold digit DigitOf
  have hc := c.isLt
  simp only
  split
  · simp only [Option.filter_some]
    split
    · simp only [Option.some.injEq]
      rename_i h1 h2; simp only [decide_eq_true_eq] at h2
      constructor
      · intro h; omega
      · intro h; omega
    · rename_i h1 h2; simp only [decide_eq_true_eq] at h2
      simp only [reduceCtorEq, false_iff]; omega
  · split
    · simp only [Option.filter_some]
      split
      · simp only [Option.some.injEq]
        rename_i h1 h2; simp only [decide_eq_true_eq] at h2
        constructor
        · intro h; omega
        · intro h; omega
      · rename_i h1 h2; simp only [decide_eq_true_eq] at h2
        simp only [reduceCtorEq, false_iff]; omega
    · split
      · simp only [Option.filter_some]
        split
        · simp only [Option.some.injEq]
          rename_i h1 h2; simp only [decide_eq_true_eq] at h2
          constructor
          · intro h; omega
          · intro h; omega
        · rename_i h1 h2; simp only [decide_eq_true_eq] at h2
          simp only [reduceCtorEq, false_iff]; omega
      · simp only [Option.filter_none, reduceCtorEq, false_iff]; omega

/-- The value of digits in a base, on top of `acc`. -/
def fold (base : Nat) : Nat → List Byte → Nat
  | acc, [] => acc
  | acc, c :: r => fold base (acc * base + (digit base c).getD 0) r

/-- `rest` does not go on with a digit. -/
def Stops (base : Nat) (rest : List Byte) : Prop := ∀ c r, rest = c :: r → digit base c = none

theorem digits_append {base : Nat} : ∀ {d : List Byte} (acc : Nat) (rest : List Byte), (∀ c ∈ d, (digit base c).isSome) → Stops base rest →
    digits base acc (d ++ rest) = (fold base acc d, d.length)
  | [], acc, rest, _, hr => by
    cases rest with
    | nil => rfl
    | cons c r => simp only [List.nil_append, digits, hr c r rfl]; rfl
  | c :: d, acc, rest, hd, hr => by
    have h1 := hd c (by simp)
    obtain ⟨k, hk⟩ := Option.isSome_iff_exists.1 h1
    simp only [List.cons_append, digits, hk, digits_append (acc * base + k) rest (fun c hc => hd c (List.mem_cons_of_mem _ hc)) hr]
    simp [fold, hk]

theorem digits_spec (base : Nat) : ∀ (acc : Nat) (s : List Byte),
    (digits base acc s).2 ≤ s.length ∧ (∀ c ∈ s.take (digits base acc s).2, (digit base c).isSome) ∧
      Stops base (s.drop (digits base acc s).2) ∧ (digits base acc s).1 = fold base acc (s.take (digits base acc s).2)
  | acc, [] => by simp [digits, fold, Stops]
  | acc, c :: s => by
    cases hk : digit base c with
    | none =>
      simp only [digits, hk]
      refine ⟨by simp, by simp, ?_, rfl⟩
      intro x r hx
      simp only [List.drop_zero, List.cons.injEq] at hx
      rw [← hx.1]; exact hk
    | some k =>
      have ih := digits_spec base (acc * base + k) s
      simp only [digits, hk]
      refine ⟨by simp; exact ih.1, ?_, ?_, ?_⟩
      · intro x hx
        simp only [List.take_succ_cons, List.mem_cons] at hx
        rcases hx with rfl | hx
        · simp [hk]
        · exact ih.2.1 x hx
      · simpa using ih.2.2.1
      · simp only [List.take_succ_cons, fold, hk, Option.getD_some]
        exact ih.2.2.2

theorem fold_append (base : Nat) : ∀ (acc : Nat) (a b : List Byte), fold base acc (a ++ b) = fold base (fold base acc a) b
  | _, [], _ => rfl
  | acc, c :: a, b => by simp only [List.cons_append, fold]; exact fold_append base _ a b

theorem positional_fold {base : Nat} {t : List Byte} {n : Nat} (h : Positional base t n) :
    fold base 0 t = n ∧ ∀ c ∈ t, (digit base c).isSome := by
  induction h with
  | nil => exact ⟨rfl, by simp⟩
  | @snoc t n k c _ hc hk ih =>
    have := digit_of.2 ⟨hc, hk⟩
    refine ⟨by rw [fold_append, ih.1]; simp [fold, this], ?_⟩
    intro x hx
    rcases List.mem_append.1 hx with hx | hx
    · exact ih.2 x hx
    · rw [List.mem_singleton] at hx; subst hx; simp [this]

theorem fold_positional {base : Nat} {t : List Byte} (h : ∀ c ∈ t, (digit base c).isSome) : Positional base t (fold base 0 t) := by
  have : ∀ r : List Byte, (∀ c ∈ r, (digit base c).isSome) → Positional base r.reverse (fold base 0 r.reverse) := by
    intro r
    induction r with
    | nil => intro _; exact Positional.nil
    | cons c r ih =>
      intro h
      obtain ⟨k, hk⟩ := Option.isSome_iff_exists.1 (h c (by simp))
      rw [List.reverse_cons, fold_append]
      have h1 := ih (fun x hx => h x (by simp [hx]))
      have h2 := digit_of.1 hk
      have := Positional.snoc h1 h2.1 h2.2
      simpa [fold, hk] using this
  have h1 := this t.reverse (fun c hc => h c (by simpa using hc))
  rwa [List.reverse_reverse] at h1

theorem stops_mono {a b : Nat} {r : List Byte} (hab : a ≤ b) (h : Stops b r) : Stops a r := by
  intro c r' hc
  have := h c r' hc
  cases hd : digit a c with
  | none => rfl
  | some k =>
    have h2 := digit_of.1 hd
    rw [digit_of.2 ⟨h2.1, by omega⟩] at this
    cases this

/-- `b` starts like a hexadecimal literal. -/
def Hexy (b : List Byte) : Prop := ∃ x t, b = 0x30#8 :: x :: t ∧ (x = 0x78#8 ∨ x = 0x58#8)

/-- What may not follow the unsigned literal `b`: a digit, and the x of a hexadecimal prefix. -/
def Ends (b rest : List Byte) : Prop :=
  Stops 10 rest ∧ (Hexy b → Stops 16 rest) ∧ (b = [ch '0'] → rest.head? ≠ some (ch 'x') ∧ rest.head? ≠ some (ch 'X'))

theorem magnitude_unsigned {b : List Byte} {m : Nat} (h : Unsigned b m) {rest : List Byte} (hr : Ends b rest) :
    magnitude (b ++ rest) = (m, b.length) := by
  cases h with
  | @decimal _ _ hp hne hh =>
    obtain ⟨c, t, rfl⟩ := List.exists_cons_of_ne_nil hne
    have hc : c ≠ 0x30#8 := by
      intro h; apply hh; rw [h, show ch '0' = 0x30#8 by decide]; rfl
    have h1 := positional_fold hp
    have h2 := digits_append 0 rest h1.2 (stops_mono (by omega) hr.1)
    unfold magnitude
    split
    · rename_i heq; simp at heq; exact absurd heq.1 hc
    · rename_i heq; simp at heq; exact absurd heq.1 hc
    · rw [h2, h1.1]
  | @octal t _ hp =>
    have h1 := positional_fold hp
    have h0 : digit 8 0x30#8 = some 0 := by decide
    have e0 : ch '0' = 0x30#8 := by decide
    have h2 : digits 8 0 (0x30#8 :: (t ++ rest)) = (m, t.length + 1) := by
      simp only [digits, h0, Nat.zero_mul, Nat.add_zero, digits_append 0 rest h1.2 (stops_mono (by omega) hr.1), h1.1]
    rw [e0, List.cons_append]
    cases htr : t ++ rest with
    | nil =>
      rw [htr] at h2
      have : t = [] := (List.append_eq_nil_iff.1 htr).1
      subst this
      have : m = 0 := by rw [← h1.1]; rfl
      subst this; rfl
    | cons x r =>
      rw [htr] at h2
      have hx : ¬ (x = 0x78#8 ∨ x = 0x58#8) := by
        cases t with
        | nil =>
          have := hr.2.2 (by decide)
          simp only [List.nil_append] at htr
          rw [htr] at this
          simp only [List.head?_cons, ne_eq, Option.some.injEq] at this
          intro h
          rcases h with h | h
          · exact this.1 (by rw [h]; decide)
          · exact this.2 (by rw [h]; decide)
        | cons y t' =>
          simp only [List.cons_append, List.cons.injEq] at htr
          have := h1.2 y (by simp)
          rw [htr.1] at this
          intro h
          rcases h with h | h <;> rw [h] at this <;> exact absurd this (by decide)
      simp only [magnitude, if_neg hx, h2, List.length_cons]
  | @hex t _ x hx hp hne =>
    have h1 := positional_fold hp
    have e0 : ch '0' = 0x30#8 := by decide
    have hx' : x = 0x78#8 ∨ x = 0x58#8 := by
      rcases hx with h | h
      · left; rw [h]; decide
      · right; rw [h]; decide
    simp only [e0, List.cons_append, magnitude, if_pos hx', digits_append 0 rest h1.2 (hr.2.1 ⟨x, t, by rw [e0], hx'⟩), h1.1]
    have : t.length ≠ 0 := by simpa using hne
    simp [this]

theorem magnitude_spec (s : List Byte) : (magnitude s).2 ≤ s.length ∧ ((magnitude s).2 ≠ 0 → Unsigned (s.take (magnitude s).2) (magnitude s).1) := by
  have dec : ∀ s : List Byte, s.head? ≠ some 0x30#8 → (digits 10 0 s).2 ≤ s.length ∧ ((digits 10 0 s).2 ≠ 0 → Unsigned (s.take (digits 10 0 s).2) (digits 10 0 s).1) := by
    intro s hs
    have h := digits_spec 10 0 s
    refine ⟨h.1, fun hn => ?_⟩
    rw [h.2.2.2]
    refine Unsigned.decimal (fold_positional h.2.1) ?_ ?_
    · intro hc
      have := congrArg List.length hc
      simp only [List.length_take, List.length_nil] at this
      omega
    · rw [List.head?_take, if_neg hn]
      rwa [show ch '0' = 0x30#8 by decide]
  unfold magnitude
  split
  · rename_i x rest
    split
    · rename_i hx
      have h := digits_spec 16 0 rest
      simp only
      split
      · refine ⟨by simp, fun _ => ?_⟩
        exact Unsigned.octal Positional.nil
      · rename_i hn
        refine ⟨by simp; exact h.1, fun _ => ?_⟩
        simp only [List.take_succ_cons]
        rw [h.2.2.2]
        refine Unsigned.hex (by rcases hx with h | h <;> rw [h] <;> decide) (fold_positional h.2.1) ?_
        intro hc
        have := congrArg List.length hc
        simp only [List.length_take, List.length_nil] at this
        omega
    · have h0 : digit 8 0x30#8 = some 0 := by decide
      have h := digits_spec 8 0 (x :: rest)
      have he : digits 8 0 (0x30#8 :: x :: rest) = ((digits 8 0 (x :: rest)).1, (digits 8 0 (x :: rest)).2 + 1) := by
        conv => lhs; unfold digits
        simp only [h0, Nat.zero_mul, Nat.add_zero]
      rw [he]
      refine ⟨by simp only [List.length_cons] at h ⊢; omega, fun _ => ?_⟩
      simp only [List.take_succ_cons]
      rw [h.2.2.2]
      exact Unsigned.octal (fold_positional h.2.1)
  · exact ⟨by simp, fun _ => Unsigned.octal Positional.nil⟩
  · rename_i h1 h2
    apply dec
    intro hh
    cases s with
    | nil => cases hh
    | cons c r =>
      simp at hh
      subst hh
      cases r with
      | nil => exact h2 rfl
      | cons x r => exact h1 x r rfl

/-- A hexadecimal literal is scanned up to the first byte that is no hexadecimal digit. -/
theorem magnitude_hexy (s : List Byte) (h : Hexy (s.take (magnitude s).2)) : Stops 16 (s.drop (magnitude s).2) := by
  obtain ⟨x, t, h1, hx⟩ := h
  cases s with
  | nil => simp at h1
  | cons c s =>
    cases s with
    | nil =>
      have := congrArg List.length h1
      simp only [List.length_take, List.length_cons, List.length_nil] at this
      omega
    | cons y s =>
      generalize hn : (magnitude (c :: y :: s)).2 = n at h1
      match n, h1 with
      | 0, h1 => simp at h1
      | 1, h1 => simp at h1
      | n + 2, h1 =>
        simp only [List.take_succ_cons, List.cons.injEq] at h1
        obtain ⟨rfl, rfl, h1⟩ := h1
        simp only [magnitude, if_pos hx] at hn
        have h := digits_spec 16 0 s
        simp only [List.drop_succ_cons]
        split at hn
        · simp at hn
        · simp only at hn
          have : (digits 16 0 s).2 = n := by omega
          rw [← this]; exact h.2.2.1

theorem spaces_le : ∀ s : List Byte, spaces s ≤ s.length
  | [] => by simp [spaces]
  | c :: s => by
    unfold spaces; split
    · have := spaces_le s; simp; omega
    · simp

theorem spaces_take : ∀ s : List Byte, ∀ c ∈ s.take (spaces s), isSpace c = true
  | [] => by simp [spaces]
  | c :: s => by
    unfold spaces; split
    · rename_i h
      intro x hx
      simp only [List.take_succ_cons, List.mem_cons] at hx
      rcases hx with rfl | hx
      · exact h
      · exact spaces_take s x hx
    · simp

theorem spaces_append : ∀ (w : List Byte) (r : List Byte), (∀ c ∈ w, isSpace c = true) → (∀ c t, r = c :: t → isSpace c = false) → spaces (w ++ r) = w.length
  | [], r, _, hr => by
    cases r with
    | nil => rfl
    | cons c t => simp [spaces, hr c t rfl]
  | c :: w, r, hw, hr => by
    simp only [List.cons_append, spaces, hw c (by simp), if_true, List.length_cons]
    rw [spaces_append w r (fun x hx => hw x (List.mem_cons_of_mem _ hx)) hr]

theorem isSpace_iff {c : Byte} : isSpace c = true ↔ (c = ch ' ' ∨ (9 ≤ c.toNat ∧ c.toNat ≤ 13)) := by
  unfold isSpace
  rw [show ch ' ' = 0x20#8 by decide]
  simp

theorem unsigned_head {b : List Byte} {m : Nat} (h : Unsigned b m) : ∃ c t, b = c :: t ∧ 0x30 ≤ c.toNat ∧ c.toNat ≤ 0x39 := by
  have e0 : (ch '0').toNat = 0x30 := by decide
  cases h with
  | @decimal _ _ hp hne hh =>
    obtain ⟨c, t, rfl⟩ := List.exists_cons_of_ne_nil hne
    obtain ⟨k, hk⟩ := Option.isSome_iff_exists.1 ((positional_fold hp).2 c (by simp))
    have := digit_of.1 hk
    unfold DigitOf at this
    exact ⟨c, t, rfl, by omega, by omega⟩
  | octal hp => exact ⟨_, _, rfl, by omega, by omega⟩
  | hex _ _ _ => exact ⟨_, _, rfl, by omega, by omega⟩

theorem scan_literal {w s b : List Byte} {m : Nat} {rest : List Byte} (hw : ∀ c ∈ w, isSpace c = true)
    (hs : s = [] ∨ s = [0x2b#8] ∨ s = [0x2d#8]) (hb : Unsigned b m) (hr : Ends b rest) :
    scan (w ++ s ++ b ++ rest) = ⟨decide (s = [0x2d#8]), m, w.length + s.length + b.length⟩ := by
  obtain ⟨c, t, rfl, hc1, hc2⟩ := unsigned_head hb
  have hm := magnitude_unsigned hb hr
  have hsp : spaces (w ++ s ++ (c :: t) ++ rest) = w.length := by
    rw [List.append_assoc, List.append_assoc]
    refine spaces_append _ _ hw ?_
    intro x y hx
    rw [Bool.eq_false_iff, ne_eq, isSpace_iff, show ch ' ' = 0x20#8 by decide]
    rcases hs with rfl | rfl | rfl
    · simp only [List.nil_append, List.cons_append, List.cons.injEq] at hx
      rw [← hx.1]
      intro h
      rcases h with h | h
      · rw [h] at hc1; revert hc1; decide
      · omega
    · simp only [List.cons_append, List.cons.injEq] at hx
      rw [← hx.1]; decide
    · simp only [List.cons_append, List.cons.injEq] at hx
      rw [← hx.1]; decide
  have hc0 : c ≠ 0x2d#8 ∧ c ≠ 0x2b#8 := by
    constructor <;> intro h <;> rw [h] at hc1 <;> revert hc1 <;> decide
  have hd : (w ++ s ++ (c :: t) ++ rest).drop w.length = s ++ ((c :: t) ++ rest) := by
    rw [List.append_assoc, List.append_assoc, List.drop_left']; rfl
  unfold scan
  simp only [hsp, hd]
  rcases hs with rfl | rfl | rfl
  · simp only [List.nil_append, List.cons_append, List.head?_cons]
    have hh : (some c == some 0x2d#8) = false ∧ (some c == some 0x2b#8) = false := by simp [hc0]
    simp only [hh.1, hh.2, Bool.or_self, if_false, List.drop_zero, Bool.false_eq_true]
    rw [List.cons_append] at hm
    rw [hm]; simp
  · simp only [List.cons_append, List.nil_append, List.head?_cons]
    simp only [beq_self_eq_true, Bool.or_true, if_true, List.drop_succ_cons, List.drop_zero]
    rw [List.cons_append] at hm
    rw [hm]; simp
  · simp only [List.cons_append, List.nil_append, List.head?_cons]
    simp only [beq_self_eq_true, Bool.true_or, if_true, List.drop_succ_cons, List.drop_zero]
    rw [List.cons_append] at hm
    rw [hm]; simp

theorem scan_spec (t : List Byte) : (scan t).len ≤ t.length ∧
    (scan t = ⟨false, 0, 0⟩ ∨ ((scan t).len ≠ 0 ∧ ∃ w s b, t.take (scan t).len = w ++ s ++ b ∧ (∀ c ∈ w, isSpace c = true) ∧ Unsigned b (scan t).mag ∧
      ((s = [] ∧ (scan t).neg = false) ∨ (s = [0x2b#8] ∧ (scan t).neg = false) ∨ (s = [0x2d#8] ∧ (scan t).neg = true)) ∧
      (Hexy b → Stops 16 (t.drop (scan t).len)))) := by
  unfold scan
  simp only
  generalize hk : spaces t = k
  have hkl : k ≤ t.length := hk ▸ spaces_le t
  have hkt : ∀ c ∈ t.take k, isSpace c = true := hk ▸ spaces_take t
  generalize hr : t.drop k = r
  have htr : t = t.take k ++ r := by rw [← hr, List.take_append_drop]
  have hrl : r.length = t.length - k := by rw [← hr]; simp
  generalize hg : (if (r.head? == some 0x2d#8 || r.head? == some 0x2b#8) = true then 1 else 0) = g
  have hm := magnitude_spec (r.drop g)
  have hgl : g ≤ r.length := by
    rw [← hg]; split
    · rename_i h
      cases r with
      | nil => simp at h
      | cons => simp
    · simp
  split
  · exact ⟨by simp, Or.inl rfl⟩
  · rename_i hn
    refine ⟨?_, Or.inr ⟨by simp only; omega, t.take k, r.take g, (r.drop g).take (magnitude (r.drop g)).2, ?_, hkt, hm.2 hn, ?_, ?_⟩⟩
    · have := hm.1; simp only [List.length_drop] at this; simp only; omega
    · simp only
      conv => lhs; rw [htr]
      have h1 : k + g + (magnitude (r.drop g)).2 = (t.take k).length + (g + (magnitude (r.drop g)).2) := by
        simp only [List.length_take]; omega
      rw [h1, List.take_length_add_append, List.append_assoc, List.take_add]
    · simp only
      rw [← hg]
      cases r with
      | nil => left; simp
      | cons c r' =>
        by_cases h1 : c = 0x2d#8
        · subst h1; right; right; simp
        · by_cases h2 : c = 0x2b#8
          · subst h2; right; left; simp
          · left; simp [h1, h2]
    · intro hx
      have := magnitude_hexy (r.drop g) hx
      rw [List.drop_drop, ← hr, List.drop_drop] at this
      simp only
      rw [show k + g + (magnitude (r.drop g)).2 = k + (g + (magnitude (r.drop g)).2) by omega, ← hr]
      exact this

theorem ends_nil (b : List Byte) : Ends b [] := ⟨by intro c r h; simp at h, fun _ => by intro c r h; simp at h, fun _ => by simp⟩

/-- Scanning the whole text succeeds exactly on literals and on the empty text. -/
theorem scan_full {t : List Byte} : (scan t).len = t.length ↔ (t = [] ∨ ∃ v, Literal t v) := by
  constructor
  · intro h
    rcases (scan_spec t).2 with h0 | ⟨_, w, s, b, h1, h2, h3, h4, _⟩
    · left; rw [h0] at h; exact List.length_eq_zero_iff.1 h.symm
    · right
      rw [h, List.take_length] at h1
      refine ⟨if (scan t).neg then -((scan t).mag : Int) else (scan t).mag, w, s, b, (scan t).mag, h1, fun c hc => isSpace_iff.1 (h2 c hc), h3, ?_⟩
      have e1 : ch '+' = 0x2b#8 := by decide
      have e2 : ch '-' = 0x2d#8 := by decide
      rw [e1, e2]
      rcases h4 with ⟨h5, h6⟩ | ⟨h5, h6⟩ | ⟨h5, h6⟩ <;> simp [h5, h6]
  · rintro (rfl | ⟨v, w, s, b, m, rfl, h2, h3, h4⟩)
    · rfl
    · have e1 : ch '+' = 0x2b#8 := by decide
      have e2 : ch '-' = 0x2d#8 := by decide
      rw [e1, e2] at h4
      have := scan_literal (rest := []) (fun c hc => isSpace_iff.2 (h2 c hc)) (s := s) (by rcases h4 with h | h | h <;> simp [h.1]) h3 (ends_nil b)
      rw [List.append_nil] at this
      rw [this]; simp; omega

theorem scan_lit_val {t : List Byte} {v : Int} (h : Literal t v) :
    (scan t).len = t.length ∧ v = (if (scan t).neg then -((scan t).mag : Int) else (scan t).mag) := by
  refine ⟨scan_full.2 (Or.inr ⟨v, h⟩), ?_⟩
  obtain ⟨w, s, b, m, rfl, h2, h3, h4⟩ := h
  have e1 : ch '+' = 0x2b#8 := by decide
  have e2 : ch '-' = 0x2d#8 := by decide
  rw [e1, e2] at h4
  have := scan_literal (rest := []) (fun c hc => isSpace_iff.2 (h2 c hc)) (s := s) (by rcases h4 with h | h | h <;> simp [h.1]) h3 (ends_nil b)
  rw [List.append_nil] at this
  rw [this]
  rcases h4 with ⟨h5, h6⟩ | ⟨h5, h6⟩ | ⟨h5, h6⟩ <;> simp [h5, h6]

theorem literal_unique {t : List Byte} {v v' : Int} (h : Literal t v) (h' : Literal t v') : v = v' := by
  rw [(scan_lit_val h).2, (scan_lit_val h').2]

theorem literal_ne {t : List Byte} {v : Int} (h : Literal t v) : t ≠ [] := by
  obtain ⟨w, s, b, m, rfl, h2, h3, h4⟩ := h
  obtain ⟨c, t, rfl, _⟩ := unsigned_head h3
  simp

/-- The unsigned conversions, before the width check. -/
theorem convertU_ok {buf : Nat} {type : JType} {t : List Byte} {u : Nat} :
    convertU buf type t = .ok u ↔ (type = .number ∨ type = .string) ∧ t.length < buf ∧
      ((t = [] ∧ u = 0) ∨ ∃ v, Literal t v ∧ -2 ^ 64 < v ∧ v < 2 ^ 64 ∧ (u : Int) = v % 2 ^ 64) := by
  unfold convertU
  by_cases ht : type = .number ∨ type = .string
  · rw [if_neg (by rintro ⟨h1, h2⟩; rcases ht with h | h <;> contradiction)]
    by_cases hl : buf ≤ t.length
    · rw [if_pos hl]
      simp only [reduceCtorEq, false_iff]; omega
    · rw [if_neg hl]
      by_cases he : (scan t).len = t.length
      · unfold strtoul
        rcases scan_full.1 he with rfl | ⟨v, hv⟩
        · have : scan [] = ⟨false, 0, 0⟩ := by decide
          simp only [this]
          simp only [show ¬ (2 ^ 64 ≤ 0) by omega, if_false, List.length_nil, ne_eq, not_true, Bool.false_eq_true]
          simp only [Res.ok.injEq]
          constructor
          · intro h; exact ⟨ht, by simp at hl; omega, Or.inl ⟨trivial, h.symm⟩⟩
          · rintro ⟨_, _, ⟨_, h⟩ | ⟨v, hv, _⟩⟩
            · exact h.symm
            · exact absurd rfl (literal_ne hv)
        · have hvv := (scan_lit_val hv).2
          have hne := literal_ne hv
          by_cases hm : 2 ^ 64 ≤ (scan t).mag
          · simp only [hm, if_true, reduceCtorEq, false_iff]
            rintro ⟨_, _, ⟨h, _⟩ | ⟨v', hv', h1, h2, _⟩⟩
            · exact hne h
            · rw [literal_unique hv' hv, hvv] at h1 h2
              split at h1 <;> rename_i hn <;> simp only [hn, if_true, if_false, Bool.false_eq_true] at h1 h2 <;> omega
          · simp only [hm, if_false, he, ne_eq, not_true, Res.ok.injEq]
            constructor
            · intro h
              refine ⟨ht, by omega, Or.inr ⟨v, hv, ?_⟩⟩
              rw [hvv, ← h]
              split <;> omega
            · rintro ⟨_, _, ⟨h, _⟩ | ⟨v', hv', h1, h2, h3⟩⟩
              · exact absurd h hne
              · rw [literal_unique hv' hv, hvv] at h3
                split at h3 <;> rename_i hn <;> simp only [hn, if_true, if_false, Bool.false_eq_true] <;> omega
      · have hx : (strtoul t).2 ≠ t.length := he
        generalize strtoul t = y at hx
        have h3 : ¬ ((t = [] ∧ u = 0) ∨ ∃ v, Literal t v) := by
          rintro (⟨h, _⟩ | ⟨v', hv'⟩)
          · exact he (scan_full.2 (Or.inl h))
          · exact he (scan_full.2 (Or.inr ⟨v', hv'⟩))
        obtain ⟨x, n⟩ := y
        simp only at hx
        cases x <;> simp only [ne_eq, hx, not_false_eq_true, if_true, reduceCtorEq, false_iff]
        all_goals
          rintro ⟨_, _, h | h⟩
          · exact h3 (Or.inl h)
          · exact h3 (Or.inr ⟨_, h.choose_spec.1⟩)
  · rw [if_pos (by constructor <;> intro h <;> exact ht (by simp [h]))]
    simp only [reduceCtorEq, false_iff]
    rintro ⟨h, _⟩; exact ht h

theorem fitting_ok {bits : Nat} {r : Res Nat} {u : Nat} : fitting bits r = .ok u ↔ r = .ok u ∧ u < 2 ^ bits := by
  have := Nat.two_pow_pos bits
  cases r with
  | ok v =>
    simp only [fitting]
    split
    · simp only [reduceCtorEq, Res.ok.injEq, false_iff]; omega
    · simp only [Res.ok.injEq]
      constructor
      · rintro rfl; exact ⟨rfl, by omega⟩
      · exact fun h => h.1
  | err => simp [fitting]
  | ub => simp [fitting]

theorem convertS64_ok {type : JType} {t : List Byte} {u : Int} :
    convertS64 type t = .ok u ↔ (type = .number ∨ type = .string) ∧ t.length < 24 ∧
      ((t = [] ∧ u = 0) ∨ (Literal t u ∧ -2 ^ 63 ≤ u ∧ u < 2 ^ 63)) := by
  unfold convertS64
  by_cases ht : type = .number ∨ type = .string
  · rw [if_neg (by rintro ⟨h1, h2⟩; rcases ht with h | h <;> contradiction)]
    by_cases hl : 24 ≤ t.length
    · rw [if_pos hl]
      simp only [reduceCtorEq, false_iff]; omega
    · rw [if_neg hl]
      by_cases he : (scan t).len = t.length
      · unfold strtol
        rcases scan_full.1 he with rfl | ⟨v, hv⟩
        · have : scan [] = ⟨false, 0, 0⟩ := by decide
          simp only [this]
          simp only [Bool.false_eq_true, if_false, show ¬ (((0 : Nat) : Int) < -2 ^ 63 ∨ 2 ^ 63 - 1 < ((0 : Nat) : Int)) by omega, List.length_nil, ne_eq, not_true]
          simp only [Res.ok.injEq]
          constructor
          · intro h; exact ⟨ht, by simp, Or.inl ⟨trivial, by simpa using h.symm⟩⟩
          · rintro ⟨_, _, ⟨_, h⟩ | ⟨hv, _⟩⟩
            · simpa using h.symm
            · exact absurd rfl (literal_ne hv)
        · have hvv := (scan_lit_val hv).2
          have hne := literal_ne hv
          simp only
          rw [← hvv]
          by_cases hm : v < -2 ^ 63 ∨ 2 ^ 63 - 1 < v
          · simp only [hm, if_true, reduceCtorEq, false_iff]
            rintro ⟨_, _, ⟨h, _⟩ | ⟨hv', h1, h2⟩⟩
            · exact hne h
            · rw [literal_unique hv' hv] at h1 h2; omega
          · simp only [hm, if_false, he, ne_eq, not_true, Res.ok.injEq]
            constructor
            · rintro rfl
              exact ⟨ht, by omega, Or.inr ⟨hv, by omega, by omega⟩⟩
            · rintro ⟨_, _, ⟨h, _⟩ | ⟨hv', h1, h2⟩⟩
              · exact absurd h hne
              · exact literal_unique hv hv'
      · have hx : (strtol t).2 ≠ t.length := he
        generalize strtol t = y at hx
        have h3 : ¬ ((t = [] ∧ u = 0) ∨ ∃ v, Literal t v) := by
          rintro (⟨h, _⟩ | ⟨v', hv'⟩)
          · exact he (scan_full.2 (Or.inl h))
          · exact he (scan_full.2 (Or.inr ⟨v', hv'⟩))
        obtain ⟨x, n⟩ := y
        simp only at hx
        cases x <;> simp only [ne_eq, hx, not_false_eq_true, if_true, reduceCtorEq, false_iff]
        all_goals
          rintro ⟨_, _, h | h⟩
          · exact h3 (Or.inl h)
          · exact h3 (Or.inr ⟨_, h.1⟩)
  · rw [if_pos (by constructor <;> intro h <;> exact ht (by simp [h]))]
    simp only [reduceCtorEq, false_iff]
    rintro ⟨h, _⟩; exact ht h

end WS.ConfNum
