import Verif.Proof.JsonInts
/-
Lemmas for property C53.
-/
namespace WS.JNum
open WS WS.Spec.Json

/-- One byte of a string as it is written. -/
def esc1 (c : Byte) : List Byte := if needsEscape c then escape c else [c]

theorem writeAll_append {σ : Type} (w : Write σ) : ∀ (ps qs : List (List Byte)) (u : σ),
    writeAll w u (ps ++ qs) = if (writeAll w u ps).2 < 0 then writeAll w u ps else writeAll w (writeAll w u ps).1 qs
  | [], qs, u => by simp [writeAll]
  | p :: ps, qs, u => by
    simp only [List.cons_append, writeAll]
    by_cases h : (w u p).2 < 0
    · simp [h]
    · simp only [if_neg h]; exact writeAll_append w ps qs _

theorem esc1_run : ∀ (l : List Byte), (∀ c ∈ l, needsEscape c = false) → l.flatMap esc1 = l
  | [], _ => rfl
  | c :: l, h => by
    simp [esc1, h c (by simp), esc1_run l (fun c hc => h c (by simp [hc]))]

theorem takeWhile_all {p : Byte → Bool} : ∀ (l : List Byte), ∀ c ∈ l.takeWhile p, p c = true
  | [], c, h => by simp at h
  | x :: l, c, h => by
    rw [List.takeWhile_cons] at h
    split at h
    · rcases List.mem_cons.1 h with rfl | h
      · assumption
      · exact takeWhile_all l c h
    · simp at h

/-- The pieces the loop writes: they do not depend on the write function. -/
theorem dumpStrLoop_pieces (s : List Byte) : ∃ ps : List (List Byte), ps.flatten = s.flatMap esc1 ++ [0x22#8] ∧ ps ≠ [] ∧
    ∀ {σ : Type} (w : Write σ) (u : σ), (if (dumpStrLoop w u s).2 < 0 then dumpStrLoop w u s else ((dumpStrLoop w u s).1, 0)) = writeAll w u ps := by
  match s with
  | [] =>
    refine ⟨[[0x22#8]], by simp, by simp, fun w u => ?_⟩
    rw [dumpStrLoop]
    simp only [writeAll]
  | c :: rest =>
    by_cases hc : needsEscape c
    · obtain ⟨ps, h1, _, h2⟩ := dumpStrLoop_pieces rest
      refine ⟨escape c :: ps, by simp [h1, esc1, hc], by simp, fun w u => ?_⟩
      rw [dumpStrLoop]
      simp only [hc, if_true, writeAll]
      by_cases hw : (w u (escape c)).2 < 0
      · simp only [if_pos hw]
      · simp only [if_neg hw]; exact h2 w _
    · obtain ⟨ps, h1, _, h2⟩ := dumpStrLoop_pieces (rest.dropWhile (fun c => !needsEscape c))
      refine ⟨(c :: rest.takeWhile (fun c => !needsEscape c)) :: ps, ?_, by simp, fun w u => ?_⟩
      · have hcf : needsEscape c = false := by simpa using hc
        have : (rest.takeWhile (fun c => !needsEscape c)).flatMap esc1 = rest.takeWhile (fun c => !needsEscape c) := by
          apply esc1_run
          intro x hx
          have := takeWhile_all rest x hx
          simpa using this
        simp only [List.flatten_cons, h1, List.flatMap_cons]
        conv => rhs; rw [← List.takeWhile_append_dropWhile (p := fun c => !needsEscape c) (l := rest)]
        rw [List.flatMap_append, this]
        simp [esc1, hcf]
      · rw [dumpStrLoop]
        simp only [hc, if_false, Bool.false_eq_true, writeAll]
        by_cases hw : (w u (c :: rest.takeWhile (fun c => !needsEscape c))).2 < 0
        · simp only [if_pos hw]
        · simp only [if_neg hw]; exact h2 w _
  termination_by s.length
  decreasing_by
    · simp
    · have := (List.dropWhile_sublist (l := rest) (fun c => !needsEscape c)).length_le
      simp only [List.length_cons]; omega

theorem dumpString_pieces (s : List Byte) : ∃ ps : List (List Byte), ps.flatten = 0x22#8 :: s.flatMap esc1 ++ [0x22#8] ∧
    ∀ {σ : Type} (w : Write σ) (u : σ), dumpString w u s = writeAll w u ps := by
  obtain ⟨ps, h1, _, h2⟩ := dumpStrLoop_pieces s
  refine ⟨[0x22#8] :: ps, by simp [h1], fun w u => ?_⟩
  unfold dumpString
  simp only [writeAll]
  by_cases hw : (w u [0x22#8]).2 < 0
  · simp only [if_pos hw]
  · simp only [if_neg hw, ← h2]

/-! ### Strings of Unicode scalar values -/

theorem esc1_high {c : Byte} (h : 0x80 ≤ c.toNat) : esc1 c = [c] := by
  have : needsEscape c = false := by
    unfold needsEscape
    have h1 : decide (c.toNat ≤ 31) = false := by rw [decide_eq_false_iff_not]; omega
    have h2 : (c == 0x22#8) = false := by rw [beq_eq_false_iff_ne]; intro e; rw [e] at h; simp at h
    have h3 : (c == 0x5c#8) = false := by rw [beq_eq_false_iff_ne]; intro e; rw [e] at h; simp at h
    rw [h1, h2, h3]; rfl
  simp [esc1, this]

theorem utf8_high {n : Nat} (hs : Scalar n) (h : 0x80 ≤ n) : (utf8 n).flatMap esc1 = utf8 n := by
  have key : ∀ m, 0x80 ≤ m → m < 256 → esc1 (BitVec.ofNat 8 m) = [BitVec.ofNat 8 m] := by
    intro m h1 h2
    apply esc1_high
    rw [BitVec.toNat_ofNat, Nat.mod_eq_of_lt h2]; exact h1
  unfold Scalar at hs
  unfold utf8
  rw [if_neg (by omega)]
  split
  · simp only [List.flatMap_cons, List.flatMap_nil, key (0xc0 + n / 64) (by omega) (by omega), key (0x80 + n % 64) (by omega) (by omega)]
    rfl
  · split
    · simp only [List.flatMap_cons, List.flatMap_nil, key (0xe0 + n / 4096) (by omega) (by omega),
        key (0x80 + n / 64 % 64) (by omega) (by omega), key (0x80 + n % 64) (by omega) (by omega)]
      rfl
    · simp only [List.flatMap_cons, List.flatMap_nil, key (0xf0 + n / 262144) (by omega) (by omega),
        key (0x80 + n / 4096 % 64) (by omega) (by omega),
        key (0x80 + n / 64 % 64) (by omega) (by omega), key (0x80 + n % 64) (by omega) (by omega)]
      rfl

theorem utf8_low {n : Nat} (h : n < 0x80) : utf8 n = [BitVec.ofNat 8 n] := by unfold utf8; rw [if_pos h]

/-- What is written for an ASCII character: itself, a two-character escape, or `\u00XX`. -/
theorem esc1_low : ∀ n < 0x80,
    (esc1 (BitVec.ofNat 8 n) = [BitVec.ofNat 8 n] ∧ 0x20 ≤ n ∧ n ≠ 0x22 ∧ n ≠ 0x5c) ∨
    (∃ p ∈ escapes, esc1 (BitVec.ofNat 8 n) = [ch '\\', p.1] ∧ p.2 = n) ∨
    (n < 0x20 ∧ ∃ a < 2, ∃ b < 16, a * 16 + b = n ∧
      esc1 (BitVec.ofNat 8 n) = [ch '\\', ch 'u', ch '0', ch '0', BitVec.ofNat 8 (0x30 + a),
        if b < 10 then BitVec.ofNat 8 (0x30 + b) else BitVec.ofNat 8 (0x41 + (b - 10))]) := by
  decide +kernel

theorem body_snoc {b : List Byte} {s : List Nat} {n : Nat} (hb : Body b s) (hs : Scalar n) :
    Body (b ++ (utf8 n).flatMap esc1) (s ++ [n]) := by
  by_cases h : n < 0x80
  · rw [utf8_low h]
    simp only [List.flatMap_cons, List.flatMap_nil, List.append_nil]
    rcases esc1_low n h with ⟨e, h1, h2, h3⟩ | ⟨p, hp, e, h1⟩ | ⟨_, a, ha, c, hc, hac, e⟩
    · rw [e, ← utf8_low h]; exact Body.raw hb hs h1 h2 h3
    · rw [e]
      have := Body.esc hb (c := p.1) (n := p.2) hp
      rw [h1] at this; exact this
    · rw [e]
      have hx : Hex4 [ch '0', ch '0', BitVec.ofNat 8 (0x30 + a),
          if c < 10 then BitVec.ofNat 8 (0x30 + c) else BitVec.ofNat 8 (0x41 + (c - 10))] n := by
        have h0 : Hex (ch '0') 0 := Hex.digit 0 (by omega)
        have hl : Hex (if c < 10 then BitVec.ofNat 8 (0x30 + c) else BitVec.ofNat 8 (0x41 + (c - 10))) c := by
          split
          · exact Hex.digit c (by assumption)
          · have := Hex.upper (c - 10) (by omega)
            rwa [show 10 + (c - 10) = c by omega] at this
        have := Hex4.mk h0 h0 (Hex.digit a (by omega)) hl
        simp only [Nat.zero_mul, Nat.zero_add, hac] at this
        exact this
      exact Body.uni hb hx hs
  · rw [utf8_high hs (by omega)]
    have h : 128 ≤ n := Nat.le_of_not_lt h
    exact Body.raw hb hs (Nat.le_trans (by decide) h) (fun e => by rw [e] at h; exact absurd h (by decide)) (fun e => by rw [e] at h; exact absurd h (by decide))

theorem body_dump (s : List Nat) (hs : ∀ n ∈ s, Scalar n) : Body ((utf8s s).flatMap esc1) s := by
  have : ∀ r : List Nat, (∀ n ∈ r, Scalar n) → Body ((utf8s r.reverse).flatMap esc1) r.reverse := by
    intro r
    induction r with
    | nil => intro _; exact Body.nil
    | cons n r ih =>
      intro h
      have i := ih (fun n hn => h n (by simp [hn]))
      rw [List.reverse_cons]
      have : utf8s (r.reverse ++ [n]) = utf8s r.reverse ++ utf8 n := by simp [utf8s]
      rw [this, List.flatMap_append]
      exact body_snoc i (h n (by simp))
  have := this s.reverse (by simpa using hs)
  simpa using this

theorem escape_len (c : Byte) : (escape c).length ≤ 6 := by
  unfold escape controlToHex
  repeat' split
  all_goals first | decide | (rw [List.length_append]; show 4 + 2 ≤ 6; omega)

theorem esc1_len (s : List Byte) : (s.flatMap esc1).length ≤ 6 * s.length := by
  induction s with
  | nil => simp
  | cons c s ih =>
    have : (esc1 c).length ≤ 6 := by
      unfold esc1
      split
      · exact escape_len c
      · simp
    simp only [List.flatMap_cons, List.length_append, List.length_cons]
    omega

end WS.JNum
