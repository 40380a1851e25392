import Verif.Proof.JsonSax3
import Verif.Spec.JsonSax
/-
The string automaton against the grammar of strings.
-/
namespace WS.Sax
open WS WS.Spec.Json
section
variable {σ : Type}

theorem strict_ignore {cfg : Config} (h : Strict cfg) (t : JType) : ignoreIll cfg t = false := by
  unfold ignoreIll; split
  · exact h.1
  · exact h.2.2.1

theorem strict_fix {cfg : Config} (h : Strict cfg) (t : JType) : fixIll cfg t = false := by
  unfold fixIll; split
  · exact h.2.1
  · exact h.2.2.2

theorem toNat_byte (n : Nat) (h : n < 256) : (BitVec.ofNat 8 n).toNat = n := by
  rw [BitVec.toNat_ofNat]; omega

theorem byte_ext {a b : Byte} (h : a.toNat = b.toNat) : a = b := BitVec.eq_of_toNat_eq h

theorem isIn_iff (c : Byte) (lo hi : Nat) : isIn c lo hi = true ↔ lo ≤ c.toNat ∧ c.toNat ≤ hi := by
  unfold isIn; simp

theorem isIn_false (c : Byte) (lo hi : Nat) : isIn c lo hi = false ↔ ¬ (lo ≤ c.toNat ∧ c.toNat ≤ hi) := by
  rw [← isIn_iff]; simp

theorem byte_eq_iff (c : Byte) (n : Nat) (h : n < 256) : c = BitVec.ofNat 8 n ↔ c.toNat = n := by
  constructor
  · intro e; rw [e]; exact toNat_byte n h
  · intro e; exact byte_ext (by rw [e, toNat_byte n h])

theorem cont_iff : ∀ c : Byte, (c &&& 0xc0#8 = 0x80#8) ↔ (0x80 ≤ c.toNat ∧ c.toNat ≤ 0xbf) := by decide +kernel

/-! ### Character by character -/

/-- The strict string step, restated with numbers. -/
theorem leadState_cases (c : Byte) (s : Nat) : leadState c = some s ↔
    (0xc2 ≤ c.toNat ∧ c.toNat ≤ 0xdf ∧ s = 1) ∨ (c.toNat = 0xe0 ∧ s = 4) ∨ (0xe1 ≤ c.toNat ∧ c.toNat ≤ 0xec ∧ s = 2) ∨
    (c.toNat = 0xed ∧ s = 5) ∨ (0xee ≤ c.toNat ∧ c.toNat ≤ 0xef ∧ s = 2) ∨ (c.toNat = 0xf0 ∧ s = 6) ∨
    (0xf1 ≤ c.toNat ∧ c.toNat ≤ 0xf3 ∧ s = 3) ∨ (c.toNat = 0xf4 ∧ s = 7) := by
  unfold leadState
  simp only [isIn_iff, byte_eq_iff c _ (show 0xe0 < 256 by decide), byte_eq_iff c _ (show 0xed < 256 by decide),
    byte_eq_iff c _ (show 0xf0 < 256 by decide), byte_eq_iff c _ (show 0xf4 < 256 by decide)]
  constructor
  · intro h
    repeat' split at h
    all_goals (first | (cases h; done) | (injection h with h; omega))
  · intro h
    repeat' split
    all_goals (first | omega | (congr 1; omega))

theorem trailState_cases (sub : Nat) (c : Byte) (s : Nat) : trailState sub c = some s ↔
    (sub ≤ 3 ∧ 0x80 ≤ c.toNat ∧ c.toNat ≤ 0xbf ∧ s = sub - 1) ∨ (sub = 4 ∧ 0xa0 ≤ c.toNat ∧ c.toNat ≤ 0xbf ∧ s = 1) ∨
    (sub = 5 ∧ 0x80 ≤ c.toNat ∧ c.toNat ≤ 0x9f ∧ s = 1) ∨ (sub = 6 ∧ 0x90 ≤ c.toNat ∧ c.toNat ≤ 0xbf ∧ s = 2) ∨
    (sub = 7 ∧ 0x80 ≤ c.toNat ∧ c.toNat ≤ 0x8f ∧ s = 2) := by
  unfold trailState
  simp only [isIn_iff, cont_iff]
  constructor
  · intro h
    repeat' split at h
    all_goals (first | (cases h; done) | (injection h with h; omega))
  · intro h
    repeat' split
    all_goals (first | omega | (congr 1; omega))

/-- A character partially read: the substate and the bytes so far. -/
inductive Part : Nat → List Byte → Prop
  | two {a : Byte} : 0xc2 ≤ a.toNat → a.toNat ≤ 0xdf → Part 1 [a]
  | three {a : Byte} {s : Nat} : 0xe0 ≤ a.toNat → a.toNat ≤ 0xef →
      s = (if a.toNat = 0xe0 then 4 else if a.toNat = 0xed then 5 else 2) → Part s [a]
  | three' {a b : Byte} : 0xe0 ≤ a.toNat → a.toNat ≤ 0xef → 0x80 ≤ b.toNat → b.toNat ≤ 0xbf →
      (a.toNat = 0xe0 → 0xa0 ≤ b.toNat) → (a.toNat = 0xed → b.toNat ≤ 0x9f) → Part 1 [a, b]
  | four {a : Byte} {s : Nat} : 0xf0 ≤ a.toNat → a.toNat ≤ 0xf4 →
      s = (if a.toNat = 0xf0 then 6 else if a.toNat = 0xf4 then 7 else 3) → Part s [a]
  | four' {a b : Byte} : 0xf0 ≤ a.toNat → a.toNat ≤ 0xf4 → 0x80 ≤ b.toNat → b.toNat ≤ 0xbf →
      (a.toNat = 0xf0 → 0x90 ≤ b.toNat) → (a.toNat = 0xf4 → b.toNat ≤ 0x8f) → Part 2 [a, b]
  | four'' {a b c : Byte} : 0xf0 ≤ a.toNat → a.toNat ≤ 0xf4 → 0x80 ≤ b.toNat → b.toNat ≤ 0xbf →
      (a.toNat = 0xf0 → 0x90 ≤ b.toNat) → (a.toNat = 0xf4 → b.toNat ≤ 0x8f) → 0x80 ≤ c.toNat → c.toNat ≤ 0xbf →
      Part 1 [a, b, c]

theorem Part.range {s : Nat} {l : List Byte} (h : Part s l) : 1 ≤ s ∧ s ≤ 7 := by
  cases h with
  | two => omega
  | three _ _ h => split at h <;> (try split at h) <;> omega
  | three' => omega
  | four _ _ h => split at h <;> (try split at h) <;> omega
  | four' => omega
  | four'' => omega

theorem part_of_lead {c : Byte} {s : Nat} (h : leadState c = some s) : Part s [c] := by
  rw [leadState_cases] at h
  by_cases h2 : c.toNat ≤ 0xdf
  · have : s = 1 := by omega
    rw [this]; exact Part.two (by omega) h2
  · by_cases h3 : c.toNat ≤ 0xef
    · refine Part.three (by omega) h3 ?_
      split
      · omega
      · split <;> omega
    · refine Part.four (by omega) (by omega) ?_
      split
      · omega
      · split <;> omega

theorem ofNat_eq {n : Nat} {a : Byte} (h : n < 256) (e : n = a.toNat) : BitVec.ofNat 8 n = a :=
  byte_ext (by rw [toNat_byte n h]; exact e)

theorem list2 {i j : Nat} {a b : Byte} (h1 : i < 256) (e1 : i = a.toNat) (h2 : j < 256) (e2 : j = b.toNat) :
    [BitVec.ofNat 8 i, BitVec.ofNat 8 j] = [a] ++ [b] := by
  rw [ofNat_eq h1 e1, ofNat_eq h2 e2]; rfl

theorem list3 {i j k : Nat} {a b c : Byte} (h1 : i < 256) (e1 : i = a.toNat) (h2 : j < 256) (e2 : j = b.toNat)
    (h3 : k < 256) (e3 : k = c.toNat) :
    [BitVec.ofNat 8 i, BitVec.ofNat 8 j, BitVec.ofNat 8 k] = [a, b] ++ [c] := by
  rw [ofNat_eq h1 e1, ofNat_eq h2 e2, ofNat_eq h3 e3]; rfl

theorem list4 {i j k l : Nat} {a b c d : Byte} (h1 : i < 256) (e1 : i = a.toNat) (h2 : j < 256) (e2 : j = b.toNat)
    (h3 : k < 256) (e3 : k = c.toNat) (h4 : l < 256) (e4 : l = d.toNat) :
    [BitVec.ofNat 8 i, BitVec.ofNat 8 j, BitVec.ofNat 8 k, BitVec.ofNat 8 l] = [a, b, c] ++ [d] := by
  rw [ofNat_eq h1 e1, ofNat_eq h2 e2, ofNat_eq h3 e3, ofNat_eq h4 e4]; rfl

/-- One more byte: another part, or a complete character. -/
theorem part_trail {s s' : Nat} {l : List Byte} {c : Byte} (h : Part s l) (ht : trailState s c = some s') :
    (1 ≤ s' ∧ Part s' (l ++ [c])) ∨ (s' = 0 ∧ ∃ n, Scalar n ∧ 0x80 ≤ n ∧ utf8 n = l ++ [c]) := by
  rw [trailState_cases] at ht
  cases h with
  | @two a h1 h2 =>
    right
    refine ⟨by omega, (a.toNat - 0xc0) * 64 + (c.toNat - 0x80), ?_, by omega, ?_⟩
    · unfold Scalar; omega
    · unfold utf8
      rw [if_neg (by omega), if_pos (by omega)]
      exact list2 (by omega) (by omega) (by omega) (by omega)
  | @three a s h1 h2 h3 =>
    left
    have : s' = 1 := by
      split at h3
      · omega
      · split at h3 <;> omega
    subst this
    refine ⟨by omega, ?_⟩
    refine Part.three' h1 h2 ?_ ?_ ?_ ?_ <;> (split at h3 <;> (try split at h3) <;> omega)
  | @three' a b h1 h2 h3 h4 h5 h6 =>
    right
    refine ⟨by omega, (a.toNat - 0xe0) * 4096 + (b.toNat - 0x80) * 64 + (c.toNat - 0x80), ?_, ?_, ?_⟩
    · unfold Scalar; omega
    · omega
    · unfold utf8
      rw [if_neg (by omega), if_neg (by omega), if_pos (by omega)]
      exact list3 (by omega) (by omega) (by omega) (by omega) (by omega) (by omega)
  | @four a s h1 h2 h3 =>
    left
    have : s' = 2 := by
      split at h3
      · omega
      · split at h3 <;> omega
    subst this
    refine ⟨by omega, ?_⟩
    refine Part.four' h1 h2 ?_ ?_ ?_ ?_ <;> (split at h3 <;> (try split at h3) <;> omega)
  | @four' a b h1 h2 h3 h4 h5 h6 =>
    left
    have : s' = 1 := by omega
    subst this
    exact ⟨by omega, Part.four'' h1 h2 h3 h4 h5 h6 (by omega) (by omega)⟩
  | @four'' a b d h1 h2 h3 h4 h5 h6 h7 h8 =>
    right
    refine ⟨by omega, (a.toNat - 0xf0) * 262144 + (b.toNat - 0x80) * 4096 + (d.toNat - 0x80) * 64 + (c.toNat - 0x80),
      ?_, ?_, ?_⟩
    · unfold Scalar; omega
    · omega
    · unfold utf8
      rw [if_neg (by omega), if_neg (by omega), if_neg (by omega)]
      exact list4 (by omega) (by omega) (by omega) (by omega) (by omega) (by omega) (by omega) (by omega)

/-! ### The steps of the automaton -/

theorem step_adv (cfg : Config) (cb : Callback σ) (t : JType) (p q : Parser σ) (c : Byte) (hi : InStr t p)
    (he : 0 ≤ p.err) (h : strCharA cfg cb t p c = .adv q)
    (hm : strMax cfg t = 0 ∨ q.pos.offset + 1 - q.vpos.offset ≤ strMax cfg t) : step cfg cb p c = advance q 1 := by
  rw [step_str cfg cb t p c hi he, strByte_not_again cfg cb t p c (by rw [h]; intro q h; cases h), h]
  exact chkS_le cfg t (advance q 1) hm

theorem sA_plain (cfg : Config) (cb : Callback σ) (t : JType) (p : Parser σ) (c : Byte) (hs : p.sub = 0)
    (h1 : 0x20 ≤ c.toNat) (h2 : c.toNat ≤ 0x7f) (h3 : c.toNat ≠ 0x22) (h4 : c.toNat ≠ 0x5c) :
    strCharA cfg cb t p c = .adv (append p [c]) := by
  apply strCharA_tight
  refine ⟨hs, ?_, ?_, ?_, Or.inl ?_⟩
  · intro e; exact h3 (by rw [e]; rfl)
  · unfold isControl; simp; omega
  · intro e; exact h4 (by rw [e]; rfl)
  · unfold isAscii; simp; omega

theorem not_tight_of_big (cfg : Config) (hst : Strict cfg) (t : JType) (p : Parser σ) (c : Byte) (h : 0x80 ≤ c.toNat) :
    ¬ tight cfg t p c := by
  intro ht
  rcases ht.2.2.2.2 with h2 | h2
  · unfold isAscii at h2; simp at h2; omega
  · rw [strict_ignore hst] at h2; cases h2

theorem sA_lead (cfg : Config) (hst : Strict cfg) (cb : Callback σ) (t : JType) (p : Parser σ) (c : Byte) (s : Nat)
    (hs : p.sub = 0) (h : leadState c = some s) : strCharA cfg cb t p c = .adv (append { p with sub := s } [c]) := by
  have hc := (leadState_cases c s).1 h
  rw [strCharA_not cfg cb t p c (not_tight_of_big cfg hst t p c (by omega))]
  unfold strChar
  rw [if_pos hs, if_neg (fun e => by rw [e] at hc; revert hc; decide +revert),
    if_neg (fun e => by unfold isControl at e; simp at e; omega),
    if_neg (fun e => by rw [e] at hc; revert hc; decide +revert)]
  rw [h]

theorem sA_trail (cfg : Config) (cb : Callback σ) (t : JType) (p : Parser σ) (c : Byte) (s : Nat)
    (hs : 1 ≤ p.sub ∧ p.sub ≤ 7) (h : trailState p.sub c = some s) :
    strCharA cfg cb t p c = .adv (append { p with sub := s } [c]) := by
  rw [strCharA_not cfg cb t p c (fun ht => by have := ht.1; omega)]
  unfold strChar
  rw [if_neg (by omega), if_pos hs.2, h]

theorem sA_bs (cfg : Config) (cb : Callback σ) (t : JType) (p : Parser σ) (hs : p.sub = 0) :
    strCharA cfg cb t p 0x5c#8 = .adv { p with sub := 0x5c } := by
  rw [strCharA_not cfg cb t p _ (fun ht => ht.2.2.2.1 rfl)]
  unfold strChar
  rw [if_pos hs, if_neg (by decide), if_neg (by decide), if_pos rfl]

theorem sA_u (cfg : Config) (cb : Callback σ) (t : JType) (p : Parser σ) (hs : p.sub = 0x5c) :
    strCharA cfg cb t p 0x75#8 = .adv { p with sub := 0xabcd + 4 } := by
  rw [strCharA_not cfg cb t p _ (fun ht => by have := ht.1; omega)]
  unfold strChar
  rw [if_neg (by omega), if_neg (by omega), if_pos hs, if_pos rfl]

theorem sA_esc (cfg : Config) (cb : Callback σ) (t : JType) (p : Parser σ) (c e : Byte) (hs : p.sub = 0x5c)
    (hc : c ≠ 0x75#8) (h : escapeChar c = some e) : strCharA cfg cb t p c = .adv { append p [e] with sub := 0 } := by
  rw [strCharA_not cfg cb t p _ (fun ht => by have := ht.1; omega)]
  unfold strChar
  rw [if_neg (by omega), if_neg (by omega), if_pos hs, if_neg hc, h]

theorem sA_hex (cfg : Config) (cb : Callback σ) (t : JType) (p : Parser σ) (c : Byte) (hs : 0xabcd < p.sub)
    (hx : isXdigit c = true) : strCharA cfg cb t p c =
      (if p.sub - 1 = 0xabcd then
        finishEscape { p with cp1 := (p.cp1 <<< 4) ||| resolveXdigit c, sub := p.sub - 1 } (ignoreIll cfg t) (fixIll cfg t)
       else .adv { p with cp1 := (p.cp1 <<< 4) ||| resolveXdigit c, sub := p.sub - 1 }) := by
  rw [strCharA_not cfg cb t p _ (fun ht => by have := ht.1; omega)]
  unfold strChar
  rw [if_neg (by omega), if_neg (by omega), if_neg (by omega), if_pos hs, if_neg (by rw [hx]; decide)]

theorem sA_hi1 (cfg : Config) (cb : Callback σ) (t : JType) (p : Parser σ) (hs : p.sub = 0xabcd - 2) :
    strCharA cfg cb t p 0x5c#8 = .adv { p with sub := 0xabcd - 1 } := by
  rw [strCharA_not cfg cb t p _ (fun ht => by have := ht.1; omega)]
  unfold strChar
  rw [if_neg (by omega), if_neg (by omega), if_neg (by omega), if_neg (by omega), if_pos (by omega),
    if_pos ⟨hs, rfl⟩]

theorem sA_hi2 (cfg : Config) (cb : Callback σ) (t : JType) (p : Parser σ) (hs : p.sub = 0xabcd - 1) :
    strCharA cfg cb t p 0x75#8 = .adv { p with sub := 0xabcd + 4 } := by
  rw [strCharA_not cfg cb t p _ (fun ht => by have := ht.1; omega)]
  unfold strChar
  rw [if_neg (by omega), if_neg (by omega), if_neg (by omega), if_neg (by omega), if_pos (by omega),
    if_neg (by omega), if_pos ⟨hs, rfl⟩]

theorem sA_quote (cfg : Config) (cb : Callback σ) (t : JType) (p : Parser σ) (hs : p.sub = 0) :
    strCharA cfg cb t p 0x22#8 = .closed (process cfg cb (advance p 1) t p.buf) := by
  rw [strCharA_not cfg cb t p _ (fun ht => ht.2.1 rfl)]
  unfold strChar
  rw [if_pos hs, if_pos rfl]

/-- `json_buf_append_codepoint` writes UTF-8. -/
theorem encode_utf8 (n : Nat) (h : n < 0x110000) : encode n = utf8 n := by
  have e6 : n >>> 6 = n / 64 := by rw [Nat.shiftRight_eq_div_pow]
  have e12 : n >>> 12 = n / 4096 := by rw [Nat.shiftRight_eq_div_pow]
  have e18 : n >>> 18 = n / 262144 := by rw [Nat.shiftRight_eq_div_pow]
  have a3f : ∀ m, m &&& 0x3f = m % 64 := fun m => Nat.and_two_pow_sub_one_eq_mod m 6
  have a1f : ∀ m, m &&& 0x1f = m % 32 := fun m => Nat.and_two_pow_sub_one_eq_mod m 5
  have a0f : ∀ m, m &&& 0x0f = m % 16 := fun m => Nat.and_two_pow_sub_one_eq_mod m 4
  have a07 : ∀ m, m &&& 0x07 = m % 8 := fun m => Nat.and_two_pow_sub_one_eq_mod m 3
  have o80 : ∀ m, m < 64 → 0x80 ||| m = 0x80 + m := by decide
  have oc0 : ∀ m, m < 32 → 0xc0 ||| m = 0xc0 + m := by decide
  have oe0 : ∀ m, m < 16 → 0xe0 ||| m = 0xe0 + m := by decide
  have of0 : ∀ m, m < 8 → 0xf0 ||| m = 0xf0 + m := by decide
  unfold encode utf8
  rw [e6, e12, e18, Nat.shiftRight_zero]
  simp only [a3f, a1f, a0f, a07]
  rw [o80 (n % 64) (by omega), o80 (n / 64 % 64) (by omega), o80 (n / 4096 % 64) (by omega),
    oc0 (n / 64 % 32) (by omega), oe0 (n / 4096 % 16) (by omega), of0 (n / 262144 % 8) (by omega)]
  by_cases h1 : n < 0x80
  · rw [if_pos (by omega), if_pos h1]
  · rw [if_neg (by omega), if_neg h1]
    by_cases h2 : n < 0x800
    · rw [if_pos (by omega), if_pos h2]
      have : n / 64 % 32 = n / 64 := by omega
      rw [this]
    · rw [if_neg (by omega), if_neg h2]
      by_cases h3 : n < 0x10000
      · rw [if_pos (by omega), if_pos h3]
        have : n / 4096 % 16 = n / 4096 := by omega
        rw [this]
      · rw [if_neg (by omega), if_neg h3]
        have : n / 262144 % 8 = n / 262144 := by omega
        rw [this]

end
end WS.Sax
