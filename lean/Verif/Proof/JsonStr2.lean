import Verif.Proof.JsonStr
/-
Every string of the grammar is read to its end, and everything read to its end is a string of the grammar.
-/
namespace WS.Sax
open WS WS.Spec.Json
section
variable {σ : Type}

theorem hex_iff (c : Byte) (k : Nat) : Hex c k ↔ isXdigit c = true ∧ resolveXdigit c = k := by
  constructor
  · intro h
    cases h with
    | digit k h =>
      have h1 := toNat_byte (0x30 + k) (by omega)
      have hd : isDigit (BitVec.ofNat 8 (0x30 + k)) = true := by unfold isDigit; rw [isIn_iff]; omega
      refine ⟨by unfold isXdigit; rw [hd]; rfl, ?_⟩
      unfold resolveXdigit
      rw [if_pos hd]; omega
    | lower k h =>
      have h1 := toNat_byte (0x61 + k) (by omega)
      have hd : isDigit (BitVec.ofNat 8 (0x61 + k)) = false := by unfold isDigit; rw [isIn_false]; omega
      have hl : isIn (BitVec.ofNat 8 (0x61 + k)) 0x61 0x66 = true := by rw [isIn_iff]; omega
      refine ⟨by unfold isXdigit; rw [hd, hl]; rfl, ?_⟩
      unfold resolveXdigit
      rw [hd, hl, if_neg (by decide), if_pos rfl]; omega
    | upper k h =>
      have h1 := toNat_byte (0x41 + k) (by omega)
      have hd : isDigit (BitVec.ofNat 8 (0x41 + k)) = false := by unfold isDigit; rw [isIn_false]; omega
      have hl : isIn (BitVec.ofNat 8 (0x41 + k)) 0x61 0x66 = false := by rw [isIn_false]; omega
      have hu : isIn (BitVec.ofNat 8 (0x41 + k)) 0x41 0x46 = true := by rw [isIn_iff]; omega
      refine ⟨by unfold isXdigit; rw [hd, hl, hu]; rfl, ?_⟩
      unfold resolveXdigit
      rw [hd, hl, if_neg (by decide), if_neg (by decide)]; omega
  · rintro ⟨h1, h2⟩
    unfold isXdigit isDigit at h1
    simp only [Bool.or_eq_true, isIn_iff] at h1
    unfold resolveXdigit isDigit at h2
    simp only [isIn_iff] at h2
    rcases h1 with (h1 | h1) | h1
    · rw [if_pos h1] at h2
      have := Hex.digit k (by omega)
      rwa [ofNat_eq (a := c) (by omega) (by omega)] at this
    · rw [if_neg (by omega), if_pos h1] at h2
      have := Hex.lower (k - 10) (by omega)
      rw [ofNat_eq (a := c) (by omega) (by omega)] at this
      have e : 10 + (k - 10) = k := by omega
      rwa [e] at this
    · rw [if_neg (by omega), if_neg (by omega)] at h2
      have := Hex.upper (k - 10) (by omega)
      rw [ofNat_eq (a := c) (by omega) (by omega)] at this
      have e : 10 + (k - 10) = k := by omega
      rwa [e] at this

theorem hex_lt {c : Byte} {k : Nat} (h : Hex c k) : k < 16 := by cases h <;> omega

theorem hex4_lt {l : List Byte} {k : Nat} (h : Hex4 l k) : k < 65536 := by
  cases h with
  | mk a b c d => have := hex_lt a; have := hex_lt b; have := hex_lt c; have := hex_lt d; omega

theorem shift_or (v k : Nat) (hk : k < 16) : (v <<< 4) ||| k = v * 16 + k := by
  rw [← Nat.shiftLeft_add_eq_or_of_lt (i := 4) (by omega), Nat.shiftLeft_eq]

theorem isLo_iff (n : Nat) : isLo n = true ↔ 0xdc00 ≤ n ∧ n < 0xe000 := by unfold isLo; simp; omega
theorem isHi_iff (n : Nat) : isHi n = true ↔ 0xd800 ≤ n ∧ n < 0xdc00 := by unfold isHi; simp; omega
theorem isLo_false (n : Nat) : isLo n = false ↔ ¬ (0xdc00 ≤ n ∧ n < 0xe000) := by rw [← isLo_iff]; simp
theorem isHi_false (n : Nat) : isHi n = false ↔ ¬ (0xd800 ≤ n ∧ n < 0xdc00) := by rw [← isHi_iff]; simp

/-! ### The end of an escape -/

theorem fin_scalar (p : Parser σ) (h0 : p.cp0 = 0) (hl : p.cp1 < 65536) (hs : Scalar p.cp1) :
    finishEscape p false false = .adv { append p (utf8 p.cp1) with sub := 0, cp1 := 0 } := by
  have h1 : isLo p.cp1 = false := by rw [isLo_false]; unfold Scalar at hs; omega
  have h2 : isHi p.cp1 = false := by rw [isHi_false]; unfold Scalar at hs; omega
  unfold finishEscape
  rw [if_neg (by rw [h0]; simp)]
  simp only [h0, h1, h2, ne_eq, not_true_eq_false, Bool.false_eq_true, and_false, false_and, if_false]
  unfold appendCodepoint
  rw [encode_utf8 p.cp1 (by omega)]

theorem fin_hi (p : Parser σ) (h0 : p.cp0 = 0) (hs : 0xd800 ≤ p.cp1 ∧ p.cp1 < 0xdc00) :
    finishEscape p false false = .adv { p with cp0 := p.cp1, sub := 0xabcd - 2, cp1 := 0 } := by
  have h1 : isLo p.cp1 = false := by rw [isLo_false]; omega
  have h2 : isHi p.cp1 = true := by rw [isHi_iff]; omega
  unfold finishEscape
  rw [if_neg (by rw [h0]; simp)]
  simp only [h0, h1, h2, ne_eq, not_true_eq_false, Bool.false_eq_true, and_false, false_and, if_false,
    Bool.true_eq_false, if_true]

theorem fin_pair (p : Parser σ) (h0 : 0xd800 ≤ p.cp0 ∧ p.cp0 < 0xdc00) (hs : 0xdc00 ≤ p.cp1 ∧ p.cp1 < 0xe000) :
    finishEscape p false false = .adv { append p (utf8 (0x10000 + (p.cp0 - 0xd800) * 0x400 + (p.cp1 - 0xdc00))) with
      sub := 0, cp0 := 0, cp1 := 0 } := by
  have h1 : isLo p.cp1 = true := by rw [isLo_iff]; omega
  have h2 : p.cp0 ≠ 0 := by omega
  unfold finishEscape
  rw [if_neg (by rw [h1]; simp)]
  simp only [h1, h2, ne_eq, not_true_eq_false, Bool.false_eq_true, and_false, false_and, if_false,
    Bool.true_eq_false, if_true, not_false_eq_true, and_self]
  unfold appendCodepoint
  rw [encode_utf8 _ (by omega)]

theorem fin_shape (p : Parser σ) :
    (∃ q, finishEscape p false false = .adv q ∧
      ((p.cp0 = 0 ∧ ¬ (0xdc00 ≤ p.cp1 ∧ p.cp1 < 0xe000)) ∨ (p.cp0 ≠ 0 ∧ 0xdc00 ≤ p.cp1 ∧ p.cp1 < 0xe000))) ∨
    (∃ q, finishEscape p false false = .fail q) := by
  unfold finishEscape illSurrogate
  by_cases h0 : p.cp0 = 0
  · rw [if_neg (by rw [h0]; simp)]
    cases hl : isLo p.cp1 with
    | true =>
      right
      simp [h0, hl]
    | false =>
      left
      have := (isLo_false _).1 hl
      cases hh : isHi p.cp1 with
      | true => exact ⟨_, by simp [h0, hl, hh]; rfl, Or.inl ⟨h0, this⟩⟩
      | false => exact ⟨_, by simp [h0, hl, hh]; rfl, Or.inl ⟨h0, this⟩⟩
  · cases hl : isLo p.cp1 with
    | false =>
      right
      simp [h0]
    | true =>
      left
      have := (isLo_iff _).1 hl
      exact ⟨_, by simp [h0, hl]; rfl, Or.inr ⟨h0, this⟩⟩

/-! ### Every string of the grammar -/

/-- Reading a string, nothing pending. -/
structure InText (cfg : Config) (t : JType) (p : Parser σ) : Prop where
  str : InStr t p
  err : 0 ≤ p.err
  sub : p.sub = 0
  cp0 : p.cp0 = 0
  cp1 : p.cp1 = 0

def Room (cfg : Config) (t : JType) (p : Parser σ) (n : Nat) : Prop :=
  p.vpos.offset ≤ p.pos.offset ∧ (strMax cfg t = 0 ∨ p.pos.offset + n - p.vpos.offset ≤ strMax cfg t)

theorem step_adv' (cfg : Config) (cb : Callback σ) (t : JType) (p q : Parser σ) (c : Byte) (hi : InStr t p)
    (he : 0 ≤ p.err) (h : strCharA cfg cb t p c = .adv q) (hq : Keep p q) (n : Nat) (hr : Room cfg t p (n + 1)) :
    step cfg cb p c = advance q 1 ∧ Room cfg t (advance q 1) n ∧ InStr t (advance q 1) ∧ 0 ≤ (advance q 1).err := by
  have e1 := hq.pos
  have e2 := hq.vpos
  refine ⟨step_adv cfg cb t p q c hi he h ?_, ?_, hi.keep hq.auto, by show 0 ≤ q.err; rw [hq.err]; exact he⟩
  · rw [e1, e2]; have := hr.2; have := hr.1; omega
  · refine ⟨?_, ?_⟩
    · show q.vpos.offset ≤ q.pos.offset + 1
      rw [e1, e2]; have := hr.1; omega
    · show _ ∨ q.pos.offset + 1 + n - q.vpos.offset ≤ _
      rw [e1, e2]; have := hr.2; omega

/-- One character outside ASCII. -/
theorem run_utf8 (cfg : Config) (hst : Strict cfg) (cb : Callback σ) (t : JType) (p : Parser σ) (h : InText cfg t p)
    (n : Nat) (hn : Scalar n) (h1 : 0x20 ≤ n) (h2 : n ≠ 0x22) (h3 : n ≠ 0x5c) (hr : Room cfg t p (utf8 n).length) :
    run cfg cb p (utf8 n) = advance (append p (utf8 n)) (utf8 n).length := by
  unfold Scalar at hn
  by_cases hA : n < 0x80
  · have e : utf8 n = [BitVec.ofNat 8 n] := by unfold utf8; rw [if_pos hA]
    rw [e] at hr ⊢
    have ht := toNat_byte n (by omega)
    exact (step_adv' cfg cb t p _ _ h.str h.err
      (sA_plain cfg cb t p _ h.sub (by omega) (by omega) (by omega) (by omega)) rfl 0 hr).1
  · by_cases hB : n < 0x800
    · have e : utf8 n = [BitVec.ofNat 8 (0xc0 + n / 64), BitVec.ofNat 8 (0x80 + n % 64)] := by
        unfold utf8; rw [if_neg hA, if_pos hB]
      rw [e] at hr ⊢
      have t1 := toNat_byte (0xc0 + n / 64) (by omega)
      have t2 := toNat_byte (0x80 + n % 64) (by omega)
      have s1 := step_adv' cfg cb t p _ _ h.str h.err
        (sA_lead cfg hst cb t p (BitVec.ofNat 8 (0xc0 + n / 64)) 1 h.sub ((leadState_cases _ _).2 (by omega))) rfl 1 hr
      have s2 := step_adv' cfg cb t _ _ _ s1.2.2.1 s1.2.2.2
        (sA_trail cfg cb t _ (BitVec.ofNat 8 (0x80 + n % 64)) 0 ⟨by show 1 ≤ 1; omega, by show 1 ≤ 7; omega⟩
          (show trailState 1 _ = some 0 from (trailState_cases _ _ _).2 (by omega))) rfl 0 s1.2.1
      rw [run_cons, s1.1, run_cons, s2.1]
      simp [run, advance, append, h.sub, h.cp0, h.cp1]
    · by_cases hC : n < 0x10000
      · have e : utf8 n = [BitVec.ofNat 8 (0xe0 + n / 4096), BitVec.ofNat 8 (0x80 + n / 64 % 64),
            BitVec.ofNat 8 (0x80 + n % 64)] := by
          unfold utf8; rw [if_neg hA, if_neg hB, if_pos hC]
        rw [e] at hr ⊢
        have t1 := toNat_byte (0xe0 + n / 4096) (by omega)
        have t2 := toNat_byte (0x80 + n / 64 % 64) (by omega)
        have t3 := toNat_byte (0x80 + n % 64) (by omega)
        obtain ⟨s, hs, hs2⟩ : ∃ s, leadState (BitVec.ofNat 8 (0xe0 + n / 4096)) = some s ∧
            trailState s (BitVec.ofNat 8 (0x80 + n / 64 % 64)) = some 1 := by
          by_cases c1 : n < 0x1000
          · exact ⟨4, (leadState_cases _ _).2 (by omega), (trailState_cases _ _ _).2 (by omega)⟩
          · by_cases c2 : 0xd000 ≤ n ∧ n < 0xe000
            · exact ⟨5, (leadState_cases _ _).2 (by omega), (trailState_cases _ _ _).2 (by omega)⟩
            · exact ⟨2, (leadState_cases _ _).2 (by omega), (trailState_cases _ _ _).2 (by omega)⟩
        have hsr := leadState_range _ _ hs
        have s1 := step_adv' cfg cb t p _ _ h.str h.err (sA_lead cfg hst cb t p _ s h.sub hs) rfl 2 hr
        have s2 := step_adv' cfg cb t _ _ _ s1.2.2.1 s1.2.2.2 (sA_trail cfg cb t _ _ 1 hsr hs2) rfl 1 s1.2.1
        have s3 := step_adv' cfg cb t _ _ _ s2.2.2.1 s2.2.2.2
          (sA_trail cfg cb t _ (BitVec.ofNat 8 (0x80 + n % 64)) 0 ⟨by show 1 ≤ 1; omega, by show 1 ≤ 7; omega⟩
            (show trailState 1 _ = some 0 from (trailState_cases _ _ _).2 (by omega))) rfl 0 s2.2.1
        rw [run_cons, s1.1, run_cons, s2.1, run_cons, s3.1]
        simp [run, advance, append, h.sub, h.cp0, h.cp1]
      · have e : utf8 n = [BitVec.ofNat 8 (0xf0 + n / 262144), BitVec.ofNat 8 (0x80 + n / 4096 % 64),
            BitVec.ofNat 8 (0x80 + n / 64 % 64), BitVec.ofNat 8 (0x80 + n % 64)] := by
          unfold utf8; rw [if_neg hA, if_neg hB, if_neg hC]
        rw [e] at hr ⊢
        have t0 := toNat_byte (0xf0 + n / 262144) (by omega)
        have t1 := toNat_byte (0x80 + n / 4096 % 64) (by omega)
        have t2 := toNat_byte (0x80 + n / 64 % 64) (by omega)
        have t3 := toNat_byte (0x80 + n % 64) (by omega)
        obtain ⟨s, hs, hs2⟩ : ∃ s, leadState (BitVec.ofNat 8 (0xf0 + n / 262144)) = some s ∧
            trailState s (BitVec.ofNat 8 (0x80 + n / 4096 % 64)) = some 2 := by
          by_cases c1 : n < 0x40000
          · exact ⟨6, (leadState_cases _ _).2 (by omega), (trailState_cases _ _ _).2 (by omega)⟩
          · by_cases c2 : 0x100000 ≤ n
            · exact ⟨7, (leadState_cases _ _).2 (by omega), (trailState_cases _ _ _).2 (by omega)⟩
            · exact ⟨3, (leadState_cases _ _).2 (by omega), (trailState_cases _ _ _).2 (by omega)⟩
        have hsr := leadState_range _ _ hs
        have s0 := step_adv' cfg cb t p _ _ h.str h.err (sA_lead cfg hst cb t p _ s h.sub hs) rfl 3 hr
        have s1 := step_adv' cfg cb t _ _ _ s0.2.2.1 s0.2.2.2 (sA_trail cfg cb t _ _ 2 hsr hs2) rfl 2 s0.2.1
        have s2 := step_adv' cfg cb t _ _ _ s1.2.2.1 s1.2.2.2
          (sA_trail cfg cb t _ (BitVec.ofNat 8 (0x80 + n / 64 % 64)) 1 ⟨by show 1 ≤ 2; omega, by show 2 ≤ 7; omega⟩
            (show trailState 2 _ = some 1 from (trailState_cases _ _ _).2 (by omega))) rfl 1 s1.2.1
        have s3 := step_adv' cfg cb t _ _ _ s2.2.2.1 s2.2.2.2
          (sA_trail cfg cb t _ (BitVec.ofNat 8 (0x80 + n % 64)) 0 ⟨by show 1 ≤ 1; omega, by show 1 ≤ 7; omega⟩
            (show trailState 1 _ = some 0 from (trailState_cases _ _ _).2 (by omega))) rfl 0 s2.2.1
        rw [run_cons, s0.1, run_cons, s1.1, run_cons, s2.1, run_cons, s3.1]
        simp [run, advance, append, h.sub, h.cp0, h.cp1]

theorem run_hex (cfg : Config) (hst : Strict cfg) (cb : Callback σ) (t : JType) (p r : Parser σ) (hi : InStr t p)
    (he : 0 ≤ p.err) (hs : p.sub = 0xabcd + 4) (h1 : p.cp1 = 0) (l : List Byte) (v : Nat) (hx : Hex4 l v)
    (hr : Room cfg t p 4) (hf : finishEscape { advance p 3 with cp1 := v, sub := 0xabcd } false false = .adv r)
    (hk : Keep (advance p 3) r) : run cfg cb p l = advance r 1 := by
  cases hx with
  | @mk a b c d i j k m ha hb hc hd =>
    obtain ⟨xa, ra⟩ := (hex_iff _ _).1 ha
    obtain ⟨xb, rb⟩ := (hex_iff _ _).1 hb
    obtain ⟨xc, rc⟩ := (hex_iff _ _).1 hc
    obtain ⟨xd, rd⟩ := (hex_iff _ _).1 hd
    have la := hex_lt ha; have lb := hex_lt hb; have lc := hex_lt hc; have ld := hex_lt hd
    have e1 : strCharA cfg cb t p a = .adv { p with cp1 := i, sub := 0xabcd + 3 } := by
      rw [sA_hex cfg cb t p a (by omega) xa, if_neg (by omega), h1, ra, hs, shift_or _ _ la, Nat.zero_mul, Nat.zero_add]
    have s1 := step_adv' cfg cb t p _ a hi he e1 rfl 3 hr
    have e2 : strCharA cfg cb t (advance { p with cp1 := i, sub := 0xabcd + 3 } 1) b =
        .adv { advance p 1 with cp1 := i * 16 + j, sub := 0xabcd + 2 } := by
      rw [sA_hex cfg cb t _ b (by show 0xabcd < 0xabcd + 3; omega) xb, if_neg (by show ¬ (0xabcd + 3 - 1 = 0xabcd); omega), rb]
      show StrStep.adv { advance p 1 with cp1 := (i <<< 4) ||| j, sub := 0xabcd + 2 } = _
      rw [shift_or _ _ lb]
    have s2 := step_adv' cfg cb t _ _ b s1.2.2.1 s1.2.2.2 e2 rfl 2 s1.2.1
    have e3 : strCharA cfg cb t (advance { advance p 1 with cp1 := i * 16 + j, sub := 0xabcd + 2 } 1) c =
        .adv { advance p 2 with cp1 := (i * 16 + j) * 16 + k, sub := 0xabcd + 1 } := by
      rw [sA_hex cfg cb t _ c (by show 0xabcd < 0xabcd + 2; omega) xc, if_neg (by show ¬ (0xabcd + 2 - 1 = 0xabcd); omega), rc]
      show StrStep.adv { advance p 2 with cp1 := ((i * 16 + j) <<< 4) ||| k, sub := 0xabcd + 1 } = _
      rw [shift_or _ _ lc]
    have s3 := step_adv' cfg cb t _ _ c s2.2.2.1 s2.2.2.2 e3 rfl 1 s2.2.1
    have e4 : strCharA cfg cb t (advance { advance p 2 with cp1 := (i * 16 + j) * 16 + k, sub := 0xabcd + 1 } 1) d =
        .adv r := by
      rw [sA_hex cfg cb t _ d (by show 0xabcd < 0xabcd + 1; omega) xd, if_pos (by show 0xabcd + 1 - 1 = 0xabcd; omega), rd,
        strict_ignore hst, strict_fix hst]
      show finishEscape { advance p 3 with cp1 := (((i * 16 + j) * 16 + k) <<< 4) ||| m, sub := 0xabcd } false false = _
      rw [shift_or _ _ ld]
      have : ((i * 16 + j) * 16 + k) * 16 + m = i * 4096 + j * 256 + k * 16 + m := by omega
      rw [this, hf]
    have hk' : Keep (advance { advance p 2 with cp1 := (i * 16 + j) * 16 + k, sub := 0xabcd + 1 } 1) r := hk
    have s4 := step_adv' cfg cb t _ _ d s3.2.2.1 s3.2.2.2 e4 hk' 0 s3.2.1
    rw [run_cons, s1.1, run_cons, s2.1, run_cons, s3.1, run_cons, s4.1]
    rfl

theorem escapes_iff (c : Byte) (n : Nat) : (c, n) ∈ escapes ↔ ∃ e, escapeChar c = some e ∧ n < 256 ∧ e = BitVec.ofNat 8 n := by
  have hd : ∀ c : Byte, (∀ e, escapeChar c = some e → (c, e.toNat) ∈ escapes) := by decide +kernel
  have he : ∀ x ∈ escapes, escapeChar x.1 = some (BitVec.ofNat 8 x.2) ∧ x.2 < 256 := by decide +kernel
  constructor
  · intro h
    obtain ⟨h1, h2⟩ := he _ h
    exact ⟨_, h1, h2, rfl⟩
  · rintro ⟨e, h1, h2, h3⟩
    have := hd c e h1
    rw [h3, toNat_byte n h2] at this
    exact this

theorem escapes_lt {c : Byte} {n : Nat} (h : (c, n) ∈ escapes) : n < 0x80 ∧ c ≠ 0x75#8 := by
  have he : ∀ x ∈ escapes, x.2 < 0x80 ∧ x.1 ≠ 0x75#8 := by decide +kernel
  exact he _ h

theorem utf8s_snoc (s : List Nat) (n : Nat) : utf8s (s ++ [n]) = utf8s s ++ utf8 n := by
  simp [utf8s]

/-- Every string of the grammar is read to its end, and the buffer then holds the UTF-8 of its characters. -/
theorem run_body (cfg : Config) (hst : Strict cfg) (cb : Callback σ) (t : JType) {b : List Byte} {s : List Nat}
    (hb : Body b s) : ∀ p : Parser σ, InText cfg t p → Room cfg t p b.length →
    run cfg cb p b = advance (append p (utf8s s)) b.length := by
  have shrink : ∀ {p : Parser σ} {m n : Nat}, Room cfg t p n → m ≤ n → Room cfg t p m := by
    intro p m n h hm
    exact ⟨h.1, by have := h.2; omega⟩
  have shift : ∀ {p : Parser σ} {m n : Nat} {x : List Byte}, Room cfg t p (m + n) → Room cfg t (advance (append p x) m) n := by
    intro p m n x h
    refine ⟨?_, ?_⟩
    · show p.vpos.offset ≤ p.pos.offset + m
      have := h.1; omega
    · show _ ∨ p.pos.offset + m + n - p.vpos.offset ≤ _
      have := h.2; omega
  induction hb with
  | nil =>
    intro p h _
    simp [run, advance, append, utf8s]
  | @raw b s n hb hn h1 h2 h3 ih =>
    intro p h hr
    rw [List.length_append] at hr
    rw [run_append, ih p h (shrink hr (by omega)),
      run_utf8 cfg hst cb t (advance (append p (utf8s s)) b.length) ⟨h.str, h.err, h.sub, h.cp0, h.cp1⟩ n hn h1 h2 h3 (shift hr), utf8s_snoc]
    simp [advance, append, Nat.add_assoc]
  | @esc b s c n hb hc ih =>
    intro p h hr
    rw [List.length_append] at hr
    rw [run_append, ih p h (shrink hr (by omega))]
    have hr2 := shift (x := utf8s s) (show Room cfg t p (b.length + 2) from hr)
    obtain ⟨e, e1, e2, e3⟩ := (escapes_iff c n).1 hc
    obtain ⟨n1, n2⟩ := escapes_lt hc
    have s1 := step_adv' cfg cb t (advance (append p (utf8s s)) b.length) _ 0x5c#8 h.str h.err (sA_bs cfg cb t _ h.sub) rfl 1 hr2
    have s2 := step_adv' cfg cb t _ _ c s1.2.2.1 s1.2.2.2 (sA_esc cfg cb t _ c e rfl n2 e1) rfl 0 s1.2.1
    show run cfg cb _ [0x5c#8, c] = _
    rw [run_cons, s1.1, run_cons, s2.1, utf8s_snoc]
    have : utf8 n = [e] := by unfold utf8; rw [if_pos n1, e3]
    rw [this]
    simp [run, advance, append, Nat.add_assoc, h.sub]
  | @uni b l s n hb hx hn ih =>
    intro p h hr
    have hl4 : l.length = 4 := by cases hx; rfl
    rw [List.length_append, List.length_cons, List.length_cons, hl4] at hr
    rw [run_append, ih p h (shrink hr (by omega))]
    have hr2 := shift (x := utf8s s) (show Room cfg t p (b.length + 6) from hr)
    have s1 := step_adv' cfg cb t (advance (append p (utf8s s)) b.length) _ 0x5c#8 h.str h.err (sA_bs cfg cb t _ h.sub) rfl 5 hr2
    have s2 := step_adv' cfg cb t _ _ 0x75#8 s1.2.2.1 s1.2.2.2 (sA_u cfg cb t _ rfl) rfl 4 s1.2.1
    show run cfg cb _ (0x5c#8 :: 0x75#8 :: l) = _
    rw [run_cons, s1.1, run_cons, s2.1]
    have hf := fin_scalar ({ advance (advance { advance { (advance (append p (utf8s s)) b.length) with sub := 0x5c } 1 with
      sub := 0xabcd + 4 } 1) 3 with cp1 := n, sub := 0xabcd } : Parser σ) h.cp0 (hex4_lt hx) hn
    rw [run_hex cfg hst cb t _ _ s2.2.2.1 s2.2.2.2 rfl h.cp1 l n hx s2.2.1 hf rfl, utf8s_snoc]
    simp [advance, append, Nat.add_assoc, h.sub, h.cp1, hl4]
  | @pair b l k s hi lo hb hx hy h1 h2 h3 h4 ih =>
    intro p h hr
    have hl4 : l.length = 4 := by cases hx; rfl
    have hk4 : k.length = 4 := by cases hy; rfl
    rw [List.length_append, List.length_append, List.length_cons, List.length_cons, hl4, List.length_cons, List.length_cons, hk4] at hr
    rw [run_append, run_append, ih p h (shrink hr (by omega))]
    have hr2 := shift (x := utf8s s) (show Room cfg t p (b.length + 12) by rw [show b.length + 12 = b.length + (4 + 1 + 1) + (4 + 1 + 1) by omega]; exact hr)
    have s1 := step_adv' cfg cb t (advance (append p (utf8s s)) b.length) _ 0x5c#8 h.str h.err (sA_bs cfg cb t _ h.sub) rfl 11 hr2
    have s2 := step_adv' cfg cb t _ _ 0x75#8 s1.2.2.1 s1.2.2.2 (sA_u cfg cb t _ rfl) rfl 10 s1.2.1
    have hf := fin_hi ({ advance (advance { advance { (advance (append p (utf8s s)) b.length) with sub := 0x5c } 1 with
      sub := 0xabcd + 4 } 1) 3 with cp1 := hi, sub := 0xabcd } : Parser σ) h.cp0 ⟨h1, h2⟩
    have hh := run_hex cfg hst cb t _ _ s2.2.2.1 s2.2.2.2 rfl h.cp1 l hi hx (shrink s2.2.1 (by omega)) hf rfl
    have hA : run cfg cb (advance (append p (utf8s s)) b.length) (0x5c#8 :: 0x75#8 :: l) =
        { advance (append p (utf8s s)) (b.length + 6) with cp0 := hi, sub := 0xabcd - 2, cp1 := 0 } := by
      rw [run_cons, s1.1, run_cons, s2.1, hh]
      simp [advance, append, Nat.add_assoc]
    show run cfg cb (run cfg cb _ (0x5c#8 :: 0x75#8 :: l)) (0x5c#8 :: 0x75#8 :: k) = _
    rw [hA]
    have hr3 : Room cfg t ({ advance (append p (utf8s s)) (b.length + 6) with cp0 := hi, sub := 0xabcd - 2, cp1 := 0 } : Parser σ) 6 :=
      shift (p := p) (m := b.length + 6) (n := 6) (x := utf8s s) hr
    have s3 := step_adv' cfg cb t ({ advance (append p (utf8s s)) (b.length + 6) with cp0 := hi, sub := 0xabcd - 2, cp1 := 0 } : Parser σ) _ 0x5c#8 (h.str.keep rfl) h.err (sA_hi1 cfg cb t _ rfl) rfl 5 hr3
    have s4 := step_adv' cfg cb t _ _ 0x75#8 s3.2.2.1 s3.2.2.2 (sA_hi2 cfg cb t _ rfl) rfl 4 s3.2.1
    rw [run_cons, s3.1, run_cons, s4.1]
    have hf2 := fin_pair ({ advance (advance { advance { ({ advance (append p (utf8s s)) (b.length + 6) with cp0 := hi, sub := 0xabcd - 2, cp1 := 0 } : Parser σ) with sub := 0xabcd - 1 } 1 with
      sub := 0xabcd + 4 } 1) 3 with cp1 := lo, sub := 0xabcd } : Parser σ) ⟨h1, h2⟩ ⟨h3, h4⟩
    rw [run_hex cfg hst cb t _ _ s4.2.2.1 s4.2.2.2 rfl rfl k lo hy s4.2.1 hf2 rfl, utf8s_snoc]
    simp [advance, append, Nat.add_assoc, h.sub, h.cp1, h.cp0, hl4, hk4]

/-! ### Nothing else -/

/-- Hexadecimal digits read so far: how many are missing, the digits, their value. -/
inductive HexPart : Nat → List Byte → Nat → Prop
  | four : HexPart 4 [] 0
  | three {a : Byte} {i : Nat} : Hex a i → HexPart 3 [a] i
  | two {a b : Byte} {i j : Nat} : Hex a i → Hex b j → HexPart 2 [a, b] (i * 16 + j)
  | one {a b c : Byte} {i j k : Nat} : Hex a i → Hex b j → Hex c k → HexPart 1 [a, b, c] ((i * 16 + j) * 16 + k)

theorem HexPart.range {k v : Nat} {l : List Byte} (h : HexPart k l v) : 1 ≤ k ∧ k ≤ 4 := by cases h <;> omega

theorem HexPart.next {k v x : Nat} {l : List Byte} {c : Byte} (h : HexPart k l v) (hx : Hex c x) (hk : k ≠ 1) :
    HexPart (k - 1) (l ++ [c]) (v * 16 + x) := by
  cases h with
  | four => rw [Nat.zero_mul, Nat.zero_add]; exact .three hx
  | three a => exact .two a hx
  | two a b => exact .one a b hx
  | one a b c => exact absurd rfl hk

theorem HexPart.last {v x : Nat} {l : List Byte} {c : Byte} (h : HexPart 1 l v) (hx : Hex c x) :
    Hex4 (l ++ [c]) (v * 16 + x) := by
  cases h with
  | one ha hb hc =>
    rename_i a b d i j k
    have := Hex4.mk ha hb hc hx
    have e : ((i * 16 + j) * 16 + k) * 16 + x = i * 4096 + j * 256 + k * 16 + x := by omega
    rw [e]; exact this

/-- What the substate, the two code units and the buffer tell of the bytes after the opening quote. -/
inductive StrInv : Nat → Nat → Nat → List Byte → List Byte → Prop
  | text {b : List Byte} {s : List Nat} : Body b s → StrInv 0 0 0 (utf8s s) b
  | part {b l : List Byte} {s : List Nat} {k : Nat} : Body b s → Part k l → StrInv k 0 0 (utf8s s ++ l) (b ++ l)
  | bs {b : List Byte} {s : List Nat} : Body b s → StrInv 0x5c 0 0 (utf8s s) (b ++ [ch '\\'])
  | hex {b l : List Byte} {s : List Nat} {k v : Nat} : Body b s → HexPart k l v →
      StrInv (0xabcd + k) 0 v (utf8s s) (b ++ ch '\\' :: ch 'u' :: l)
  | hi {b h : List Byte} {s : List Nat} {hi : Nat} : Body b s → Hex4 h hi → 0xd800 ≤ hi → hi < 0xdc00 →
      StrInv (0xabcd - 2) hi 0 (utf8s s) (b ++ ch '\\' :: ch 'u' :: h)
  | hi1 {b h : List Byte} {s : List Nat} {hi : Nat} : Body b s → Hex4 h hi → 0xd800 ≤ hi → hi < 0xdc00 →
      StrInv (0xabcd - 1) hi 0 (utf8s s) (b ++ (ch '\\' :: ch 'u' :: h) ++ [ch '\\'])
  | lohex {b h l : List Byte} {s : List Nat} {hi k v : Nat} : Body b s → Hex4 h hi → 0xd800 ≤ hi → hi < 0xdc00 →
      HexPart k l v →
      StrInv (0xabcd + k) hi v (utf8s s) (b ++ (ch '\\' :: ch 'u' :: h) ++ ch '\\' :: ch 'u' :: l)

/-- A strict step that is neither failure nor repetition. -/
theorem strChar_strict (cfg : Config) (cb : Callback σ) (t : JType) (p q : Parser σ) (c : Byte) :
    strChar cfg cb t false false p c ≠ .again q := by
  unfold strChar illSurrogate
  simp only [Bool.false_eq_true, if_false]
  intro h
  repeat' split at h
  all_goals first
    | (cases h; done)
    | (rename_i hq _ _; cases hq; done)
    | (rename_i hq; cases hq; done)
    | (rcases fin_shape _ with ⟨q', hq, _⟩ | ⟨q', hq⟩ <;> (rw [hq] at h; cases h))

theorem strChar_closed (cfg : Config) (cb : Callback σ) (t : JType) (p q : Parser σ) (c : Byte)
    (h : strChar cfg cb t false false p c = .closed q) :
    p.sub = 0 ∧ c = 0x22#8 ∧ q = process cfg cb (advance p 1) t p.buf := by
  by_cases hs : p.sub = 0
  · by_cases hc : c = 0x22#8
    · refine ⟨hs, hc, ?_⟩
      unfold strChar at h
      rw [if_pos hs, if_pos hc] at h
      injection h with h
      exact h.symm
    · exfalso
      unfold strChar at h
      rw [if_pos hs, if_neg hc] at h
      simp only [Bool.false_eq_true, if_false] at h
      repeat' split at h
      all_goals (cases h; done)
  · exfalso
    unfold strChar illSurrogate at h
    rw [if_neg hs] at h
    simp only [Bool.false_eq_true, if_false] at h
    repeat' split at h
    all_goals first
      | (cases h; done)
      | (rename_i hq _ _; cases hq; done)
      | (rename_i hq; cases hq; done)
      | (rcases fin_shape _ with ⟨q', hq, _⟩ | ⟨q', hq⟩ <;> (rw [hq] at h; cases h))

theorem ascii_utf8 (c : Byte) (h : c.toNat < 0x80) : utf8 c.toNat = [c] := by
  unfold utf8; rw [if_pos h, ofNat_eq (a := c) (by omega) rfl]

theorem isControl_false (c : Byte) (h : ¬ isControl c = true) : 0x20 ≤ c.toNat := by
  unfold isControl at h; simp at h; omega

/-- One more byte of a string that is not over. -/
theorem strInv_adv (cfg : Config) (hst : Strict cfg) (cb : Callback σ) (t : JType) (p q : Parser σ) (c : Byte) (b : List Byte)
    (hinv : StrInv p.sub p.cp0 p.cp1 p.buf b) (h : strCharA cfg cb t p c = .adv q) :
    StrInv q.sub q.cp0 q.cp1 q.buf (b ++ [c]) := by
  have nt : p.sub ≠ 0 → strChar cfg cb t false false p c = .adv q := by
    intro hne
    rw [strCharA_not cfg cb t p c (fun ht => hne ht.1), strict_ignore hst, strict_fix hst] at h
    exact h
  generalize hs : p.sub = sb at hinv
  generalize h0 : p.cp0 = c0 at hinv
  generalize h1 : p.cp1 = c1 at hinv
  generalize hb : p.buf = bf at hinv
  have hexstep : ∀ k v l, sb = 0xabcd + k → c1 = v → HexPart k l v →
      ∃ x, Hex c x ∧ (k ≠ 1 → q = { p with cp1 := v * 16 + x, sub := 0xabcd + (k - 1) }) ∧
        (k = 1 → finishEscape { p with cp1 := v * 16 + x, sub := 0xabcd } false false = .adv q) := by
    intro k v l hk hv hp
    have hr := hp.range
    have h2 := nt (by omega)
    unfold strChar at h2
    rw [if_neg (by omega), if_neg (by omega), if_neg (by omega), if_pos (by omega)] at h2
    cases hx : isXdigit c with
    | false => rw [hx] at h2; simp at h2
    | true =>
      rw [hx, if_neg (by decide)] at h2
      have hX := (hex_iff c (resolveXdigit c)).2 ⟨hx, rfl⟩
      refine ⟨_, hX, ?_, ?_⟩
      · intro hk1
        simp only at h2
        rw [if_neg (by omega)] at h2
        injection h2 with h2
        rw [← h2, h1, hs, hv, hk, shift_or _ _ (hex_lt hX)]
        have : 0xabcd + k - 1 = 0xabcd + (k - 1) := by omega
        rw [this]
      · intro hk1
        simp only at h2
        rw [if_pos (by omega)] at h2
        rw [h1, hs, hv, hk, hk1, shift_or _ _ (hex_lt hX)] at h2
        exact h2
  cases hinv with
  | @text b s hB =>
    by_cases ht : tight cfg t p c
    · rw [strCharA_tight cfg cb t p c ht] at h
      injection h with h
      obtain ⟨_, g1, g2, g3, g4⟩ := ht
      have ha : c.toNat < 0x80 := by
        rcases g4 with g4 | g4
        · unfold isAscii at g4; simp at g4; omega
        · rw [strict_ignore hst] at g4; cases g4
      have hc : 0x20 ≤ c.toNat := isControl_false c (by rw [g2]; decide)
      have h22 : c.toNat ≠ 0x22 := fun e => g1 ((byte_eq_iff c 0x22 (by decide)).2 e)
      have h5c : c.toNat ≠ 0x5c := fun e => g3 ((byte_eq_iff c 0x5c (by decide)).2 e)
      have hB2 := Body.raw hB (n := c.toNat) (by unfold Scalar; omega) hc h22 h5c
      have := StrInv.text hB2
      rw [utf8s_snoc, ascii_utf8 c ha] at this
      rw [← h]
      show StrInv p.sub p.cp0 p.cp1 (p.buf ++ [c]) _
      rw [hs, h0, h1, hb]
      exact this
    · rw [strCharA_not cfg cb t p c ht, strict_ignore hst, strict_fix hst] at h
      unfold strChar at h
      rw [if_pos hs] at h
      by_cases e1 : c = 0x22#8
      · rw [if_pos e1] at h; cases h
      · rw [if_neg e1] at h
        by_cases e2 : isControl c = true
        · rw [if_pos e2] at h; split at h <;> cases h
        · rw [if_neg e2] at h
          by_cases e3 : c = 0x5c#8
          · rw [if_pos e3] at h
            injection h with h
            rw [← h, e3]
            show StrInv 0x5c p.cp0 p.cp1 p.buf _
            rw [h0, h1, hb]
            exact StrInv.bs hB
          · rw [if_neg e3] at h
            cases hl : leadState c with
            | none => rw [hl] at h; simp at h
            | some k =>
              rw [hl] at h
              injection h with h
              rw [← h]
              show StrInv k p.cp0 p.cp1 (p.buf ++ [c]) _
              rw [h0, h1, hb]
              exact StrInv.part hB (part_of_lead hl)
  | @part b l s _ hB hP =>
    have hr := hP.range
    have h2 := nt (by omega)
    unfold strChar at h2
    rw [if_neg (by omega), if_pos (by omega)] at h2
    cases hl : trailState p.sub c with
    | none => rw [hl] at h2; simp at h2
    | some k =>
      rw [hl] at h2
      injection h2 with h2
      rw [hs] at hl
      rw [← h2]
      show StrInv k p.cp0 p.cp1 (p.buf ++ [c]) _
      rw [h0, h1, hb, List.append_assoc, List.append_assoc]
      rcases part_trail hP hl with ⟨_, hk⟩ | ⟨hk, n, n1, n2, n3⟩
      · exact StrInv.part hB hk
      · rw [hk, ← n3, ← utf8s_snoc]
        exact StrInv.text (Body.raw hB n1 (by omega) (by omega) (by omega))
  | @bs b s hB =>
    have h2 := nt (by omega)
    unfold strChar at h2
    rw [if_neg (by omega), if_neg (by omega), if_pos hs] at h2
    by_cases hu : c = 0x75#8
    · rw [if_pos hu] at h2
      injection h2 with h2
      rw [← h2, hu]
      show StrInv (0xabcd + 4) p.cp0 p.cp1 p.buf _
      rw [h0, h1, hb, List.append_assoc]
      exact StrInv.hex hB HexPart.four
    · rw [if_neg hu] at h2
      cases he : escapeChar c with
      | none => rw [he] at h2; simp at h2
      | some e =>
        rw [he] at h2
        injection h2 with h2
        have hm := (escapes_iff c e.toNat).2 ⟨e, he, e.isLt, (ofNat_eq e.isLt rfl).symm⟩
        have hlt := (escapes_lt hm).1
        have := StrInv.text (Body.esc hB hm)
        rw [utf8s_snoc, ascii_utf8 e hlt] at this
        rw [← h2]
        show StrInv 0 p.cp0 p.cp1 (p.buf ++ [e]) _
        rw [h0, h1, hb, List.append_assoc]
        exact this
  | @hex b l s k v hB hP =>
    obtain ⟨x, hx, f1, f2⟩ := hexstep k _ l rfl rfl hP
    by_cases hk : k = 1
    · have hf := f2 hk
      subst hk
      have h4 := hP.last hx
      have hb2 : b ++ ch '\\' :: ch 'u' :: l ++ [c] = b ++ ch '\\' :: ch 'u' :: (l ++ [c]) := by simp
      rw [hb2]
      rcases fin_shape ({ p with cp1 := c1 * 16 + x, sub := 0xabcd } : Parser σ) with ⟨q', e1, e2⟩ | ⟨q', e1⟩
      · have e2' : ¬ (0xdc00 ≤ c1 * 16 + x ∧ c1 * 16 + x < 0xe000) := by
          rcases e2 with e2 | e2
          · exact e2.2
          · exact absurd h0 e2.1
        have hlt := hex4_lt h4
        by_cases hhi : 0xd800 ≤ c1 * 16 + x ∧ c1 * 16 + x < 0xdc00
        · rw [fin_hi ({ p with cp1 := c1 * 16 + x, sub := 0xabcd } : Parser σ) h0 hhi] at hf
          injection hf with hf
          rw [← hf]
          show StrInv (0xabcd - 2) (c1 * 16 + x) 0 p.buf _
          rw [hb]
          exact StrInv.hi hB h4 hhi.1 hhi.2
        · have hsc : Scalar (c1 * 16 + x) := by unfold Scalar; omega
          rw [fin_scalar ({ p with cp1 := c1 * 16 + x, sub := 0xabcd } : Parser σ) h0 hlt hsc] at hf
          injection hf with hf
          rw [← hf]
          show StrInv 0 p.cp0 0 (p.buf ++ utf8 (c1 * 16 + x)) _
          rw [h0, hb, ← utf8s_snoc]
          exact StrInv.text (Body.uni hB h4 hsc)
      · rw [e1] at hf; cases hf
    · rw [f1 hk]
      show StrInv (0xabcd + (k - 1)) p.cp0 (c1 * 16 + x) p.buf _
      rw [h0, hb, List.append_assoc]
      exact StrInv.hex hB (hP.next hx hk)
  | @hi b hh s hv hB hX g1 g2 =>
    have h2 := nt (by omega)
    unfold strChar illSurrogate at h2
    rw [if_neg (by omega), if_neg (by omega), if_neg (by omega), if_neg (by omega), if_pos (by omega)] at h2
    by_cases hc : c = 0x5c#8
    · rw [if_pos ⟨hs, hc⟩] at h2
      injection h2 with h2
      rw [← h2, hc]
      show StrInv (0xabcd - 1) p.cp0 p.cp1 p.buf _
      rw [h0, h1, hb]
      exact StrInv.hi1 hB hX g1 g2
    · rw [if_neg (fun e => hc e.2), if_neg (by omega)] at h2
      simp at h2
  | @hi1 b hh s hv hB hX g1 g2 =>
    have h2 := nt (by omega)
    unfold strChar illSurrogate at h2
    rw [if_neg (by omega), if_neg (by omega), if_neg (by omega), if_neg (by omega), if_pos (by omega),
      if_neg (by omega)] at h2
    by_cases hc : c = 0x75#8
    · rw [if_pos ⟨hs, hc⟩] at h2
      injection h2 with h2
      rw [← h2, hc]
      show StrInv (0xabcd + 4) p.cp0 p.cp1 p.buf _
      rw [h0, h1, hb, List.append_assoc]
      exact StrInv.lohex hB hX g1 g2 HexPart.four
    · rw [if_neg (fun e => hc e.2)] at h2
      simp at h2
  | @lohex b hh l s hv k v hB hX g1 g2 hP =>
    obtain ⟨x, hx, f1, f2⟩ := hexstep k _ l rfl rfl hP
    by_cases hk : k = 1
    · have hf := f2 hk
      subst hk
      have h4 := hP.last hx
      have hb2 : b ++ (ch '\\' :: ch 'u' :: hh) ++ ch '\\' :: ch 'u' :: l ++ [c] =
        b ++ (ch '\\' :: ch 'u' :: hh) ++ (ch '\\' :: ch 'u' :: (l ++ [c])) := by simp
      rw [hb2]
      rcases fin_shape ({ p with cp1 := c1 * 16 + x, sub := 0xabcd } : Parser σ) with ⟨q', e1, e2⟩ | ⟨q', e1⟩
      · have e2' : 0xdc00 ≤ c1 * 16 + x ∧ c1 * 16 + x < 0xe000 := by
          rcases e2 with e2 | e2
          · have : p.cp0 = 0 := e2.1
            omega
          · exact e2.2
        rw [fin_pair ({ p with cp1 := c1 * 16 + x, sub := 0xabcd } : Parser σ) (show 0xd800 ≤ p.cp0 ∧ p.cp0 < 0xdc00 by omega) e2'] at hf
        injection hf with hf
        rw [← hf]
        show StrInv 0 0 0 (p.buf ++ utf8 (0x10000 + (p.cp0 - 0xd800) * 0x400 + (c1 * 16 + x - 0xdc00))) _
        rw [h0, hb, ← utf8s_snoc]
        exact StrInv.text (Body.pair hB hX h4 g1 g2 e2'.1 e2'.2)
      · rw [e1] at hf; cases hf
    · rw [f1 hk]
      show StrInv (0xabcd + (k - 1)) p.cp0 (c1 * 16 + x) p.buf _
      rw [h0, hb, List.append_assoc]
      exact StrInv.lohex hB hX g1 g2 (hP.next hx hk)

theorem StrInv.at_zero {c0 c1 : Nat} {bf b : List Byte} (h : StrInv 0 c0 c1 bf b) :
    c0 = 0 ∧ c1 = 0 ∧ ∃ s, Body b s ∧ bf = utf8s s := by
  generalize hz : (0 : Nat) = z at h
  cases h with
  | text hB => exact ⟨rfl, rfl, _, hB, rfl⟩
  | part _ hP => have := hP.range; omega
  | bs => omega
  | hex => omega
  | hi => omega
  | hi1 => omega
  | lohex => omega

/-- One byte in a string: either the string goes on, or this was the closing quote. -/
theorem str_step (cfg : Config) (hst : Strict cfg) (cb : Callback σ) (t : JType) (p : Parser σ) (c : Byte) (b : List Byte)
    (hi : InStr t p) (he : 0 ≤ p.err) (ho : StrOk p) (hinv : StrInv p.sub p.cp0 p.cp1 p.buf b)
    (h : 0 ≤ (step cfg cb p c).err) :
    (∃ q, Keep p q ∧ step cfg cb p c = advance q 1 ∧ StrInv q.sub q.cp0 q.cp1 q.buf (b ++ [c]) ∧
      (strMax cfg t = 0 ∨ p.pos.offset + 1 - p.vpos.offset ≤ strMax cfg t)) ∨
    (c = 0x22#8 ∧ p.cp0 = 0 ∧ p.cp1 = 0 ∧ (∃ s, Body b s ∧ p.buf = utf8s s) ∧
      step cfg cb p c = process cfg cb (advance p 1) t p.buf) := by
  have hok := strCharA_ok cfg cb t p c ho
  have hna : ∀ q, strCharA cfg cb t p c ≠ .again q := by
    intro q hq
    by_cases ht : tight cfg t p c
    · rw [strCharA_tight cfg cb t p c ht] at hq; cases hq
    · rw [strCharA_not cfg cb t p c ht, strict_ignore hst, strict_fix hst] at hq
      exact strChar_strict cfg cb t p q c hq
  have hs : step cfg cb p c = strOut cfg t (strCharA cfg cb t p c) := by
    rw [step_str cfg cb t p c hi he, strByte_not_again cfg cb t p c hna]
  rw [hs] at h ⊢
  cases hr : strCharA cfg cb t p c with
  | again q => exact absurd hr (hna q)
  | fail q =>
    rw [hr] at hok h
    have : (chkS cfg t q).err < 0 := by rw [chkS_of_neg cfg t q hok.1]; exact hok.1
    have h' : 0 ≤ (chkS cfg t q).err := h
    omega
  | adv q =>
    left
    rw [hr] at hok h
    refine ⟨q, hok.1, ?_, strInv_adv cfg hst cb t p q c b hinv hr, ?_⟩
    · exact (chkS_err cfg t (advance q 1) h).2
    · refine Classical.byContradiction (fun hc => ?_)
      have hn : (chkS cfg t (advance q 1)).err < 0 := by
        unfold chkS
        rw [if_pos ⟨by omega, by
          show q.pos.offset + 1 - q.vpos.offset > _
          rw [hok.1.pos, hok.1.vpos]; omega⟩]
        refine raiseAt_err_neg _ _ _ ?_
        split <;> decide
      have h' : 0 ≤ (chkS cfg t (advance q 1)).err := h
      omega
  | closed q =>
    right
    by_cases ht : tight cfg t p c
    · rw [strCharA_tight cfg cb t p c ht] at hr; cases hr
    · rw [strCharA_not cfg cb t p c ht, strict_ignore hst, strict_fix hst] at hr
      obtain ⟨g1, g2, g3⟩ := strChar_closed cfg cb t p q c hr
      rw [g1] at hinv
      obtain ⟨z0, z1, s, hB, hbf⟩ := hinv.at_zero
      refine ⟨g2, z0, z1, ⟨s, hB, hbf⟩, ?_⟩
      show chkS cfg t q = _
      rw [g3]
      exact chkS_process cfg cb t t _ _

end
end WS.Sax
