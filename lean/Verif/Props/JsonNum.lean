import Verif.Proof.JsonDump
import Verif.Props.JsonSax
/-
C52: JSON integers are classified by their value, converted exactly, and written so that they are read back.
C53: every string of Unicode characters is written as a JSON string that is read back unchanged.
-/
namespace WS.Props
open WS WS.Sax WS.Spec.Json WS.JNum

/-! ### C52 -/

/-- "-2147483649" and its value. -/
theorem sample_integer : Integer (lit "-2147483649") (-2147483649) := by
  refine ⟨lit "2147483649", 2147483649, int_of_canon ?_ (by decide) (by decide), ?_, Or.inr ⟨by decide, rfl⟩⟩
  · intro c hc
    have : ∀ c ∈ lit "2147483649", 0x30 ≤ c.toNat ∧ c.toNat ≤ 0x39 := by decide
    exact this c hc
  · have := val_dec (d := lit "2147483649") (by
      have : ∀ c ∈ lit "2147483649", 0x30 ≤ c.toNat ∧ c.toNat ≤ 0x39 := by decide
      exact this)
    rwa [show val (lit "2147483649") = 2147483649 by decide] at this

/-- C52: a JSON integer of any length is reported as fitting an integer type exactly when its value is in the
range of that type. -/
theorem C52_classified_by_value (t : List Byte) (v : Int) (h : Integer t v) :
    ((analyze t).i32 = true ↔ -2 ^ 31 ≤ v ∧ v < 2 ^ 31) ∧ ((analyze t).u32 = true ↔ 0 ≤ v ∧ v < 2 ^ 32) ∧
    ((analyze t).i64 = true ↔ -2 ^ 63 ≤ v ∧ v < 2 ^ 63) ∧ ((analyze t).u64 = true ↔ 0 ≤ v ∧ v < 2 ^ 64) := by
  rw [analyze_int h]
  unfold kindsOf
  simp only [decide_eq_true_eq]
  refine ⟨?_, ?_, ?_, ?_⟩ <;> constructor <;> rintro ⟨h1, h2⟩ <;> constructor <;> omega

example : (analyze (lit "-2147483649")).i32 = false ∧ (analyze (lit "-2147483649")).i64 = true := by
  have h := C52_classified_by_value _ _ sample_integer
  exact ⟨by rw [Bool.eq_false_iff, ne_eq, h.1]; omega, h.2.2.1.2 (by omega)⟩

/-- C52: a JSON number with a fraction or an exponent is never reported as an integer, whatever its value. -/
theorem C52_fraction_is_no_integer (t : List Byte) (h : ch '.' ∈ t ∨ ch 'e' ∈ t ∨ ch 'E' ∈ t) : analyze t = {} := by
  unfold analyze
  split
  · have hm : ∀ x : Byte, x ≠ 0x2d#8 → x ∈ t →
        x ∈ (if t.length = 2 ∧ t[0]? = some 0x2d#8 ∧ t[1]? = some 0x30#8 then t.tail else t) := by
      intro x hx hm
      split
      · rename_i hc
        cases t with
        | nil => simp at hm
        | cons c t =>
          rcases List.mem_cons.1 hm with rfl | hm
          · exact absurd (by simpa using hc.2.1) hx
          · exact hm
      · exact hm
    simp only
    rw [if_neg]
    rintro ⟨h1, h2, h3⟩
    rcases h with h | h | h
    · exact h1 (hm _ (by decide) h)
    · exact h2 (hm _ (by decide) h)
    · exact h3 (hm _ (by decide) h)
  · rfl

example : analyze (lit "1.0") = {} := C52_fraction_is_no_integer _ (Or.inl (by decide))

/-- C52: conversion to a signed 64-bit integer gives the value of every JSON integer in range, the smallest included,
without overflow. -/
theorem C52_signed_value (t : List Byte) (v : Int) (h : Integer t v) (h1 : -2 ^ 63 ≤ v) (h2 : v < 2 ^ 63) : toI64 t = some v :=
  toI64_int h (by omega) (by omega)

example : toI64 (lit "-9223372036854775808") = some (-9223372036854775808) ∧ toI64 (lit "-2147483649") = some (-2147483649) :=
  ⟨by decide, C52_signed_value _ _ sample_integer (by omega) (by omega)⟩

/-- C52: conversion to an unsigned 64-bit integer gives the value of every JSON integer in range. -/
theorem C52_unsigned_value (t : List Byte) (v : Int) (h : Integer t v) (h1 : 0 ≤ v) (h2 : v < 2 ^ 64) :
    ((toU64 t).toNat : Int) = v := by
  by_cases h0 : t.head? = some 0x2d#8
  · obtain ⟨d, n, hd, hn, hc⟩ := h
    rcases hc with ⟨rfl, rfl⟩ | ⟨rfl, rfl⟩
    · have := canon_head (canon_of_int hd)
      rw [h0] at this; simp at this
    · have : n = 0 := by omega
      subst this
      rfl
  · rw [toU64_int h h0, BitVec.toNat_ofInt]
    omega

example : Integer (lit "0") 0 := ⟨_, 0, IntPart.zero, by simpa [ch] using Dec.snoc (k := 0) Dec.nil (by omega), Or.inl ⟨by decide, rfl⟩⟩

/-- C52: the 32-bit conversions give the value of every JSON integer in range. -/
theorem C52_32_bits (t : List Byte) (v : Int) (h : Integer t v) :
    (-2 ^ 31 ≤ v → v < 2 ^ 31 → toI32 t = some v) ∧ (0 ≤ v → v < 2 ^ 32 → ((toU32 t).toNat : Int) = v) := by
  constructor
  · intro h1 h2
    unfold toI32
    rw [C52_signed_value t v h (by omega) (by omega), Option.map_some, BitVec.toInt_ofInt]
    congr 1
    unfold Int.bmod
    simp only
    split <;> omega
  · intro h1 h2
    have := C52_unsigned_value t v h h1 (by omega)
    unfold toU32
    rw [BitVec.toNat_setWidth]
    omega

example : toI32 (lit "-2147483648") = some (-2147483648) ∧ (toU32 (lit "4294967295")).toNat = 4294967295 := by decide

/-- C52: beyond the range, conversion to an unsigned 64-bit integer is modulo 2^64, so the caller has to ask for the
classification first. -/
theorem C52_unsigned_wraps (t : List Byte) (v : Int) (h : Integer t v) (h0 : t.head? ≠ some (ch '-')) :
    ((toU64 t).toNat : Int) = v % 2 ^ 64 := by
  rw [toU64_int h h0, BitVec.toNat_ofInt]
  omega

example : (toU64 (lit "18446744073709551616")).toNat = 0 := by decide

/-- C52: every signed 64-bit integer is written, within the 32-byte buffer, as the JSON integer with that value. -/
theorem C52_write_signed (i : Int) (h1 : -2 ^ 63 ≤ i) (h2 : i < 2 ^ 63) : ∃ t, dumpI64 i = some t ∧ Integer t i ∧ t.length ≤ 20 :=
  dumpI64_int (by omega) (by omega)

example : dumpI64 (-9223372036854775808) = some (lit "-9223372036854775808") := by decide

/-- C52: every unsigned 64-bit integer is written as the JSON integer with that value. -/
theorem C52_write_unsigned (u : Nat) (h : u < 2 ^ 64) : ∃ t, dumpU64 u = some t ∧ Integer t u ∧ t.length ≤ 20 := dumpU64_int h

example : dumpU64 18446744073709551615 = some (lit "18446744073709551615") := by decide

theorem integer_number {t : List Byte} {v : Int} (h : Integer t v) : Number t := by
  obtain ⟨d, n, hd, _, hc⟩ := h
  rcases hc with ⟨rfl, _⟩ | ⟨rfl, _⟩
  · exact ⟨[], t, [], [], by simp, Or.inl rfl, hd, Or.inl rfl, Or.inl rfl⟩
  · exact ⟨[ch '-'], d, [], [], by simp, Or.inr rfl, hd, Or.inl rfl, Or.inl rfl⟩

/-- A one-element array is a document with three events. -/
theorem array_doc (cfg : Config) (t : List Byte) (e : Event) (hv : Value cfg 1 t [e])
    (hl : Within cfg.maxTotalLen (t.length + 2)) (hn : Within cfg.maxNesting 1) (ht : Within cfg.maxTotalValues 2)
    (hr : cfg.flags.getLsbD 4 = false) (he : e.type ≠ .arrayEnd ∧ e.type ≠ .objectEnd) :
    Document cfg (ch '[' :: t ++ [ch ']']) [⟨.arrayBeg, []⟩, e, ⟨.arrayEnd, []⟩] := by
  refine ⟨⟨[], _, [], by simp, by intro c hc; simp at hc, by intro c hc; simp at hc,
    Value.array (e := [e]) hn (Elements.one (w1 := []) (w2 := []) (by intro c hc; simp at hc) hv (by intro c hc; simp at hc))⟩, ?_, ?_, ?_⟩
  · simpa using hl
  · have : count [⟨.arrayBeg, []⟩, e, ⟨.arrayEnd, []⟩] = 2 := by
      have h1 : (e.type != .arrayEnd && e.type != .objectEnd) = true := by simp [he.1, he.2]
      simp [count, h1]
    rw [this]; exact ht
  · intro x hx
    injection hx with hx
    rw [← hx]
    show ¬ cfg.flags.getLsbD 4 = true
    rw [hr]; decide

/-- C52: writing any signed 64-bit integer into a JSON text and parsing the text, in any chunks, gives back the
integer: the parser reports a number whose text is classified as a 64-bit integer and converted to the same value. -/
theorem C52_write_then_read {σ : Type} (cfg : Config) (hst : Strict cfg) (cb : Callback σ) (u : σ)
    (hcb : ∀ u e v q, 0 ≤ (cb u e v q).2.1) (hl : Within cfg.maxTotalLen 22) (hn : Within cfg.maxNesting 1)
    (ht : Within cfg.maxTotalValues 2) (hm : Within cfg.maxNumberLen 20) (hr : cfg.flags.getLsbD 4 = false)
    (i : Int) (h1 : -2 ^ 63 ≤ i) (h2 : i < 2 ^ 63) :
    ∃ t, dumpI64 i = some t ∧ (analyze t).i64 = true ∧ toI64 t = some i ∧
      ∀ chunks : List (List Byte), chunks.flatten = ch '[' :: t ++ [ch ']'] → 0 ≤ (parse cfg cb u chunks).ret ∧
        Calls cb u [⟨.arrayBeg, []⟩, ⟨.number, t⟩, ⟨.arrayEnd, []⟩] (parse cfg cb u chunks).user := by
  obtain ⟨t, e1, e2, e3⟩ := C52_write_signed i h1 h2
  refine ⟨t, e1, (C52_classified_by_value t i e2).2.2.1.2 ⟨h1, h2⟩, C52_signed_value t i e2 h1 h2, fun chunks hc => ?_⟩
  have hv : Value cfg 1 t [⟨.number, t⟩] := Value.number (integer_number e2) (by unfold Within at hm ⊢; omega)
  have := array_doc cfg t ⟨.number, t⟩ hv (by unfold Within at hl ⊢; omega) hn ht hr ⟨by simp, by simp⟩
  rw [← hc] at this
  exact C49_json_is_accepted cfg hst cb u hcb chunks _ this

example : ∃ t, dumpI64 (-42) = some t ∧ (analyze t).i64 = true ∧ toI64 t = some (-42) ∧
    ∀ chunks : List (List Byte), chunks.flatten = ch '[' :: t ++ [ch ']'] → 0 ≤ (parse loaderConfig record [] chunks).ret ∧
      Calls record [] [⟨.arrayBeg, []⟩, ⟨.number, t⟩, ⟨.arrayEnd, []⟩] (parse loaderConfig record [] chunks).user :=
  C52_write_then_read loaderConfig loader_strict record [] record_nonneg (Or.inl rfl) (Or.inr (by decide)) (Or.inl rfl)
    (Or.inr (by decide)) (by decide) (-42) (by decide) (by decide)

/-! ### C53 -/

/-- C53: a string of Unicode characters (given in UTF-8) is written as a JSON string for these characters; what is
written does not depend on the write function, which is called for consecutive pieces of that text until it first
returns a negative code, and that code is the result. -/
theorem C53_written_as_json_string (s : List Nat) (hs : ∀ n ∈ s, Scalar n) :
    ∃ (b : List Byte) (pieces : List (List Byte)), Body b s ∧ b.length ≤ 6 * (utf8s s).length ∧
      pieces.flatten = ch '"' :: b ++ [ch '"'] ∧
      ∀ {σ : Type} (w : Write σ) (u : σ), dumpString w u (utf8s s) = writeAll w u pieces := by
  obtain ⟨ps, h1, h2⟩ := dumpString_pieces (utf8s s)
  exact ⟨_, ps, body_dump s hs, esc1_len _, h1, h2⟩

example : (dumpString (fun u b => (u ++ b, (0 : Int))) [] (lit "a\"\n\x01")).1 = lit "\"a\\\"\\n\\u0001\"" := by
  simp only [dumpString, dumpStrLoop]
  decide +kernel

/-- C53: writing any string of Unicode characters and parsing the text, in any chunks, gives back the same bytes. -/
theorem C53_write_then_read {σ : Type} (cfg : Config) (hst : Strict cfg) (cb : Callback σ) (u : σ)
    (hcb : ∀ u e v q, 0 ≤ (cb u e v q).2.1) (s : List Nat) (hs : ∀ n ∈ s, Scalar n)
    (hl : Within cfg.maxTotalLen (6 * (utf8s s).length + 4)) (hn : Within cfg.maxNesting 1)
    (ht : Within cfg.maxTotalValues 2) (hm : Within cfg.maxStringLen (6 * (utf8s s).length)) (hr : cfg.flags.getLsbD 4 = false)
    (out : List Byte) (ho : dumpString (fun u b => (u ++ b, (0 : Int))) [] (utf8s s) = (out, 0))
    (chunks : List (List Byte)) (hc : chunks.flatten = ch '[' :: out ++ [ch ']']) :
    0 ≤ (parse cfg cb u chunks).ret ∧
      Calls cb u [⟨.arrayBeg, []⟩, ⟨.string, utf8s s⟩, ⟨.arrayEnd, []⟩] (parse cfg cb u chunks).user := by
  obtain ⟨b, ps, h1, h2, h3, h4⟩ := C53_written_as_json_string s hs
  have hw : ∀ (ps : List (List Byte)) (v : List Byte), writeAll (fun u b => (u ++ b, (0 : Int))) v ps = (v ++ ps.flatten, 0) := by
    intro ps
    induction ps with
    | nil => intro v; simp [writeAll]
    | cons p ps ih => intro v; simp [writeAll, ih]
  rw [h4, hw] at ho
  have ho' : out = ch '"' :: b ++ [ch '"'] := by
    have := (Prod.mk.injEq _ _ _ _ ▸ ho).1
    rw [← this, List.nil_append, h3]
  have hv : Value cfg 1 out [⟨.string, utf8s s⟩] := by
    rw [ho']; exact Value.string h1 (by unfold Within at hm ⊢; omega)
  have hlen : out.length = b.length + 2 := by rw [ho']; simp
  have := array_doc cfg out ⟨.string, utf8s s⟩ hv (by unfold Within at hl ⊢; omega) hn ht hr ⟨by simp, by simp⟩
  rw [← hc] at this
  exact C49_json_is_accepted cfg hst cb u hcb chunks _ this

theorem sample_dump : dumpString (fun u b => (u ++ b, (0 : Int))) [] (utf8s [0x22, 0xe9, 0x0a]) =
    ([0x22#8, 0x5c#8, 0x22#8, 0xc3#8, 0xa9#8, 0x5c#8, 0x6e#8, 0x22#8], 0) := by
  have : utf8s [0x22, 0xe9, 0x0a] = [0x22#8, 0xc3#8, 0xa9#8, 0x0a#8] := by decide
  rw [this]
  simp [dumpString, dumpStrLoop, needsEscape, escape, lit]

example : 0 ≤ (parse loaderConfig record [] [[ch '[', 0x22#8, 0x5c#8], [0x22#8, 0xc3#8], [0xa9#8, 0x5c#8, 0x6e#8, 0x22#8, ch ']']]).ret :=
  (C53_write_then_read loaderConfig loader_strict record [] record_nonneg [0x22, 0xe9, 0x0a]
    (by intro n hn; unfold Scalar; simp at hn; omega) (Or.inl rfl) (Or.inr (by decide)) (Or.inl rfl) (Or.inr (by decide))
    (by decide) _ sample_dump _ (by decide)).1

end WS.Props
