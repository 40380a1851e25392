import Verif.Proof.Codec
/-
Properties C34 (result codes), C35 (clock conversions), C36 (base64).
-/
namespace WS.Props
open WS

/-! ## C34 — result codes -/
section C34
open ErrCode

/-- C34: decoding an encoded result returns the code, the source id and the line, and the
encoded value fits in `int32_t`. -/
theorem C34_roundtrip (x : Int) (line src : Nat)
    (hx : -255 ≤ x ∧ x ≤ 255) (hl : line ≤ 65535) (hs : src ≤ 127) :
    decodeCode (encode x line src) = x ∧
    decodeSource (encode x line src) = src ∧ decodeLine (encode x line src) = line ∧
    -2147483648 < encode x line src ∧ encode x line src ≤ 2147483647 := by
  unfold encode
  by_cases h : x < 0
  · have hm : (-x).toNat ≤ 255 := by omega
    simp only [if_pos h, pack_eq _ _ _ hm hl hs]
    have hneg : -(((-x).toNat + line * 256 + src * 16777216 : Nat) : Int) < 0 := by omega
    unfold decodeCode decodeSource decodeLine
    simp only [if_pos hneg, and255, and65535, Nat.shiftRight_eq_div_pow]
    refine ⟨by omega, by omega, by omega, by omega, by omega⟩
  · have hm : x.toNat ≤ 255 := by omega
    simp only [if_neg h, pack_eq _ _ _ hm hl hs]
    have hpos : ¬ ((x.toNat + line * 256 + src * 16777216 : Nat) : Int) < 0 := by omega
    unfold decodeCode decodeSource decodeLine
    simp only [if_neg hpos, and255, and65535, Nat.shiftRight_eq_div_pow]
    refine ⟨by omega, by omega, by omega, by omega, by omega⟩

example : decodeCode (encode (-17) 1265 3) = -17 ∧ decodeSource (encode (-17) 1265 3) = 3 ∧
    decodeLine (encode (-17) 1265 3) = 1265 := by decide

/-- C34: the sign tells failure from success: an encoded result is negative exactly when the
bare code is. -/
theorem C34_sign (x : Int) (line src : Nat)
    (hx : -255 ≤ x ∧ x ≤ 255) (hl : line ≤ 65535) (hs : src ≤ 127) :
    isFailure (encode x line src) = true ↔ x < 0 := by
  unfold isFailure encode
  by_cases hneg : x < 0
  · have hm : (-x).toNat ≤ 255 := by omega
    rw [if_pos hneg, pack_eq _ _ _ hm hl hs, decide_eq_true_eq]
    omega
  · rw [if_neg hneg, decide_eq_true_eq]; omega

/-- C34: distinct (code, line, source) triples encode to distinct values, so a result names
one failure site. -/
theorem C34_injective (x y : Int) (l m s t : Nat)
    (hx : -255 ≤ x ∧ x ≤ 255) (hl : l ≤ 65535) (hs : s ≤ 127)
    (hy : -255 ≤ y ∧ y ≤ 255) (hm : m ≤ 65535) (ht : t ≤ 127)
    (h : encode x l s = encode y m t) : x = y ∧ l = m ∧ s = t := by
  have a := C34_roundtrip x l s hx hl hs
  have b := C34_roundtrip y m t hy hm ht
  have hxy : x = y := by rw [← a.1, ← b.1, h]
  obtain ⟨-, as, al, -⟩ := a
  obtain ⟨-, bs, bl, -⟩ := b
  rw [h] at as al
  exact ⟨hxy, al.symm.trans bl, as.symm.trans bs⟩

example : encode (-8) 100 1 ≠ encode (-8) 101 1 := by decide

/-- C34: re-encoding a result at another place keeps its meaning. -/
theorem C34_recode (x : Int) (l s l' s' : Nat) (hx : -255 ≤ x ∧ x ≤ 255)
    (hl : l ≤ 65535) (hs : s ≤ 127) (hl' : l' ≤ 65535) (hs' : s' ≤ 127) :
    recode (encode x l s) l' s' = encode x l' s' ∧
    decodeCode (recode (encode x l s) l' s') = x := by
  unfold recode
  rw [(C34_roundtrip x l s hx hl hs).1]
  exact ⟨rfl, (C34_roundtrip x l' s' hx hl' hs').1⟩

end C34

/-! ## C35 — clock conversions -/
section C35
open Time

/-- C35 (every representable time): converting a time to seconds and nanoseconds always
succeeds, the parts recombine to the time, and converting back returns it. -/
theorem C35_to_from (t : Int) (ht : InI64 t) :
    ∃ s n, toEpoch t = .ok (s, n) ∧ s * 1000000 + n / 1000 = t ∧ -1000000000 < n ∧ n < 1000000000 ∧
      fromEpoch s n = .ok t := by
  unfold InI64 I64_MIN I64_MAX at ht
  have hd := tdiv_cases t 1000000
  have hm := tmod_eq t 1000000
  have hn := tdiv_cases (t.tmod 1000000 * 1000) 1000
  have hk : Int.tdiv 9223372036854775807 1000000 = 9223372036854 := by decide
  refine ⟨t.tdiv 1000000, t.tmod 1000000 * 1000, ?_, ?_, ?_, ?_, ?_⟩
  · unfold toEpoch chk I64_MIN I64_MAX Res.bind
    rw [if_neg (by omega), if_pos (by omega)]
    simp only
    rw [if_pos (by omega)]
  · omega
  · omega
  · omega
  · unfold fromEpoch chk I64_MIN I64_MAX Res.bind
    rw [if_neg (by omega), if_pos (by omega)]
    simp only
    rw [if_pos (by omega)]
    congr 1; omega

/-- C35, forward direction, non-negative seconds (partial: for negative seconds with positive
nanoseconds the result comes back in a different, negative-nanosecond form, see
`C35_negative_seconds_fails`): a successful conversion comes back truncated to microseconds. -/
theorem C35_from_to_partial (s n t : Int) (hs : 0 ≤ s) (hn : 0 ≤ n ∧ n < 1000000000)
    (h : fromEpoch s n = .ok t) : toEpoch t = .ok (s, n / 1000 * 1000) := by
  unfold fromEpoch chk I64_MIN I64_MAX Res.bind at h
  split at h
  · simp at h
  split at h
  · rename_i h1 _ a h2
    split at h2
    · simp only [Res.ok.injEq] at h2
      subst h2
      simp only at h
      split at h
      · simp only [Res.ok.injEq] at h
        subst h
        have hn' := tdiv_cases n 1000
        have hd := tdiv_cases (s * 1000000 + n.tdiv 1000) 1000000
        have hm := tmod_eq (s * 1000000 + n.tdiv 1000) 1000000
        unfold toEpoch chk I64_MIN I64_MAX Res.bind
        rw [if_neg (by omega), if_pos (by omega)]
        simp only
        rw [if_pos (by omega)]
        have e1 : (s * 1000000 + n.tdiv 1000).tdiv 1000000 = s := by omega
        have e2 : (s * 1000000 + n.tdiv 1000).tmod 1000000 * 1000 = n / 1000 * 1000 := by omega
        rw [e1, e2]
      · simp at h
    · simp at h2
  · simp at h
  · simp at h

example : fromEpoch 1700000000 123456789 = .ok 1700000000123456 ∧
    toEpoch 1700000000123456 = .ok (1700000000, 123456000) := by decide

/-- The unrestricted forward round trip is false of the code. -/
theorem C35_negative_seconds_fails :
    fromEpoch (-1) 500000000 = .ok (-500000) ∧ toEpoch (-500000) = .ok (0, -500000000) := by decide

/-- C35: seconds beyond the representable range are refused. -/
theorem C35_too_big_refused (s n : Int) (h : 9223372036854 < s) :
    fromEpoch s n = .err .numericArgTooBig := by
  unfold fromEpoch I64_MAX
  have hk : Int.tdiv 9223372036854775807 1000000 = 9223372036854 := by decide
  rw [if_pos (by omega)]

/-- C35 (partial: the code checks only the upper bound of the seconds, see the two witnesses
below): within a safe range the conversion is defined and exact. -/
theorem C35_no_overflow_partial (s n : Int) (hs : -9223372036854 ≤ s ∧ s < 9223372036854)
    (hn : 0 ≤ n ∧ n < 1000000000) : fromEpoch s n = .ok (s * 1000000 + n / 1000) := by
  have hn' := tdiv_cases n 1000
  have hk : Int.tdiv 9223372036854775807 1000000 = 9223372036854 := by decide
  unfold fromEpoch chk I64_MIN I64_MAX Res.bind
  rw [if_neg (by omega), if_pos (by omega)]
  simp only
  rw [if_pos (by omega)]
  congr 1; omega

/-- Witnesses that "out of range is refused" fails: signed overflow (undefined behaviour) for
very negative seconds, and for the last accepted second with large nanoseconds. -/
theorem C35_overflow_reachable :
    fromEpoch (-9223372036855) 0 = .ub ∧ fromEpoch 9223372036854 999999999 = .ub := by decide

/-- C35: intervals and sums are mutually inverse whenever they are representable. -/
theorem C35_add_diff (a b d : Int) (ha : InI64 a) :
    diffTime a b = .ok d → addTime b d = .ok a := by
  unfold diffTime addTime chk
  intro h
  split at h
  · simp only [Res.ok.injEq] at h; subst h
    rw [show b + (a - b) = a by omega]; exact if_pos ha
  · simp at h

theorem C35_diff_add (a b s : Int) (hb : InI64 b) :
    addTime a b = .ok s → diffTime s a = .ok b := by
  unfold diffTime addTime chk
  intro h
  split at h
  · simp only [Res.ok.injEq] at h; subst h
    rw [show a + b - a = b by omega]; exact if_pos hb
  · simp at h

example : diffTime 1700000000000000 1600000000000000 = .ok 100000000000000 := by decide

end C35

/-! ## C36 — base64 -/
section C36
open Base64
open WS.Spec.Base64

/-- C36: decoding the RFC 4648 encoding of any byte string (padded or not), with or without
junk tolerance, returns that byte string, provided the buffer has the advertised size. -/
theorem C36_decode_encode (bs : List Nat) (hb : ∀ b ∈ bs, b < 256) (pad ignoreJunk : Bool)
    (spc : Nat) (hspc : bufspc (encode pad bs) ≤ spc) :
    decode (encode pad bs) spc ignoreJunk = .ok bs := by
  unfold decode
  rw [if_neg (by omega)]
  have := decode_core ignoreJunk pad bs hb []
  rw [List.nil_append] at this
  exact this

example : decode (encode true [77, 97, 110, 33]) 6 false = .ok [77, 97, 110, 33] ∧
    encode true [77, 97, 110, 33] = [84, 87, 70, 117, 73, 81, 61, 61] := by decide

/-- C36: whatever the text, and whether the call succeeds or fails, the bytes stored never
exceed the space the caller declared. -/
theorem C36_never_overflows (src : List Nat) (spc : Nat) (ignoreJunk : Bool) :
    (stored (decode src spc ignoreJunk)).length ≤ spc :=
  decode_written_le src spc ignoreJunk

/-- C36: a buffer below the advertised size is refused before anything is written. -/
theorem C36_small_buffer (src : List Nat) (spc : Nat) (ignoreJunk : Bool) (h : spc < bufspc src) :
    decode src spc ignoreJunk = .error (.bufferTooSmall, []) := by
  unfold decode; rw [if_pos h]

/-- C36: the advertised size is exactly the decoded length for padded encodings. -/
theorem C36_bufspc_exact (bs : List Nat) : bufspc (encode true bs) = bs.length := by
  have len : ∀ bs : List Nat, (encode true bs).length = (bs.length + 2) / 3 * 4 := by
    intro bs
    induction bs using encode.induct with
    | case1 => simp [encode]
    | case2 => simp [encode]
    | case3 => simp [encode]
    | case4 a b c rest ih => simp only [encode, List.length_append, List.length_cons, List.length_nil, ih]; omega
  have alpha : ∀ v, alphabet v ≠ 61 := by
    intro v; unfold alphabet; repeat' split
    all_goals omega
  have suffix : ∀ bs : List Nat, (encode true bs) = [] ∨
      (bs.length % 3 = 0 ∧ ∃ p x y, encode true bs = p ++ [x, y] ∧ x ≠ 61 ∧ y ≠ 61) ∨
      (bs.length % 3 = 1 ∧ ∃ p, encode true bs = p ++ [61, 61]) ∨
      (bs.length % 3 = 2 ∧ ∃ p x, encode true bs = p ++ [x, 61] ∧ x ≠ 61) := by
    intro bs
    induction bs using encode.induct with
    | case1 => simp [encode]
    | case2 a => right; right; left; exact ⟨by simp, [_, _], rfl⟩
    | case3 a b => right; right; right; exact ⟨by simp, [_, _], _, rfl, alpha _⟩
    | case4 a b c rest ih =>
      have hl : (a :: b :: c :: rest).length % 3 = rest.length % 3 := by simp only [List.length_cons]; omega
      rw [hl]
      simp only [encode]
      rcases ih with h | ⟨h, p, x, y, e, hx, hy⟩ | ⟨h, p, e⟩ | ⟨h, p, x, e, hx⟩
      · right; left
        have : rest = [] := by
          match rest, h with
          | [], _ => rfl
          | [a], h => simp [encode] at h
          | [a, b], h => simp [encode] at h
          | a :: b :: c :: r, h => simp [encode] at h
        subst this
        exact ⟨by simp, [_, _], _, _, rfl, alpha _, alpha _⟩
      · right; left; exact ⟨h, _ ++ p, x, y, by rw [e, List.append_assoc], hx, hy⟩
      · right; right; left; exact ⟨h, _ ++ p, by rw [e, List.append_assoc]⟩
      · right; right; right; exact ⟨h, _ ++ p, x, by rw [e, List.append_assoc], hx⟩
  have hlen := len bs
  have hle : bs.length = 0 ∨ 4 ≤ (encode true bs).length := by omega
  unfold bufspc
  rcases suffix bs with h | ⟨h, p, x, y, e, hx, hy⟩ | ⟨h, p, e⟩ | ⟨h, p, x, e, hx⟩
  · rw [h] at hlen ⊢; simp at hlen ⊢; omega
  · rw [e] at hlen ⊢
    simp only [List.length_append, List.length_cons, List.length_nil] at hlen ⊢
    have g1 : (p ++ [x, y])[p.length + (0 + 1 + 1) - 1]? = some y := by
      rw [List.getElem?_append_right (by omega)]; simp
    have g2 : (p ++ [x, y])[p.length + (0 + 1 + 1) - 2]? = some x := by
      rw [List.getElem?_append_right (by omega)]; simp
    rw [g1, g2]
    simp only [Option.some.injEq, hx, hy, if_false, ite_self]
    omega
  · rw [e] at hlen ⊢
    simp only [List.length_append, List.length_cons, List.length_nil] at hlen ⊢
    have g1 : (p ++ [61, 61])[p.length + (0 + 1 + 1) - 1]? = some 61 := by
      rw [List.getElem?_append_right (by omega)]; simp
    have g2 : (p ++ [61, 61])[p.length + (0 + 1 + 1) - 2]? = some 61 := by
      rw [List.getElem?_append_right (by omega)]; simp
    rw [g1, g2]
    simp only [if_true]
    split <;> split <;> omega
  · rw [e] at hlen ⊢
    simp only [List.length_append, List.length_cons, List.length_nil] at hlen ⊢
    have g1 : (p ++ [x, 61])[p.length + (0 + 1 + 1) - 1]? = some 61 := by
      rw [List.getElem?_append_right (by omega)]; simp
    have g2 : (p ++ [x, 61])[p.length + (0 + 1 + 1) - 2]? = some x := by
      rw [List.getElem?_append_right (by omega)]; simp
    rw [g1, g2]
    simp only [Option.some.injEq, hx, if_false, if_true, ite_self]
    split <;> omega

/-- C36: with junk tolerance, characters outside the alphabet ahead of the padding are
skipped: the text decodes as if they were not there. -/
theorem C36_junk_skipped (t : List Nat) (spc spc' : Nat) (h : bufspc t ≤ spc)
    (h' : bufspc (stripJunk t) ≤ spc') :
    decode t spc true = decode (stripJunk t) spc' true := by
  unfold decode
  rw [if_neg (by omega), if_neg (by omega)]
  obtain ⟨hs, hu, -⟩ := split_pad t
  have e : loop true t {} = loop true (stripJunk t) {} := by
    unfold stripJunk
    rw [loop_append _ _ _ _ (fun c hc => hu c (List.mem_filter.1 hc).1), loop_filter _ _ hu,
      ← loop_append _ _ _ _ hu, ← hs]
  rw [e]

example : decode [10, 84, 87, 70, 32, 117, 13, 73, 81, 61, 61] 9 true = .ok [77, 97, 110, 33] := by decide

/-- C36: without junk tolerance a character outside the alphabet makes the call fail. -/
theorem C36_junk_refused (u v : List Nat) (c spc : Nat) (hu : ∀ x ∈ u, x ≠ 61)
    (hc : isBase64Char c = false) (h : bufspc (u ++ c :: v) ≤ spc) :
    ∃ e, decode (u ++ c :: v) spc false = .error e ∧ e.1 = Err.invalidArg := by
  have hc61 : c ≠ 61 := by rintro rfl; simp [isBase64Char] at hc
  have hj : lut c = .junk := by
    by_cases h : lut c = .junk
    · exact h
    · rw [(isB64_lut c hc61).2 h] at hc; simp at hc
  have hloop : ∀ (u : List Nat) (st : St), (∀ x ∈ u, x ≠ 61) →
      ∃ o, loop false (u ++ c :: v) st = .error (.invalidArg, o) := by
    intro u
    induction u with
    | nil => intro st _; exact ⟨_, by rw [List.nil_append, loop_junk hj]; rfl⟩
    | cons a u ih =>
      intro st hu
      have ha : a ≠ 61 := hu a (by simp)
      have hu' : ∀ x ∈ u, x ≠ 61 := fun x hx => hu x (by simp [hx])
      rw [List.cons_append]
      cases hl : lut a with
      | pad => exact absurd (lut_pad_iff.1 hl) ha
      | junk => exact ⟨_, by rw [loop_junk hl]; rfl⟩
      | val w => rw [loop_value hl]; split <;> exact ih _ hu'
  obtain ⟨o, ho⟩ := hloop u {} hu
  refine ⟨(.invalidArg, o), ?_, rfl⟩
  unfold decode
  rw [if_neg (by omega), ho]

/-- Finding: malformed padding is accepted.  `"QQ="` (one pad short) and `"="` both decode
"successfully", the first to bytes that encode something else. -/
theorem C36_malformed_padding_accepted :
    decode [81, 81, 61] 2 false = .ok [1, 4] ∧ decode [61] 3 false = .ok [0, 0] := by decide

end C36
end WS.Props
