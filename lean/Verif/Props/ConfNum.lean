import Verif.Proof.ConfNum3
import Verif.Props.JsonNum
/-
C54: a number given in a configuration is stored with exactly its value or refused.
-/
namespace WS.Props
open WS WS.Sax WS.Time WS.Spec.Json WS.Spec.Conf WS.ConfNum WS.JNum

/-- C54: a JSON number for an 8-bit setting is accepted exactly when it is an integer from 0 to 255, and then
stored with its value. -/
theorem C54_number_8_bits (t : List Byte) (h : Number t) (u : Nat) : convertU8 .number t = .ok u ↔ Integer t u ∧ u < 2 ^ 8 :=
  convert_narrow (k := 3) (by omega) (by omega) (by omega) (by omega) (by omega) h u

/-- C54: the same for 16-bit settings (ports, prefix lengths, families, priorities). -/
theorem C54_number_16_bits (t : List Byte) (h : Number t) (u : Nat) : convertU16 .number t = .ok u ↔ Integer t u ∧ u < 2 ^ 16 :=
  convert_narrow (k := 5) (by omega) (by omega) (by omega) (by omega) (by omega) h u

/-- C54: the same for 32-bit settings (counts, the version). -/
theorem C54_number_32_bits (t : List Byte) (h : Number t) (u : Nat) : convertU32 .number t = .ok u ↔ Integer t u ∧ u < 2 ^ 32 :=
  convert_narrow (k := 10) (by omega) (by omega) (by omega) (by omega) (by omega) h u

theorem integer_of_dump {i : Int} (h1 : -2 ^ 63 ≤ i) (h2 : i < 2 ^ 63) {t : List Byte} (ht : dumpI64 i = some t) : Integer t i := by
  obtain ⟨t', h3, h4, _⟩ := C52_write_signed i h1 h2
  rw [ht] at h3; cases h3; exact h4

example : convertU16 .number (lit "65535") = .ok 65535 ∧ convertU16 .number (lit "65536") = .err .numericArgTooBig ∧
    convertU16 .number (lit "1e3") = .err .configInvalidValue := by decide

example : Number (lit "65535") ∧ Integer (lit "65535") 65535 := by
  have := integer_of_dump (i := 65535) (by omega) (by omega) (t := lit "65535") (by decide)
  exact ⟨integer_number this, this⟩

/-- C54: an integer out of range of an 8-, 16- or 32-bit setting, negative ones included, is refused as too big: it
is never truncated or wrapped around. -/
theorem C54_out_of_range (t : List Byte) (v : Int) (h : Integer t v) :
    ((v < 0 ∨ 2 ^ 8 ≤ v) → convertU8 .number t = .err .numericArgTooBig) ∧
    ((v < 0 ∨ 2 ^ 16 ≤ v) → convertU16 .number t = .err .numericArgTooBig) ∧
    ((v < 0 ∨ 2 ^ 32 ≤ v) → convertU32 .number t = .err .numericArgTooBig) :=
  ⟨convert_narrow_big (by omega) (by omega) h, convert_narrow_big (by omega) (by omega) h, convert_narrow_big (by omega) (by omega) h⟩

example : convertU8 .number (lit "-1") = .err .numericArgTooBig ∧
    convertU32 .number (lit "-18446744073709551615") = .err .numericArgTooBig := by decide

/-- C54: a JSON number for a signed 64-bit value is accepted exactly when it is an integer in range. -/
theorem C54_number_signed (t : List Byte) (h : Number t) (v : Int) :
    convertS64 .number t = .ok v ↔ Integer t v ∧ -2 ^ 63 ≤ v ∧ v < 2 ^ 63 := by
  rw [convertS64_ok]
  constructor
  · rintro ⟨_, _, ⟨h1, _⟩ | ⟨h1, h2, h3⟩⟩
    · exact absurd h1 (number_ne h)
    · exact ⟨number_literal h h1, h2, h3⟩
  · rintro ⟨h1, h2, h3⟩
    have := (integer_len h1 (k := 19) (by omega) (by omega)).2
    exact ⟨Or.inl rfl, by omega, Or.inr ⟨integer_literal h1, h2, h3⟩⟩

example : convertS64 .number (lit "-9223372036854775808") = .ok (-9223372036854775808) ∧
    convertS64 .number (lit "9223372036854775808") = .err .configInvalidValue := by decide

/-- C54: a nonnegative JSON number for an unsigned 64-bit value is accepted exactly when it is an integer in range.
(For negative numbers see `C54_unsigned_wraps`: the full statement, without the hypothesis `0 ≤ v`, is false.) -/
theorem C54_number_unsigned_partial (t : List Byte) (v : Int) (h : Integer t v) (h0 : 0 ≤ v) (u : Nat) :
    convertU64 .number t = .ok u ↔ v = u ∧ u < 2 ^ 64 := by
  unfold convertU64
  rw [convertU_ok]
  constructor
  · rintro ⟨_, _, ⟨h1, _⟩ | ⟨w, h1, h2, h3, h4⟩⟩
    · exact absurd h1 (number_ne (integer_number h))
    · have := literal_unique h1 (integer_literal h)
      omega
  · rintro ⟨rfl, h2⟩
    have := (integer_len h (k := 20) (by omega) (by omega)).2
    exact ⟨Or.inl rfl, by omega, Or.inr ⟨_, integer_literal h, by omega, by omega, by omega⟩⟩

example : convertU64 .number (lit "18446744073709551615") = .ok 18446744073709551615 := by decide

/-- C54 (finding): every negative integer above -2^64 is accepted for an unsigned 64-bit value, wrapped around modulo
2^64: -1 is stored as 18446744073709551615. -/
theorem C54_unsigned_wraps (t : List Byte) (v : Int) (h : Integer t v) (h0 : v < 0) (h1 : -2 ^ 64 < v) :
    convertU64 .number t = .ok (v + 2 ^ 64).toNat := by
  unfold convertU64
  rw [convertU_ok]
  have := (integer_len h (k := 20) (by omega) (by omega)).2
  exact ⟨Or.inl rfl, by omega, Or.inr ⟨_, integer_literal h, by omega, by omega, by omega⟩⟩

example : convertU64 .number (lit "-1") = .ok 18446744073709551615 :=
  (C54_unsigned_wraps (lit "-1") (-1) (integer_of_dump (by omega) (by omega) (by decide)) (by omega) (by omega)).trans (by decide)

/-- C54: a string for a 32-bit setting is accepted exactly when it is empty (and then counts as 0), or shorter than 16
bytes and a decimal, octal or hexadecimal literal with optional white space and sign whose value is in range. -/
theorem C54_string_32_bits (t : List Byte) (u : Nat) :
    convertU32 .string t = .ok u ↔ (t = [] ∧ u = 0) ∨ (t.length < 16 ∧ Literal t u ∧ u < 2 ^ 32) := by
  unfold convertU32
  rw [fitting_ok, convertU_ok]
  constructor
  · rintro ⟨⟨_, h2, ⟨h3, h4⟩ | ⟨v, h3, h4, h5, h6⟩⟩, h7⟩
    · exact Or.inl ⟨h3, h4⟩
    · right
      have hv : v = u := by
        apply Classical.byContradiction
        intro hne
        have h8 : v ≤ -2 ^ 63 := by omega
        -- a literal with fewer than 16 bytes is below 16^15
        have := literal_bound h3
        have h9 : 16 ^ t.length ≤ 16 ^ 15 := Nat.pow_le_pow_right (by omega) (by omega)
        omega
      rw [hv] at h3
      exact ⟨h2, h3, h7⟩
  · rintro (⟨rfl, rfl⟩ | ⟨h1, h2, h3⟩)
    · exact ⟨⟨Or.inr rfl, by simp, Or.inl ⟨rfl, rfl⟩⟩, by omega⟩
    · exact ⟨⟨Or.inr rfl, h1, Or.inr ⟨u, h2, by omega, by omega, by omega⟩⟩, h3⟩

/-- C54: the same for 16-bit settings, with fewer than 8 bytes. -/
theorem C54_string_16_bits (t : List Byte) (u : Nat) :
    convertU16 .string t = .ok u ↔ (t = [] ∧ u = 0) ∨ (t.length < 8 ∧ Literal t u ∧ u < 2 ^ 16) := by
  unfold convertU16
  rw [fitting_ok, convertU_ok]
  constructor
  · rintro ⟨⟨_, h2, ⟨h3, h4⟩ | ⟨v, h3, h4, h5, h6⟩⟩, h7⟩
    · exact Or.inl ⟨h3, h4⟩
    · right
      have hv : v = u := by
        apply Classical.byContradiction
        intro hne
        have := literal_bound h3
        have h9 : 16 ^ t.length ≤ 16 ^ 7 := Nat.pow_le_pow_right (by omega) (by omega)
        omega
      rw [hv] at h3
      exact ⟨h2, h3, h7⟩
  · rintro (⟨rfl, rfl⟩ | ⟨h1, h2, h3⟩)
    · exact ⟨⟨Or.inr rfl, by simp, Or.inl ⟨rfl, rfl⟩⟩, by omega⟩
    · exact ⟨⟨Or.inr rfl, h1, Or.inr ⟨u, h2, by omega, by omega, by omega⟩⟩, h3⟩

example : convertU16 .string (lit "0x1bb") = .ok 443 ∧ convertU16 .string (lit " 0673") = .ok 443 ∧
    convertU16 .string (lit "443x") = .err .configInvalidValue ∧ convertU16 .string [] = .ok 0 := by decide

/-- C54 (finding): the 8-bit setting takes no hexadecimal byte with two digits, although strings are accepted for the
sake of hexadecimal and octal values: its buffer has room for three characters. -/
theorem C54_hex_byte_refused (x : Byte) (d e : Byte) : convertU8 .string [ch '0', x, d, e] = .err .numericArgTooBig := by
  unfold convertU8 convertU
  rfl

/-- C54: a duration given as an integer number of seconds, or as a string with an integer and one of the units s, m, h
or d, is stored with exactly its value in microseconds whenever that is representable.  `after` is whatever follows in
memory: after a value without unit it has to be a JSON delimiter, as it is when the value is read in place. -/
theorem C54_duration (type : JType) (hty : type = .string ∨ type = .number) (t u after : List Byte) (v k : Int)
    (ht : Integer t v) (hu : TimeUnit u k) (ha : u = [] → ∃ c r, after = c :: r ∧ Delimiter c)
    (h1 : -2 ^ 63 ≤ v * k * 1000000) (h2 : v * k * 1000000 < 2 ^ 63) :
    convertDuration type (t ++ u) after = .ok (v * k * 1000000) :=
  convertDuration_exact hty ht hu ha (by unfold I64_MIN; omega) (by unfold I64_MAX; omega)

example : convertDuration .string (lit "10" ++ [ch 'm']) [] = .ok 600000000 :=
  C54_duration .string (Or.inl rfl) (lit "10") [ch 'm'] [] 10 60 (integer_of_dump (by omega) (by omega) (by decide)) .minutes
    (by intro h; cases h) (by omega) (by omega)

/-- C54: what follows the value in memory cannot change the duration that is stored: whatever is accepted is what is
accepted when the closing quote follows. -/
theorem C54_duration_local (type : JType) (data after : List Byte) (v : Int) (h : convertDuration type data after = .ok v)
    (rest : List Byte) : convertDuration type data (ch '"' :: rest) = .ok v := convertDuration_local h rest

example : convertDuration .number (lit "10") (lit ",") = .ok 10000000 := by decide

/-- C54 (finding): what follows the value in memory can make a valid duration be refused: the text is scanned beyond
its end, so the leftover of an earlier token in the parser's buffer is taken for a unit or for more digits. -/
theorem C54_duration_overread : convertDuration .number (lit "10") (lit "d") = .err .configInvalidValue ∧
    convertDuration .number (lit "10") (lit "5\"") = .err .configInvalidValue ∧ convertDuration .number (lit "10") [] = .ub := by decide

/-- C54 (finding): a duration whose value in seconds, minutes, hours or days overflows 64 bits is not refused: the
multiplication overflows, which is undefined behaviour. -/
theorem C54_duration_overflow : convertDuration .string (lit "106751991167301d") (lit "\"") = .ub := by decide

end WS.Props
