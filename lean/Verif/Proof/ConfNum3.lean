import Verif.Proof.ConfNum2
/-
Lemmas for C54: durations.
-/
namespace WS.ConfNum
open WS WS.Sax WS.Time WS.Spec.Conf WS.Spec.Json WS.JNum

/-- The bytes of the units, and the seconds they stand for. -/
theorem scale_unit {u : List Byte} {k : Int} (h : TimeUnit u k) {c : Option Byte} (hc : u = [] ∧ isUnit c = false ∨ ∃ x, u = [x] ∧ c = some x)
    {v : Int} (h1 : I64_MIN ≤ v * k) (h2 : v * k ≤ I64_MAX) : scale c v = .ok (v * k) ∧ (isUnit c = true ↔ u ≠ []) := by
  unfold I64_MIN I64_MAX at *
  have hchk : ∀ x : Int, -9223372036854775808 ≤ x → x ≤ 9223372036854775807 → chk x = .ok x := by
    intro x a b; unfold chk I64_MIN I64_MAX; rw [if_pos ⟨a, b⟩]
  cases h with
  | none =>
    rcases hc with ⟨_, hc⟩ | ⟨x, hx, _⟩
    · unfold isUnit at hc
      simp only [Bool.or_eq_false_iff, beq_eq_false_iff_ne, ne_eq] at hc
      refine ⟨?_, ?_⟩
      · unfold scale
        rw [if_neg hc.1.1.1, if_neg hc.1.1.2, if_neg hc.1.2, Int.mul_one]
      · unfold isUnit; simp [hc]
    · cases hx
  | seconds =>
    rcases hc with ⟨h, _⟩ | ⟨x, hx, rfl⟩
    · cases h
    · injection hx with hx; subst hx
      rw [show ch 's' = 0x73#8 by decide]
      exact ⟨by rw [Int.mul_one]; rfl, by decide⟩
  | minutes =>
    rcases hc with ⟨h, _⟩ | ⟨x, hx, rfl⟩
    · cases h
    · injection hx with hx; subst hx
      rw [show ch 'm' = 0x6d#8 by decide]
      refine ⟨?_, by decide⟩
      show chk (v * 60) = _
      exact hchk _ h1 h2
  | hours =>
    rcases hc with ⟨h, _⟩ | ⟨x, hx, rfl⟩
    · cases h
    · injection hx with hx; subst hx
      rw [show ch 'h' = 0x68#8 by decide]
      refine ⟨?_, by decide⟩
      show (chk (v * 60)).bind (fun v => chk (v * 60)) = _
      rw [hchk _ (by omega) (by omega)]
      show chk (v * 60 * 60) = _
      rw [hchk _ (by omega) (by omega)]
      congr 1; omega
  | days =>
    rcases hc with ⟨h, _⟩ | ⟨x, hx, rfl⟩
    · cases h
    · injection hx with hx; subst hx
      rw [show ch 'd' = 0x64#8 by decide]
      refine ⟨?_, by decide⟩
      show (chk (v * 24)).bind (fun v => (chk (v * 60)).bind fun v => chk (v * 60)) = _
      rw [hchk _ (by omega) (by omega)]
      show (chk (v * 24 * 60)).bind (fun v => chk (v * 60)) = _
      rw [hchk _ (by omega) (by omega)]
      show chk (v * 24 * 60 * 60) = _
      rw [hchk _ (by omega) (by omega)]
      congr 1; omega

theorem fromEpoch_secs {s : Int} (h1 : I64_MIN ≤ s * 1000000) (h2 : s * 1000000 ≤ I64_MAX) : fromEpoch s 0 = .ok (s * 1000000) := by
  unfold I64_MIN I64_MAX at *
  unfold fromEpoch
  have : ¬ s > I64_MAX.tdiv 1000000 := by
    have : I64_MAX.tdiv 1000000 = 9223372036854 := by decide
    rw [this]; omega
  rw [if_neg this]
  have hchk : chk (s * 1000000) = .ok (s * 1000000) := by unfold chk I64_MIN I64_MAX; rw [if_pos ⟨h1, h2⟩]
  rw [hchk]
  show chk (s * 1000000 + (0 : Int).tdiv 1000) = _
  rw [show (0 : Int).tdiv 1000 = 0 by decide, Int.add_zero, hchk]

theorem integer_parts {t : List Byte} {v : Int} (h : Integer t v) :
    ∃ s b m, t = s ++ b ∧ Unsigned b m ∧ ¬ Hexy b ∧ ((s = [] ∧ v = m) ∨ (s = [0x2d#8] ∧ v = -(m : Int))) := by
  obtain ⟨d, n, hi, hd, hc⟩ := h
  have hx : ¬ Hexy d := by
    rintro ⟨x, t, rfl, hx⟩
    have := canon_dig (canon_of_int hi) x (by simp)
    unfold dig at this
    rcases hx with h | h <;> rw [h] at this <;> revert this <;> decide
  have em : ch '-' = 0x2d#8 := by decide
  rcases hc with ⟨rfl, rfl⟩ | ⟨rfl, rfl⟩
  · exact ⟨[], t, n, rfl, int_unsigned hi hd, hx, Or.inl ⟨rfl, rfl⟩⟩
  · exact ⟨[0x2d#8], d, n, by rw [em]; rfl, int_unsigned hi hd, hx, Or.inr ⟨rfl, rfl⟩⟩

/-- `c` is no digit and no x: it ends every decimal literal. -/
def EndByte (c : Byte) : Prop := digit 10 c = none ∧ c ≠ ch 'x' ∧ c ≠ ch 'X'

theorem ends_decimal {b rest : List Byte} (hx : ¬ Hexy b) (h : ∀ c r, rest = c :: r → EndByte c) : Ends b rest := by
  refine ⟨fun c r e => (h c r e).1, fun h => absurd h hx, fun _ => ?_⟩
  cases rest with
  | nil => simp
  | cons c r => simpa using (h c r rfl).2

theorem strtol_integer {t : List Byte} {v : Int} (h : Integer t v) {rest : List Byte} (hr : ∀ c r, rest = c :: r → EndByte c)
    (h1 : I64_MIN ≤ v) (h2 : v ≤ I64_MAX) : strtol (t ++ rest) = (some v, t.length) := by
  unfold I64_MIN I64_MAX at *
  obtain ⟨s, b, m, rfl, hu, hx, hv⟩ := integer_parts h
  have hs := scan_literal (w := []) (s := s) (rest := rest) (by simp) (by rcases hv with h | h <;> simp [h.1]) hu (ends_decimal hx hr)
  rw [List.nil_append] at hs
  unfold strtol
  rw [hs]
  have hval : (if decide (s = [0x2d#8]) = true then -(m : Int) else m) = v := by
    rcases hv with ⟨h, h'⟩ | ⟨h, h'⟩ <;> simp [h, h']
  simp only [hval]
  rw [if_neg (by omega)]
  simp

theorem unit_endByte {u : List Byte} {k : Int} (h : TimeUnit u k) {c : Byte} (hc : u = [c]) : EndByte c := by
  unfold EndByte
  cases h with
  | none => cases hc
  | seconds => injection hc with hc; rw [← hc]; decide
  | minutes => injection hc with hc; rw [← hc]; decide
  | hours => injection hc with hc; rw [← hc]; decide
  | days => injection hc with hc; rw [← hc]; decide

theorem delimiter_facts {c : Byte} (h : Delimiter c) : EndByte c ∧ isUnit (some c) = false := by
  have : ∀ c : Byte, (c = ch '"' ∨ c = ch ',' ∨ c = ch '}' ∨ c = ch ']' ∨ c = ch ' ' ∨ c = 9#8 ∨ c = 10#8 ∨ c = 13#8) → (digit 10 c = none ∧ c ≠ ch 'x' ∧ c ≠ ch 'X') ∧ isUnit (some c) = false := by
    intro c h
    rcases h with h | h | h | h | h | h | h | h <;> rw [h] <;> decide
  apply this
  unfold Delimiter at h
  rcases h with h | h | h | h | h | h | h | h
  · simp [h]
  · simp [h]
  · simp [h]
  · simp [h]
  · simp [h]
  · have : c = 9#8 := byteEq (by rw [h]; decide)
    simp [this]
  · have : c = 10#8 := byteEq (by rw [h]; decide)
    simp [this]
  · have : c = 13#8 := byteEq (by rw [h]; decide)
    simp [this]

theorem convertDuration_exact {type : JType} (hty : type = .string ∨ type = .number) {t u after : List Byte} {v k : Int}
    (ht : Integer t v) (hu : TimeUnit u k) (ha : u = [] → ∃ c r, after = c :: r ∧ Delimiter c)
    (h1 : I64_MIN ≤ v * k * 1000000) (h2 : v * k * 1000000 ≤ I64_MAX) :
    convertDuration type (t ++ u) after = .ok (v * k * 1000000) := by
  have hk1 : 1 ≤ k := by cases hu <;> decide
  have hvb : I64_MIN ≤ v * k ∧ v * k ≤ I64_MAX ∧ I64_MIN ≤ v ∧ v ≤ I64_MAX := by
    unfold I64_MIN I64_MAX at *
    refine ⟨by omega, by omega, ?_, ?_⟩
    · cases hu <;> omega
    · cases hu <;> omega
  have hrest : ∀ c r, u ++ after = c :: r → EndByte c := by
    intro c r e
    cases u with
    | nil =>
      obtain ⟨c', r', rfl, hd⟩ := ha rfl
      simp at e; rw [← e.1]; exact (delimiter_facts hd).1
    | cons x u =>
      have : u = [] := by cases hu <;> rfl
      subst this
      simp at e; rw [← e.1]; exact unit_endByte hu rfl
  have hst := strtol_integer ht hrest hvb.2.2.1 hvb.2.2.2
  unfold convertDuration
  rw [if_neg (by rintro ⟨a, b⟩; rcases hty with h | h <;> contradiction), List.append_assoc, hst]
  simp only
  have hidx : (t ++ (u ++ after))[t.length]? = (u ++ after).head? := by
    rw [List.getElem?_append_right (Nat.le_refl _), Nat.sub_self, List.head?_eq_getElem?]
  rw [hidx]
  have hcase : u = [] ∧ isUnit (u ++ after).head? = false ∨ ∃ x, u = [x] ∧ (u ++ after).head? = some x := by
    cases hu with
    | none =>
      obtain ⟨c', r', rfl, hd⟩ := ha rfl
      exact Or.inl ⟨rfl, (delimiter_facts hd).2⟩
    | seconds => exact Or.inr ⟨_, rfl, rfl⟩
    | minutes => exact Or.inr ⟨_, rfl, rfl⟩
    | hours => exact Or.inr ⟨_, rfl, rfl⟩
    | days => exact Or.inr ⟨_, rfl, rfl⟩
  have hsc := scale_unit hu hcase hvb.1 hvb.2.1
  rw [if_neg, hsc.1]
  · show (if (if isUnit (u ++ after).head? = true then t.length + 1 else t.length) ≠ (t ++ u).length then _ else fromEpoch (v * k) 0) = _
    have hn : (if isUnit (u ++ after).head? = true then t.length + 1 else t.length) = (t ++ u).length := by
      rw [List.length_append]
      split
      · rename_i h
        have := hsc.2.1 h
        cases hu <;> first | contradiction | rfl
      · rename_i h
        have : u = [] := Classical.byContradiction fun hne => h (hsc.2.2 hne)
        rw [this]; rfl
    rw [if_neg (by rw [hn]; simp)]
    exact fromEpoch_secs h1 h2
  · rw [List.length_append]
    rcases hcase with ⟨rfl, _⟩ | ⟨x, rfl, _⟩
    · obtain ⟨c', r', rfl, hd⟩ := ha rfl
      simp
    · simp; omega

theorem bind_ok {α β} {r : Res α} {f : α → Res β} {b : β} (h : r.bind f = .ok b) : ∃ a, r = .ok a ∧ f a = .ok b := by
  cases r with
  | ok a => exact ⟨a, rfl, h⟩
  | err => cases h
  | ub => cases h

/-- What an accepted duration says about the scan. -/
theorem duration_inv {type : JType} {data after : List Byte} {v : Int} (h : convertDuration type data after = .ok v) :
    (type = .string ∨ type = .number) ∧ ∃ x n, strtol (data ++ after) = (some x, n) ∧ n < data.length + after.length ∧
      (if isUnit ((data ++ after)[n]?) then n + 1 else n) = data.length ∧
      (scale ((data ++ after)[n]?) x).bind (fun y => fromEpoch y 0) = .ok v := by
  unfold convertDuration at h
  split at h
  · cases h
  · rename_i hty
    refine ⟨?_, ?_⟩
    · by_cases ha : type = .string
      · exact Or.inl ha
      · by_cases hb : type = .number
        · exact Or.inr hb
        · exact absurd ⟨ha, hb⟩ hty
    split at h
    rename_i o n hst
    split at h
    · cases h
    · rename_i hn
      cases o with
      | none => cases h
      | some x =>
        simp only at h
        obtain ⟨y, hy, h⟩ := bind_ok h
        by_cases hlen : (if isUnit ((data ++ after)[n]?) then n + 1 else n) = data.length
        · rw [if_neg (by simpa using hlen)] at h
          refine ⟨x, n, hst, by omega, hlen, ?_⟩
          rw [hy]; exact h
        · rw [if_pos hlen] at h; cases h

theorem convertDuration_local {type : JType} {data after : List Byte} {v : Int} (h : convertDuration type data after = .ok v)
    (rest : List Byte) : convertDuration type data (ch '"' :: rest) = .ok v := by
  obtain ⟨hty, x, n, hst, hn, hlen, hres⟩ := duration_inv h
  have eq : ch '"' = 0x22#8 := by decide
  have hsl : (scan (data ++ after)).len = n := by
    have := congrArg Prod.snd hst
    exact this
  have hsp := scan_spec (data ++ after)
  -- the scan of the other text is the same
  have hkey : scan (data ++ ch '"' :: rest) = scan (data ++ after) := by
    rcases hsp.2 with h0 | ⟨hne, w, s, b, h1, h2, h3, h4, h5⟩
    · -- nothing was recognised
      rw [h0] at hsl
      simp only at hsl
      subst hsl
      rw [h0]
      cases data with
      | nil =>
        rw [List.nil_append, eq]
        have h1 : spaces (0x22#8 :: rest) = 0 := rfl
        have h2 : magnitude (0x22#8 :: rest) = (0, 0) := by
          have hd : digits 10 0 (0x22#8 :: rest) = (0, 0) := by
            simp only [digits, show digit 10 0x22#8 = none by decide]
          unfold magnitude
          split
          · rename_i he; simp at he
          · rename_i he; simp at he
          · exact hd
        unfold scan
        simp [h1, h2]
      | cons c d =>
        have hd : d = [] := by
          simp only [List.length_cons] at hlen
          split at hlen
          · exact List.length_eq_zero_iff.1 (by omega)
          · omega
        subst hd
        have hu : isUnit (some c) = true := by
          have : ((([c] : List Byte) ++ after)[0]?) = some c := by simp
          rw [this] at hlen
          by_cases hq : isUnit (some c) = true
          · exact hq
          · rw [if_neg hq] at hlen; simp at hlen
        have hc : c = 0x64#8 ∨ c = 0x68#8 ∨ c = 0x6d#8 ∨ c = 0x73#8 := by
          unfold isUnit at hu
          simp only [Bool.or_eq_true, beq_iff_eq, Option.some.injEq] at hu
          rcases hu with ((h | h) | h) | h <;> simp [h]
        have hm : ∀ r, magnitude (c :: r) = (0, 0) := by
          intro r
          have hd : digits 10 0 (c :: r) = (0, 0) := by
            have : digit 10 c = none := by rcases hc with h | h | h | h <;> rw [h] <;> decide
            simp only [digits, this]
          unfold magnitude
          split
          · rename_i he; simp at he; rcases hc with h | h | h | h <;> rw [h] at he <;> simp at he
          · rename_i he; simp at he; rcases hc with h | h | h | h <;> rw [h] at he <;> simp at he
          · exact hd
        have hs : ∀ r, spaces (c :: r) = 0 := by
          intro r
          have : isSpace c = false := by rcases hc with h | h | h | h <;> rw [h] <;> decide
          simp [spaces, this]
        have hc' : c ≠ 0x2d#8 ∧ c ≠ 0x2b#8 := by rcases hc with h | h | h | h <;> rw [h] <;> decide
        unfold scan
        simp [hs, hm, hc']
    · -- a literal was recognised
      rw [hsl] at h1 h5 hne
      have hnle : n ≤ data.length := by split at hlen <;> omega
      rw [List.take_append_of_le_length hnle] at h1
      have hdata : data = w ++ s ++ b ++ data.drop n := by rw [← h1, List.take_append_drop]
      have hscan0 : scan (data ++ after) = ⟨decide (s = [0x2d#8]), (scan (data ++ after)).mag, w.length + s.length + b.length⟩ := by
        have hl : n = w.length + s.length + b.length := by
          have := congrArg List.length h1
          simp only [List.length_take, List.length_append] at this
          omega
        have hng : (scan (data ++ after)).neg = decide (s = [0x2d#8]) := by
          rcases h4 with ⟨a, a'⟩ | ⟨a, a'⟩ | ⟨a, a'⟩ <;> rw [a', a] <;> decide
        rw [← hng, ← hl, ← hsl]
      -- what follows the literal inside the data
      have htail : data.drop n = [] ∨ ∃ c, data.drop n = [c] ∧ isUnit (some c) = true ∧ (data ++ after)[n]? = some c := by
        split at hlen
        · rename_i hq
          right
          have hlt : n < data.length := by omega
          have hg : (data ++ after)[n]? = some data[n] := by
            rw [List.getElem?_append_left hlt, List.getElem?_eq_getElem hlt]
          refine ⟨data[n], ?_, by rw [hg] at hq; exact hq, hg⟩
          rw [List.drop_eq_getElem_cons hlt]
          rw [List.drop_eq_nil_of_le (by omega)]
        · left; exact List.drop_eq_nil_of_le (by omega)
      have hends : Ends b (data.drop n ++ ch '"' :: rest) := by
        have hb : ∀ c r, data.drop n ++ ch '"' :: rest = c :: r → EndByte c := by
          intro c r e
          rcases htail with h | ⟨c', h, hu, _⟩
          · rw [h, List.nil_append, eq] at e
            injection e with e _
            rw [← e]; exact (by decide : digit 10 0x22#8 = none ∧ (0x22#8 : Byte) ≠ ch 'x' ∧ (0x22#8 : Byte) ≠ ch 'X')
          · rw [h] at e
            simp at e
            rw [← e.1]
            unfold isUnit at hu
            simp only [Bool.or_eq_true, beq_iff_eq, Option.some.injEq] at hu
            unfold EndByte
            rcases hu with ((h | h) | h) | h <;> rw [h] <;> decide
        refine ⟨fun c r e => (hb c r e).1, fun hx => ?_, fun _ => ?_⟩
        · have hst16 := h5 hx
          intro c r e
          rcases htail with h | ⟨c', h, hu, hg⟩
          · rw [h, List.nil_append, eq] at e
            injection e with e _
            rw [← e]; decide
          · rw [h] at e
            simp at e
            rw [← e.1]
            rw [List.drop_append_of_le_length hnle, h] at hst16
            exact hst16 c' after rfl
        · cases hd : data.drop n ++ ch '"' :: rest with
          | nil => simp
          | cons c r => simpa using (hb c r hd).2
      have := scan_literal (w := w) (s := s) (rest := data.drop n ++ ch '"' :: rest) h2
        (by rcases h4 with ⟨a, _⟩ | ⟨a, _⟩ | ⟨a, _⟩ <;> simp [a]) h3 hends
      rw [← List.append_assoc, ← hdata] at this
      rw [this, hscan0]
  have hst' : strtol (data ++ ch '"' :: rest) = (some x, n) := by
    rw [← hst]; unfold strtol; rw [hkey]
  unfold convertDuration
  rw [if_neg (by rintro ⟨a, b⟩; rcases hty with h | h <;> contradiction), hst']
  simp only
  have hsc : ∀ c, isUnit c = false → scale c x = .ok x := by
    intro c hc
    unfold isUnit at hc
    simp only [Bool.or_eq_false_iff, beq_eq_false_iff_ne, ne_eq] at hc
    unfold scale
    rw [if_neg hc.1.1.1, if_neg hc.1.1.2, if_neg hc.1.2]
  have hfin : ∀ (r : Res Int), r.bind (fun y => fromEpoch y 0) = .ok v → ∀ m, m = data.length →
      (r.bind fun y => if m ≠ data.length then .err .configInvalidValue else fromEpoch y 0) = .ok v := by
    intro r hr m hm
    subst hm; simpa using hr
  by_cases hq : isUnit ((data ++ after)[n]?) = true
  · rw [if_pos hq] at hlen
    have hlt : n < data.length := by omega
    have hg : (data ++ ch '"' :: rest)[n]? = (data ++ after)[n]? := by
      rw [List.getElem?_append_left hlt, List.getElem?_append_left hlt]
    rw [if_neg (by simp; omega), hg]
    exact hfin _ hres _ (by rw [if_pos hq]; exact hlen)
  · rw [if_neg hq] at hlen
    have hg : (data ++ ch '"' :: rest)[n]? = some 0x22#8 := by
      rw [hlen, List.getElem?_append_right (Nat.le_refl _), Nat.sub_self, eq]; rfl
    rw [if_neg (by simp; omega), hg]
    rw [hsc _ (by simpa using hq)] at hres
    exact hfin _ (by rw [hsc _ (by decide)]; exact hres) _ (by rw [if_neg (by decide)]; exact hlen)

end WS.ConfNum
