import Verif.Proof.Config2
/-
Loader proofs, part 3: addresses, ports, endpoints.
-/
namespace WS.Conf
open WS WS.Sax WS.Time WS.ConfNum WS.Spec.Load WS.Spec.Conf

variable {α : Type}

theorem bits_bytes (n : Nat) : bitsToBytes n = (n + 7) / 8 := by unfold bitsToBytes; rw [Nat.shiftRight_eq_div_pow]

theorem overwrite_ok {addr b addr' : List Byte} {off : Nat} : overwrite addr off b = .ok addr' ↔ Patched addr off b addr' := by
  unfold overwrite Patched
  constructor
  · intro h
    split at h
    · rename_i hl
      injection h with h
      refine ⟨addr.take off, (addr.drop off).take b.length, addr.drop (off + b.length), ?_, ?_, ?_, h.symm⟩
      · rw [List.append_assoc, ← List.drop_drop, List.take_append_drop, List.take_append_drop]
      · rw [List.length_take]; omega
      · rw [List.length_take, List.length_drop]; omega
    · cases h
  · rintro ⟨p, m, s, rfl, rfl, hm, rfl⟩
    rw [if_pos (by simp; omega)]
    congr 1
    have h1 : (p ++ m ++ s).take p.length = p := by rw [List.append_assoc, List.take_left]
    have h2 : (p ++ m ++ s).drop (p.length + b.length) = s := by
      rw [← hm, show p.length + m.length = (p ++ m).length by simp, List.drop_left]
    rw [h1, h2]

/-! ### Hexadecimal -/

theorem hexDigit_of {c : Byte} {i : Nat} : hexDigit c = some i ↔ Spec.Json.Hex c i := by
  constructor
  · unfold hexDigit
    intro h
    have hlt := c.isLt
    split at h
    · rename_i hc
      injection h with h
      have h1 : 0x30 ≤ c.toNat := BitVec.le_def.1 hc.1
      have h2 : c.toNat ≤ 0x39 := BitVec.le_def.1 hc.2
      have := Spec.Json.Hex.digit (c.toNat - 0x30) (by omega)
      rw [show 0x30 + (c.toNat - 0x30) = c.toNat by omega, BitVec.ofNat_toNat, BitVec.setWidth_eq, h] at this
      exact this
    split at h
    · rename_i hc
      injection h with h
      have h1 : 0x41 ≤ c.toNat := BitVec.le_def.1 hc.1
      have h2 : c.toNat ≤ 0x46 := BitVec.le_def.1 hc.2
      have := Spec.Json.Hex.upper (c.toNat - 0x41) (by omega)
      rw [show 0x41 + (c.toNat - 0x41) = c.toNat by omega, BitVec.ofNat_toNat, BitVec.setWidth_eq,
        show 10 + (c.toNat - 0x41) = i by omega] at this
      exact this
    split at h
    · rename_i hc
      injection h with h
      have h1 : 0x61 ≤ c.toNat := BitVec.le_def.1 hc.1
      have h2 : c.toNat ≤ 0x66 := BitVec.le_def.1 hc.2
      have := Spec.Json.Hex.lower (c.toNat - 0x61) (by omega)
      rw [show 0x61 + (c.toNat - 0x61) = c.toNat by omega, BitVec.ofNat_toNat, BitVec.setWidth_eq,
        show 10 + (c.toNat - 0x61) = i by omega] at this
      exact this
    · cases h
  · intro h
    cases h with
    | digit _ hk => revert i; decide
    | lower k hk => revert k; decide
    | upper k hk => revert k; decide

theorem hexDigit_quote : hexDigit (Spec.Json.ch '"') = none := by decide
theorem hexDigit_colon : hexDigit (Spec.Json.ch ':') = none := by decide

theorem hexByte_inv {data r rest : List Byte} {b : Byte} (h : hexByte data (Spec.Json.ch '"' :: r) = .ok (b, rest)) :
    ∃ s, data = s ++ rest ∧ HexByte s b := by
  unfold hexByte at h
  split at h
  · cases h
  rename_i c t
  split at h
  · cases h
  rename_i d1 h1
  split at h
  · simp only [hexDigit_quote] at h
    simp at h
    obtain ⟨rfl, rfl⟩ := h
    exact ⟨[c], rfl, .one (hexDigit_of.1 h1)⟩
  · rename_i c2 t2
    split at h
    · simp at h
      obtain ⟨rfl, rfl⟩ := h
      exact ⟨[c], rfl, .one (hexDigit_of.1 h1)⟩
    · rename_i d2 h2
      simp at h
      obtain ⟨rfl, rfl⟩ := h
      exact ⟨[c, c2], rfl, .two (hexDigit_of.1 h1) (hexDigit_of.1 h2)⟩

theorem hexByte_of {s rest r : List Byte} {b : Byte} (h : HexByte s b) (hr : rest = [] ∨ ∃ t, rest = Spec.Json.ch ':' :: t) :
    hexByte (s ++ rest) (Spec.Json.ch '"' :: r) = .ok (b, rest) := by
  cases h with
  | one h1 =>
    have h1 := hexDigit_of.2 h1
    rcases hr with rfl | ⟨t, rfl⟩
    · simp [hexByte, h1, hexDigit_quote]
    · simp [hexByte, h1, hexDigit_colon]
  | two h1 h2 =>
    have h1 := hexDigit_of.2 h1
    have h2 := hexDigit_of.2 h2
    simp [hexByte, h1, h2]

theorem hexBytes_ne {s c : List Byte} (h : HexBytes s c) : c ≠ [] := by cases h <;> simp

theorem hexBytes_inv {s c : List Byte} (h : HexBytes s c) : ∃ x rest b d, s = x ++ rest ∧ HexByte x b ∧ c = b :: d ∧
    ((rest = [] ∧ d = []) ∨ ∃ t, rest = Spec.Json.ch ':' :: t ∧ HexBytes t d) := by
  cases h with
  | last h => exact ⟨s, [], _, [], by simp, h, rfl, .inl ⟨rfl, rfl⟩⟩
  | more h1 h2 => exact ⟨_, _, _, _, rfl, h1, rfl, .inr ⟨_, rfl, h2⟩⟩

theorem linkBytes_ok (r : List Byte) : ∀ (fuel : Nat) (acc data out : List Byte), fuel + acc.length = 9 →
    (linkBytes fuel acc data (Spec.Json.ch '"' :: r) = .ok out ↔
      ∃ c, HexBytes data c ∧ out = acc ++ c ∧ (out.length = 6 ∨ out.length = 8))
  | 0, acc, data, out, hf => by
    simp only [linkBytes, reduceCtorEq, false_iff]
    rintro ⟨c, h1, rfl, h2⟩
    simp only [List.length_append] at h2
    omega
  | fuel + 1, acc, data, out, hf => by
    unfold linkBytes
    split
    · simp only [reduceCtorEq, false_iff]
      rintro ⟨c, h1, rfl, h2⟩
      have := List.length_pos_iff.2 (hexBytes_ne h1)
      simp only [List.length_append] at h2
      omega
    rename_i h8
    constructor
    · intro h
      obtain ⟨⟨b, rest⟩, hb, h'⟩ := bind_ok h
      clear h
      have h := h'
      clear h'
      obtain ⟨s, rfl, hs⟩ := hexByte_inv hb
      simp only at h
      split at h
      · split at h
        · injection h with h
          subst h
          rename_i hl
          exact ⟨[b], by rw [List.append_nil]; exact .last hs, rfl, by simpa using hl⟩
        · cases h
      · rename_i x t
        split at h
        · cases h
        · rename_i hx
          have hx : x = 0x3a#8 := by simpa using hx
          obtain ⟨c, h1, h2, h3⟩ := (linkBytes_ok r fuel (acc ++ [b]) t out (by simp; omega)).1 h
          refine ⟨b :: c, ?_, by simp [h2], h3⟩
          rw [hx]
          exact .more hs h1
    · rintro ⟨c, hc, rfl, hl⟩
      obtain ⟨x, rest, b, d, rfl, hx, rfl, hrest⟩ := hexBytes_inv hc
      have hb := hexByte_of (r := r) hx (rest := rest) (by
        rcases hrest with ⟨h, _⟩ | ⟨t, h, _⟩
        · exact .inl h
        · exact .inr ⟨t, h⟩)
      rw [hb]
      rcases hrest with ⟨rfl, rfl⟩ | ⟨t, rfl, ht⟩
      · simp only [Res.bind]
        simp only [List.length_append, List.length_cons, List.length_nil] at hl
        rw [if_pos (by omega)]
      · simp only [Res.bind]
        rw [if_neg (by decide)]
        have := (linkBytes_ok r fuel (acc ++ [b]) t (acc ++ b :: d) (by simp; omega)).2 ⟨d, ht, by simp, hl⟩
        exact this

/-! ### Addresses -/

theorem lenIfUnset_eq (sa : Sa) (bits : Nat) :
    sa.lenIfUnset bits = { sa with addrLen := if sa.addrLen = 0 then bits else sa.addrLen } := by
  unfold Sa.lenIfUnset
  split <;> rfl

/-- The number of a CAN address. -/
theorem can_conv {v : J} {r : Res Sa} {f : Nat → Res Sa} {sa' : Sa}
    (hr : r = if (leafEv v).type ≠ .string ∧ (leafEv v).type ≠ .number then .err .configInvalidValue
      else if 13 ≤ (leafEv v).data.length then .err .stringArgTooLong
      else if (strtoul (leafEv v).data).2 ≠ (leafEv v).data.length then .err .configInvalidValue
      else match (strtoul (leafEv v).data).1 with
        | none => .err .configInvalidValue
        | some u => if 4294967295 < u then .err .configInvalidValue else f u) :
    r = .ok sa' ↔ ∃ n, UInt 32 13 v n ∧ f n = .ok sa' := by
  simp only [← uint_conv, fitting_ok]
  unfold convertU
  subst hr
  by_cases h1 : (leafEv v).type ≠ .string ∧ (leafEv v).type ≠ .number
  · rw [if_pos h1, if_pos ⟨h1.2, h1.1⟩]; simp
  rw [if_neg h1, if_neg (show ¬ ((leafEv v).type ≠ .number ∧ (leafEv v).type ≠ .string) from fun h => h1 ⟨h.2, h.1⟩)]
  by_cases h2 : 13 ≤ (leafEv v).data.length
  · rw [if_pos h2, if_pos h2]; simp
  rw [if_neg h2, if_neg h2]
  rcases strtoul (leafEv v).data with ⟨u, n⟩
  cases u with
  | none => simp
  | some u =>
    simp only
    by_cases h3 : n ≠ (leafEv v).data.length
    · rw [if_pos h3, if_pos h3]; simp
    rw [if_neg h3, if_neg h3]
    simp only [Res.ok.injEq]
    by_cases h4 : 4294967295 < u
    · rw [if_pos h4]
      constructor
      · intro h; cases h
      · rintro ⟨n, ⟨rfl, h⟩, _⟩; omega
    · rw [if_neg h4]
      constructor
      · intro h; exact ⟨u, ⟨rfl, by omega⟩, h⟩
      · rintro ⟨n, ⟨rfl, _⟩, h⟩; exact h

theorem canBytes_eq (n : Nat) : canBytes n =
    [BitVec.ofNat 8 (n / 2 ^ 24), BitVec.ofNat 8 (n / 2 ^ 16), BitVec.ofNat 8 (n / 2 ^ 8), BitVec.ofNat 8 n] := by
  unfold canBytes
  simp only [Nat.shiftRight_eq_div_pow]

/-- The value is a string. -/
theorem leaf_string {v : J} (h : (leafEv v).type = .string) : ∃ s r, v = .str s r := by
  cases v with
  | str s r => exact ⟨s, r, rfl⟩
  | bool b => cases b <;> cases h
  | _ => cases h

theorem leaf_number {v : J} (h : (leafEv v).type = .number) : ∃ s r, v = .num s r := by
  cases v with
  | num s r => exact ⟨s, r, rfl⟩
  | bool b => cases b <;> cases h
  | _ => cases h

theorem address_leaf {E : Env α} {len : Nat} {masked : Bool} {fam : Nat} {v : J} {b : List Byte} {bits fam' : Nat}
    (h : Address E len masked fam v b bits fam') : restEvs v = [] := by
  cases h with
  | link => rfl
  | inet => rfl
  | inet6 => rfl
  | can h => exact uint_leaf h
  | other _ h => exact text_leaf h

theorem address_iff {E : Env α} {len : Nat} {masked : Bool} {fam : Nat} {v : J} {b : List Byte} {bits fam' : Nat} :
    Address E len masked fam v b bits fam' ↔
      ((fam = AF_LINK48 ∨ fam = AF_LINK64) ∧ ∃ s after, v = .str s after ∧ HexBytes s b ∧ (b.length = 6 ∨ b.length = 8) ∧
        bits = b.length * 8 ∧ fam' = if b.length = 6 then AF_LINK48 else AF_LINK64) ∨
      (fam = AF_INET ∧ ∃ s after, v = .str s after ∧ s.length < 16 ∧ E.pton4 s = some b ∧ bits = 32 ∧ fam' = fam) ∨
      (fam = AF_INET6 ∧ ∃ s after, v = .str s after ∧ s.length < 64 ∧ E.pton6 s = some b ∧ bits = 128 ∧ fam' = fam) ∨
      (fam = AF_CAN ∧ ∃ n, UInt 32 13 v n ∧ len ≤ (if masked then 64 else 32) ∧ b = canBytes n ∧ bits = 32 ∧ fam' = fam) ∨
      (fam ∉ [0, AF_LINK48, AF_LINK64, AF_INET, AF_INET6, AF_CAN] ∧ ∃ t p, Text v t ∧ E.famParser fam = some p ∧
        p t (if len = 0 then 128 else len) = .ok (b, bits) ∧ fam' = fam) := by
  constructor
  · intro h
    cases h with
    | link h1 h2 h3 => exact .inl ⟨h1, _, _, rfl, h2, h3, rfl, rfl⟩
    | inet h1 h2 => exact .inr (.inl ⟨rfl, _, _, rfl, h1, h2, rfl, rfl⟩)
    | inet6 h1 h2 => exact .inr (.inr (.inl ⟨rfl, _, _, rfl, h1, h2, rfl, rfl⟩))
    | can h1 h2 => exact .inr (.inr (.inr (.inl ⟨rfl, _, h1, h2, (canBytes_eq _).symm, rfl, rfl⟩)))
    | other h1 h2 h3 h4 => exact .inr (.inr (.inr (.inr ⟨h1, _, _, h2, h3, h4, rfl⟩)))
  · rintro (⟨h1, s, r, rfl, h2, h3, rfl, rfl⟩ | ⟨rfl, s, r, rfl, h1, h2, rfl, rfl⟩ | ⟨rfl, s, r, rfl, h1, h2, rfl, rfl⟩ |
      ⟨rfl, n, h1, h2, rfl, rfl, rfl⟩ | ⟨h1, t, p, h2, h3, h4, rfl⟩)
    · exact .link h1 h2 h3
    · exact .inet h1 h2
    · exact .inet6 h1 h2
    · rw [canBytes_eq]; exact .can h1 h2
    · exact .other h1 h2 h3 h4

theorem convertAddress_ok {E : Env α} {v : J} (hv : v.InPlace) {masked : Bool} {sa sa' : Sa} {off : Nat} :
    convertAddress E (leafEv v) masked sa off = .ok sa' ↔
      ∃ b bits fam addr, Address E sa.addrLen masked sa.family v b bits fam ∧ Patched sa.addr off b addr ∧
        sa' = { sa with addr := addr, family := fam, addrLen := if sa.addrLen = 0 then bits else sa.addrLen } := by
  simp only [address_iff]
  unfold convertAddress
  have d1 : AF_INET ≠ AF_LINK48 := by decide
  have d2 : AF_INET ≠ AF_LINK64 := by decide
  have d3 : AF_INET6 ≠ AF_LINK48 := by decide
  have d4 : AF_INET6 ≠ AF_LINK64 := by decide
  have d5 : AF_INET6 ≠ AF_INET := by decide
  have d6 : AF_CAN ≠ AF_LINK48 := by decide
  have d7 : AF_CAN ≠ AF_LINK64 := by decide
  have d8 : AF_CAN ≠ AF_INET := by decide
  have d9 : AF_CAN ≠ AF_INET6 := by decide
  by_cases h1 : sa.family = AF_LINK48 ∨ sa.family = AF_LINK64
  · rw [if_pos h1]
    have e1 : sa.family ≠ AF_INET := by rcases h1 with h | h <;> rw [h] <;> decide
    have e2 : sa.family ≠ AF_INET6 := by rcases h1 with h | h <;> rw [h] <;> decide
    have e3 : sa.family ≠ AF_CAN := by rcases h1 with h | h <;> rw [h] <;> decide
    have e4 : ¬ sa.family ∉ [0, AF_LINK48, AF_LINK64, AF_INET, AF_INET6, AF_CAN] := by rcases h1 with h | h <;> simp [h]
    simp only [h1, e1, e2, e3, e4, true_and, false_and, or_false]
    by_cases ht : (leafEv v).type = .string
    · rw [if_neg (by simpa using ht)]
      obtain ⟨s, r, rfl⟩ := leaf_string ht
      obtain ⟨r', rfl⟩ := hv
      simp only [leafEv, bind_ok_iff, linkBytes_ok r' 9 [] s _ (by simp), overwrite_ok, Res.ok.injEq, lenIfUnset_eq]
      constructor
      · rintro ⟨b, ⟨_, h2, rfl, h3⟩, addr, h4, rfl⟩
        exact ⟨_, _, _, addr, ⟨s, _, rfl, h2, h3, rfl, rfl⟩, h4, rfl⟩
      · rintro ⟨b, bits, fam, addr, ⟨s, _, ⟨⟩, h2, h3, rfl, rfl⟩, h4, rfl⟩
        exact ⟨b, ⟨b, h2, rfl, h3⟩, addr, h4, rfl⟩
    · rw [if_pos ht]
      simp only [reduceCtorEq, false_iff]
      rintro ⟨_, _, _, _, ⟨s, r, rfl, _⟩, _⟩
      exact ht rfl
  rw [if_neg h1]
  by_cases h2 : sa.family = AF_INET
  · rw [if_pos h2]
    simp only [h2, d1, d2, d5.symm, d8.symm, true_and, false_and, or_false, false_or, List.mem_cons, true_or, or_true, not_true_eq_false]
    by_cases ht : (leafEv v).type = .string
    · rw [if_neg (by simpa using ht)]
      obtain ⟨s, r, rfl⟩ := leaf_string ht
      by_cases hl : 16 ≤ s.length
      · simp only [leafEv, hl, if_true, reduceCtorEq, false_iff]
        rintro ⟨_, _, _, _, ⟨s, r, ⟨⟩, h, _⟩, _⟩
        omega
      simp only [leafEv, hl, if_false]
      rcases hp : E.pton4 s with _ | b
      · simp only [reduceCtorEq, false_iff]
        rintro ⟨_, _, _, _, ⟨s, r, ⟨⟩, h, h', _⟩, _⟩
        rw [hp] at h'; cases h'
      · simp only [bind_ok_iff, overwrite_ok, Res.ok.injEq, lenIfUnset_eq]
        constructor
        · rintro ⟨addr, h4, rfl⟩
          exact ⟨b, _, _, addr, ⟨s, _, rfl, by omega, hp, rfl, rfl⟩, h4, by simp [h2]⟩
        · rintro ⟨b, bits, fam, addr, ⟨s, _, ⟨⟩, h3, h4, rfl, rfl⟩, h5, rfl⟩
          rw [hp] at h4
          injection h4 with h4
          subst h4
          exact ⟨addr, h5, by simp [h2]⟩
    · rw [if_pos ht]
      simp only [reduceCtorEq, false_iff]
      rintro ⟨_, _, _, _, ⟨s, r, rfl, _⟩, _⟩
      exact ht rfl
  rw [if_neg h2]
  by_cases h3 : sa.family = AF_INET6
  · rw [if_pos h3]
    simp only [h3, d3, d4, d5, d9.symm, true_and, false_and, or_false, false_or, List.mem_cons, true_or, or_true, not_true_eq_false]
    by_cases ht : (leafEv v).type = .string
    · rw [if_neg (by simpa using ht)]
      obtain ⟨s, r, rfl⟩ := leaf_string ht
      by_cases hl : 64 ≤ s.length
      · simp only [leafEv, hl, if_true, reduceCtorEq, false_iff]
        rintro ⟨_, _, _, _, ⟨s, r, ⟨⟩, h, _⟩, _⟩
        omega
      simp only [leafEv, hl, if_false]
      rcases hp : E.pton6 s with _ | b
      · simp only [reduceCtorEq, false_iff]
        rintro ⟨_, _, _, _, ⟨s, r, ⟨⟩, h, h', _⟩, _⟩
        rw [hp] at h'; cases h'
      · simp only [bind_ok_iff, overwrite_ok, Res.ok.injEq, lenIfUnset_eq]
        constructor
        · rintro ⟨addr, h4, rfl⟩
          exact ⟨b, _, _, addr, ⟨s, _, rfl, by omega, hp, rfl, rfl⟩, h4, by simp [h3]⟩
        · rintro ⟨b, bits, fam, addr, ⟨s, _, ⟨⟩, h3', h4, rfl, rfl⟩, h5, rfl⟩
          rw [hp] at h4
          injection h4 with h4
          subst h4
          exact ⟨addr, h5, by simp [h3]⟩
    · rw [if_pos ht]
      simp only [reduceCtorEq, false_iff]
      rintro ⟨_, _, _, _, ⟨s, r, rfl, _⟩, _⟩
      exact ht rfl
  rw [if_neg h3]
  by_cases h4 : sa.family = AF_CAN
  · rw [if_pos h4]
    simp only [h4, d6, d7, d8, d9, true_and, false_and, or_false, false_or, List.mem_cons, true_or, or_true, not_true_eq_false]
    by_cases hm : 32 < sa.addrLen ∧ (masked = false ∨ 64 < sa.addrLen)
    · have hlen : ¬ sa.addrLen ≤ (if masked then 64 else 32) := by
        rcases hm with ⟨h, rfl | h'⟩
        · simp; omega
        · split <;> omega
      simp only [hm, hlen, true_and, if_true, false_and, and_false, exists_false, iff_false]
      intro h
      split at h
      · cases h
      split at h
      · cases h
      · cases h
    · have hlen : sa.addrLen ≤ (if masked then 64 else 32) := by
        cases masked with
        | false => simp at hm ⊢; omega
        | true => simp at hm ⊢; omega
      rw [if_neg hm]
      refine (can_conv (v := v) (f := fun u => (overwrite sa.addr off (canBytes u)).bind fun addr => .ok ({ sa with addr := addr, family := AF_CAN }.lenIfUnset 32)) rfl).trans ?_
      simp only [bind_ok_iff, overwrite_ok, Res.ok.injEq, lenIfUnset_eq]
      constructor
      · rintro ⟨n, hn, addr, h5, rfl⟩
        exact ⟨canBytes n, _, _, addr, ⟨n, hn, hlen, rfl, rfl, rfl⟩, h5, by simp [h4]⟩
      · rintro ⟨b, bits, fam, addr, ⟨n, hn, _, rfl, rfl, rfl⟩, h5, rfl⟩
        exact ⟨n, hn, addr, h5, by simp [h4]⟩
  rw [if_neg h4]
  by_cases h5 : sa.family = 0
  · rw [if_pos h5]
    have h1' := not_or.1 h1
    simp only [h1'.1, h1'.2, h2, h3, h4, false_and, false_or, or_false]
    simp [h5]
  rw [if_neg h5]
  have h1' := not_or.1 h1
  have hno : sa.family ∉ [0, AF_LINK48, AF_LINK64, AF_INET, AF_INET6, AF_CAN] := by
    simp [h1'.1, h1'.2, h2, h3, h4, h5]
  simp only [h1'.1, h1'.2, h2, h3, h4, false_and, false_or, or_false, hno, not_false_eq_true, true_and]
  by_cases ht : (leafEv v).type ≠ .string ∧ (leafEv v).type ≠ .number
  · rw [if_pos ht]
    simp only [reduceCtorEq, false_iff]
    rintro ⟨_, _, _, _, ⟨t, p, h, _⟩, _⟩
    rcases (text_iff.1 h).1 with h | h
    · exact ht.2 h
    · exact ht.1 h
  rw [if_neg ht]
  have htext : ∀ t, Text v t ↔ t = (leafEv v).data := by
    intro t
    rw [text_iff]
    constructor
    · exact fun h => h.2
    · intro h
      refine ⟨?_, h⟩
      by_cases h1 : (leafEv v).type = .number
      · exact .inl h1
      · by_cases h2 : (leafEv v).type = .string
        · exact .inr h2
        · exact absurd ⟨h2, h1⟩ ht
  simp only [htext]
  rcases hp : E.famParser sa.family with _ | p
  · simp
  simp only
  rcases hq : p (leafEv v).data (if sa.addrLen = 0 then 128 else sa.addrLen) with e | ⟨b, bits⟩
  · simp only [reduceCtorEq, false_iff]
    rintro ⟨_, _, _, _, ⟨t, p', rfl, h, h', _⟩, _⟩
    injection h with h
    subst h
    rw [hq] at h'
    cases h'
  · simp only [bind_ok_iff, overwrite_ok, Res.ok.injEq, lenIfUnset_eq]
    constructor
    · rintro ⟨addr, h5, rfl⟩
      exact ⟨b, bits, _, addr, ⟨_, p, rfl, rfl, hq, rfl⟩, h5, rfl⟩
    · rintro ⟨b', bits', fam, addr, ⟨t, p', rfl, h, h', rfl⟩, h5, rfl⟩
      injection h with h
      subst h
      rw [hq] at h'
      injection h' with h'
      injection h' with e1 e2
      subst e1; subst e2
      exact ⟨addr, h5, rfl⟩

/-! ### Endpoints -/

theorem has_clear {f w b : Flags} (h : w &&& b = 0) : (f &&& ~~~w).has b = f.has b := by
  unfold Flags.has
  have : f &&& ~~~w &&& b = f &&& b := by
    apply BitVec.eq_of_getLsbD_eq
    intro i hi
    have hw := congrArg (fun x : Flags => x.getLsbD i) h
    simp [hi] at hw
    simp [hi]
    cases hwi : w[i]
    · simp
    · rw [hw hwi]; simp
  rw [this]

theorem clear_port_bitmask (side : Side) : side.addrWild &&& side.bitmask = 0 := by cases side <;> decide
theorem clear_port_tcplike (side : Side) : side.portWild &&& RF.TCPLIKE_PORT_NUMBERS = 0 := by cases side <;> decide

theorem has_set (f : Flags) (side : Side) : (f ||| side.bitmask).has side.bitmask = true := by
  unfold Flags.has
  have h1 : (f ||| side.bitmask) &&& side.bitmask = side.bitmask := by
    apply BitVec.eq_of_getLsbD_eq
    intro i hi
    simp [hi]
    cases side.bitmask[i] <;> simp
  rw [h1]
  cases side <;> decide

theorem tcplike_has (f : Flags) : f.hasAll RF.TCPLIKE_PORT_NUMBERS = f.has RF.TCPLIKE_PORT_NUMBERS := by
  unfold Flags.has Flags.hasAll RF.TCPLIKE_PORT_NUMBERS bit
  have : f &&& BitVec.twoPow 32 9 = 0#32 ∨ f &&& BitVec.twoPow 32 9 = BitVec.twoPow 32 9 := by
    rw [BitVec.and_twoPow]
    split
    · exact .inr rfl
    · exact .inl rfl
  rcases this with h | h <;> rw [h] <;> decide

theorem setFlag_false (f g : Flags) : setFlag false f g = f &&& ~~~g := rfl
theorem setFlag_true (f g : Flags) : setFlag true f g = f ||| g := rfl

theorem portName_ok {E : Env α} {flags : Flags} {s : List Byte} {sa sa' : Sa} {after : List Byte} :
    convertPortName E flags s sa = .ok sa' ↔ ∃ n, Port E flags sa.proto (.str s after) n ∧ sa' = { sa with port := n } := by
  unfold convertPortName
  have hport : ∀ n, Port E flags sa.proto (.str s after) n ↔ flags.has RF.TCPLIKE_PORT_NUMBERS = true ∧ s.length < 64 ∧ ∃ p m,
      ((sa.proto = 0 ∧ p = none) ∨ (sa.proto ≠ 0 ∧ E.protoByNumber sa.proto = .unknown ∧ p = none) ∨
        (∃ nm, sa.proto ≠ 0 ∧ E.protoByNumber sa.proto = .found nm ∧ nm.length < 16 ∧ p = some nm)) ∧
      E.servByName s p = .found m ∧ n = m % 65536 := by
    intro n
    constructor
    · intro h
      cases h with
      | service h1 h2 h3 h4 => exact ⟨h1, h2, _, _, h3, h4, rfl⟩
    · rintro ⟨h1, h2, p, m, h3, h4, rfl⟩
      exact .service h1 h2 h3 h4
  simp only [hport]
  rw [tcplike_has]
  by_cases h1 : flags.has RF.TCPLIKE_PORT_NUMBERS = true
  rotate_left
  · rw [if_pos h1]; simp [h1]
  rw [if_neg (by simpa using h1)]
  by_cases h2 : 64 ≤ s.length
  · rw [if_pos h2]
    simp only [reduceCtorEq, false_iff]
    rintro ⟨n, ⟨_, h, _⟩, _⟩
    omega
  rw [if_neg h2]
  have h2' : s.length < 64 := by omega
  simp only [h1, h2', true_and, bind_ok_iff]
  have hserv : ∀ p, (match E.servByName s p with
      | .error e => .err e
      | .unknown => .ub
      | .found m => .ok { sa with port := m % 65536 } : Res Sa) = .ok sa' ↔ ∃ m, E.servByName s p = .found m ∧ sa' = { sa with port := m % 65536 } := by
    intro p
    rcases E.servByName s p with m | _ | e
    · simp; exact eq_comm
    · simp
    · simp
  constructor
  · rintro ⟨p, hp, h⟩
    obtain ⟨m, hm, rfl⟩ := (hserv p).1 h
    refine ⟨_, ⟨p, m, ?_, hm, rfl⟩, rfl⟩
    by_cases h0 : sa.proto = 0
    · rw [if_pos h0] at hp
      injection hp with hp
      exact .inl ⟨h0, hp.symm⟩
    · rw [if_neg h0] at hp
      rcases hq : E.protoByNumber sa.proto with nm | _ | e
      · simp only [hq] at hp
        split at hp
        · rename_i hl
          injection hp with hp
          exact .inr (.inr ⟨nm, h0, rfl, by omega, hp.symm⟩)
        · cases hp
      · simp only [hq] at hp
        injection hp with hp
        exact .inr (.inl ⟨h0, rfl, hp.symm⟩)
      · simp only [hq] at hp; cases hp
  · rintro ⟨n, ⟨p, m, hp, hm, rfl⟩, rfl⟩
    refine ⟨p, ?_, (hserv p).2 ⟨m, hm, rfl⟩⟩
    rcases hp with ⟨h0, rfl⟩ | ⟨h0, hq, rfl⟩ | ⟨nm, h0, hq, hl, rfl⟩
    · rw [if_pos h0]
    · rw [if_neg h0, hq]
    · rw [if_neg h0, hq]
      simp only
      rw [if_pos (by omega)]

theorem port_iff {E : Env α} {flags : Flags} {v : J} {sa sa' : Sa} :
    (if (leafEv v).type = .number then Res.map (fun n => { sa with port := n }) (convertU16 (leafEv v).type (leafEv v).data)
      else if (leafEv v).type = .string then convertPortName E flags (leafEv v).data sa
      else .err .configInvalidValue) = .ok sa' ↔ ∃ n, Port E flags sa.proto v n ∧ sa' = { sa with port := n } := by
  by_cases h1 : (leafEv v).type = .number
  · rw [if_pos h1, map_ok]
    simp only [u16_conv]
    obtain ⟨t, r, rfl⟩ := leaf_number h1
    constructor
    · rintro ⟨n, h, rfl⟩; exact ⟨n, .number h, rfl⟩
    · rintro ⟨n, h, rfl⟩
      cases h with
      | number h => exact ⟨n, h, rfl⟩
  rw [if_neg h1]
  by_cases h2 : (leafEv v).type = .string
  · rw [if_pos h2]
    obtain ⟨t, r, rfl⟩ := leaf_string h2
    exact portName_ok
  rw [if_neg h2]
  simp only [reduceCtorEq, false_iff]
  rintro ⟨n, h, _⟩
  cases h with
  | number => exact h1 rfl
  | service => exact h2 rfl

theorem endpointMember_iff {E : Env α} {side : Side} {k : List Byte} {v : J} {r r' : RouteUC} :
    EndpointMember E side k v r r' ↔
      (k = ascii "port" ∧ (r.sa side).family ≠ 0 ∧ ∃ n, Port E r.flags (r.sa side).proto v n ∧
        r' = { r with flags := setFlag false r.flags side.portWild }.setSa side { r.sa side with port := n }) ∨
      (k = ascii "address" ∧ ∃ b bits fam addr, Address E (r.sa side).addrLen (r.flags.has side.bitmask) (r.sa side).family v b bits fam ∧
        Patched (r.sa side).addr 0 b addr ∧ r' = { r with flags := setFlag false r.flags side.addrWild }.setSa side
          { r.sa side with addr := addr, family := fam, addrLen := if (r.sa side).addrLen = 0 then bits else (r.sa side).addrLen }) ∨
      (k = ascii "bitmask" ∧ (r.sa side).family ≠ 0 ∧ ∃ size, E.famMaxBits (r.sa side).family = .ok size ∧ size % 8 = 0 ∧ size ≤ 64 ∧
        ∃ addr0, (((r.sa side).addrLen = 0 ∨ (r.sa side).addrLen = size) ∧ addr0 = (r.sa side).addr ∨
        (∃ pad, (r.sa side).addrLen ≠ 0 ∧ (r.sa side).addrLen < size ∧ pad = (size - (r.sa side).addrLen + 7) / 8 ∧ pad + (r.sa side).addrLen ≤ 16 ∧
          addr0 = List.replicate pad 0 ++ (r.sa side).addr.take (r.sa side).addrLen ++ (r.sa side).addr.drop (pad + (r.sa side).addrLen))) ∧
        ∃ b bits fam addr, Address E (r.sa side).addrLen true (r.sa side).family v b bits fam ∧ Patched addr0 (size / 8) b addr ∧
        r' = { r with flags := setFlag true r.flags side.bitmask }.setSa side { r.sa side with addr := addr, family := fam, addrLen := size * 2 }) ∨
      (k = ascii "prefix-bits" ∧ (r.sa side).family ≠ 0 ∧ r.flags.has side.bitmask = false ∧ ∃ n, UInt 16 8 v n ∧
        r' = r.setSa side { r.sa side with addrLen := n }) ∨
      (k = ascii "interface" ∧ ∃ n, UInt 8 4 v n ∧
        r' = { r with flags := setFlag false r.flags side.ifaceWild }.setSa side { r.sa side with iface := n }) := by
  constructor
  · intro h
    cases h with
    | port h1 h2 => exact .inl ⟨rfl, h1, _, h2, rfl⟩
    | address h1 h2 => exact .inr (.inl ⟨rfl, _, _, _, _, h1, h2, rfl⟩)
    | bitmask h1 h2 h3 h4 h5 h6 h7 => exact .inr (.inr (.inl ⟨rfl, h1, _, h2, h3, h4, _, h5, _, _, _, _, h6, h7, rfl⟩))
    | prefixBits h1 h2 h3 => exact .inr (.inr (.inr (.inl ⟨rfl, h1, h2, _, h3, rfl⟩)))
    | interface h => exact .inr (.inr (.inr (.inr ⟨rfl, _, h, rfl⟩)))
  · rintro (⟨rfl, h1, n, h2, rfl⟩ | ⟨rfl, b, bits, fam, addr, h1, h2, rfl⟩ | ⟨rfl, h1, size, h2, h3, h4, addr0, h5, b, bits, fam, addr, h6, h7, rfl⟩ |
      ⟨rfl, h1, h2, n, h3, rfl⟩ | ⟨rfl, n, h, rfl⟩)
    · exact .port h1 h2
    · exact .address h1 h2
    · exact .bitmask h1 h2 h3 h4 h5 h6 h7
    · exact .prefixBits h1 h2 h3
    · exact .interface h

theorem justify_ok {sa sa' : Sa} {size : Nat} : justify sa size = .ok sa' ↔
    ∃ addr0, ((sa.addrLen = 0 ∨ sa.addrLen = size) ∧ addr0 = sa.addr ∨
        (∃ pad, sa.addrLen ≠ 0 ∧ sa.addrLen < size ∧ pad = (size - sa.addrLen + 7) / 8 ∧ pad + sa.addrLen ≤ 16 ∧
          addr0 = List.replicate pad 0 ++ sa.addr.take sa.addrLen ++ sa.addr.drop (pad + sa.addrLen))) ∧ sa' = { sa with addr := addr0 } := by
  unfold justify
  by_cases h1 : sa.addrLen ≠ 0 ∧ sa.addrLen ≠ size
  · rw [if_pos h1]
    have h1' : ¬ (sa.addrLen = 0 ∨ sa.addrLen = size) := by simpa using h1
    simp only [h1', false_and, false_or]
    by_cases h2 : size < sa.addrLen
    · rw [if_pos h2]
      simp only [reduceCtorEq, false_iff]
      rintro ⟨_, ⟨_, _, h, _⟩, _⟩
      omega
    rw [if_neg h2]
    simp only [bits_bytes]
    by_cases h3 : 16 < (size - sa.addrLen + 7) / 8 + sa.addrLen
    · rw [if_pos h3]
      simp only [reduceCtorEq, false_iff]
      rintro ⟨_, ⟨pad, _, _, rfl, h, _⟩, _⟩
      omega
    rw [if_neg h3]
    simp only [Res.ok.injEq]
    constructor
    · rintro rfl
      exact ⟨_, ⟨_, h1.1, by omega, rfl, by omega, rfl⟩, rfl⟩
    · rintro ⟨_, ⟨_, _, _, rfl, _, rfl⟩, rfl⟩
      rfl
  · rw [if_neg h1]
    have h1' : sa.addrLen = 0 ∨ sa.addrLen = size := by omega
    simp only [Res.ok.injEq]
    constructor
    · rintro rfl
      exact ⟨_, .inl ⟨h1', rfl⟩, rfl⟩
    · rintro ⟨_, ⟨_, rfl⟩ | ⟨_, h, h', _⟩, rfl⟩
      · rfl
      · omega

theorem endpoint_leaf {E : Env α} {side : Side} {k : List Byte} {v : J} {r r' : RouteUC} (h : EndpointMember E side k v r r') :
    restEvs v = [] := by
  cases h with
  | port _ h =>
    cases h with
    | number => rfl
    | service => rfl
  | address h => exact address_leaf h
  | bitmask _ _ _ _ _ h => exact address_leaf h
  | prefixBits _ _ h => exact uint_leaf h
  | interface h => exact uint_leaf h

theorem endpointClause_ok {E : Env α} {side : Side} {k : List Byte} {v : J} (hv : v.InPlace) {r r' : RouteUC} :
    endpointClause E k (leafEv v) side r = .ok r' ↔ EndpointMember E side k v r r' := by
  rw [endpointMember_iff]
  unfold endpointClause
  by_cases h1 : k = ascii "port"
  · subst h1
    simp (decide := true) only [if_true, true_and, false_and, or_false]
    by_cases h0 : (r.sa side).family = 0
    · simp [h0]
    simp only [h0, if_false, ne_eq, not_false_eq_true, true_and]
    have hp := fun sa' => port_iff (E := E) (flags := r.flags &&& ~~~side.portWild) (v := v) (sa := r.sa side) (sa' := sa')
    have hflag : ∀ n, Port E (r.flags &&& ~~~side.portWild) (r.sa side).proto v n ↔ Port E r.flags (r.sa side).proto v n := by
      intro n
      have hh := has_clear (f := r.flags) (clear_port_tcplike side)
      constructor
      · intro h
        cases h with
        | number h => exact .number h
        | service h1 h2 h3 h4 => exact .service (hh ▸ h1) h2 h3 h4
      · intro h
        cases h with
        | number h => exact .number h
        | service h1 h2 h3 h4 => exact .service (hh.symm ▸ h1) h2 h3 h4
    have hsplit : (if (leafEv v).type = .number then
          Res.map (fun n => RouteUC.setSa { r with flags := r.flags &&& ~~~side.portWild } side { r.sa side with port := n }) (convertU16 (leafEv v).type (leafEv v).data)
        else if (leafEv v).type = .string then
          Res.map (RouteUC.setSa { r with flags := r.flags &&& ~~~side.portWild } side) (convertPortName E (r.flags &&& ~~~side.portWild) (leafEv v).data (r.sa side))
        else .err .configInvalidValue) =
      Res.map (RouteUC.setSa { r with flags := r.flags &&& ~~~side.portWild } side)
        (if (leafEv v).type = .number then Res.map (fun n => { r.sa side with port := n }) (convertU16 (leafEv v).type (leafEv v).data)
          else if (leafEv v).type = .string then convertPortName E (r.flags &&& ~~~side.portWild) (leafEv v).data (r.sa side)
          else .err .configInvalidValue) := by
      split
      · rcases convertU16 (leafEv v).type (leafEv v).data <;> rfl
      split <;> rfl
    rw [hsplit, map_ok]
    simp only [hp, hflag, setFlag_false]
    constructor
    · rintro ⟨_, ⟨n, h, rfl⟩, rfl⟩; exact ⟨n, h, rfl⟩
    · rintro ⟨n, h, rfl⟩; exact ⟨_, ⟨n, h, rfl⟩, rfl⟩
  simp only [h1, if_false, false_and, false_or]
  by_cases h2 : k = ascii "address"
  · subst h2
    simp (decide := true) only [if_true, true_and, false_and, or_false]
    by_cases h0 : (r.sa side).family = 0
    · rw [if_pos h0]
      simp only [reduceCtorEq, false_iff]
      rintro ⟨b, bits, fam, addr, h, _⟩
      rw [h0, address_iff] at h
      rcases h with ⟨h | h, _⟩ | ⟨h, _⟩ | ⟨h, _⟩ | ⟨h, _⟩ | ⟨h, _⟩
      · exact absurd h (by decide)
      · exact absurd h (by decide)
      · exact absurd h (by decide)
      · exact absurd h (by decide)
      · exact absurd h (by decide)
      · exact h (by simp)
    rw [if_neg h0, map_ok, has_clear (clear_port_bitmask side)]
    simp only [convertAddress_ok hv, setFlag_false]
    constructor
    · rintro ⟨_, ⟨b, bits, fam, addr, h1, h2, rfl⟩, rfl⟩; exact ⟨b, bits, fam, addr, h1, h2, rfl⟩
    · rintro ⟨b, bits, fam, addr, h1, h2, rfl⟩; exact ⟨_, ⟨b, bits, fam, addr, h1, h2, rfl⟩, rfl⟩
  simp only [h2, if_false, false_and, false_or]
  by_cases h3 : k = ascii "bitmask"
  · subst h3
    simp (decide := true) only [if_true, true_and, false_and, or_false]
    by_cases h0 : (r.sa side).family = 0
    · simp [h0]
    simp only [h0, if_false, ne_eq, not_false_eq_true, true_and]
    rcases hm : E.famMaxBits (r.sa side).family with e | size
    · simp
    simp only [Except.ok.injEq]
    by_cases h8 : size % 8 = 0
    rotate_left
    · rw [if_pos h8]
      simp only [reduceCtorEq, false_iff]
      rintro ⟨_, rfl, h, _⟩
      exact h8 h
    rw [if_neg (by simpa using h8)]
    by_cases h64 : 128 < size * 2
    · rw [if_pos h64]
      simp only [reduceCtorEq, false_iff]
      rintro ⟨_, rfl, _, h, _⟩
      omega
    rw [if_neg h64]
    have hb : bitsToBytes size = size / 8 := by rw [bits_bytes]; omega
    simp only [bind_ok_iff, justify_ok, has_set, convertAddress_ok hv, hb, Res.ok.injEq, setFlag_true]
    constructor
    · rintro ⟨_, ⟨addr0, g1, rfl⟩, _, ⟨b, bits, fam, addr, g2, g3, rfl⟩, rfl⟩
      exact ⟨size, rfl, h8, by omega, addr0, g1, b, bits, fam, addr, g2, g3, rfl⟩
    · rintro ⟨_, rfl, _, _, addr0, g1, b, bits, fam, addr, g2, g3, rfl⟩
      exact ⟨_, ⟨addr0, g1, rfl⟩, _, ⟨b, bits, fam, addr, g2, g3, rfl⟩, rfl⟩
  simp only [h3, if_false, false_and, false_or]
  by_cases h4 : k = ascii "prefix-bits"
  · subst h4
    simp (decide := true) only [if_true, true_and, false_and, or_false]
    by_cases h0 : (r.sa side).family = 0
    · simp [h0]
    simp only [h0, if_false, ne_eq, not_false_eq_true, true_and]
    by_cases hb : r.flags.has side.bitmask = true
    · simp [hb]
    simp only [hb, Bool.false_eq_true, if_false, true_and, map_ok, u16_conv]
    constructor
    · rintro ⟨n, h, rfl⟩; exact ⟨n, h, rfl⟩
    · rintro ⟨n, h, rfl⟩; exact ⟨n, h, rfl⟩
  simp only [h4, if_false, false_and, false_or]
  by_cases h5 : k = ascii "interface"
  · subst h5
    simp only [if_true, true_and, map_ok, u8_conv, setFlag_false]
    constructor
    · rintro ⟨n, h, rfl⟩; exact ⟨n, h, rfl⟩
    · rintro ⟨n, h, rfl⟩; exact ⟨n, h, rfl⟩
  · simp [h5]

end WS.Conf
