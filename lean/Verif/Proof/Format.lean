import Verif.Spec.Format
/-
Lemmas about the renderers.
-/
namespace WS.Fmt
open WS WS.Spec

/-! ### decimal numbers -/

theorem decDigit_eq (d : Nat) (h : d < 10) : BitVec.ofNat 8 (48 + d) = decDigit d := by
  have : ∀ d : Fin 10, BitVec.ofNat 8 (48 + d.val) = decDigit d.val := by decide
  exact this ⟨d, h⟩

theorem hexdigit_eq (d : Nat) : hexdigitNtoa d = (ascii "0123456789abcdef").getD (d % 16) 0 := by
  have h : ∀ d : Fin 16, hexdigitNtoa d.val = (ascii "0123456789abcdef").getD d.val 0 := by decide
  have h2 : hexdigitNtoa d = hexdigitNtoa (d % 16) := by simp [hexdigitNtoa]
  rw [h2]
  exact h ⟨d % 16, Nat.mod_lt _ (by decide)⟩

theorem itoaDigits_one (n : Nat) : itoaDigits n 1 = [BitVec.ofNat 8 (48 + n)] := by
  rw [itoaDigits, if_pos (by decide), itoaDigits, if_neg (by decide), Nat.div_one]

theorem ten_pow_pos (k : Nat) : 1 ≤ 10 ^ k := Nat.pow_pos (by decide)

theorem itoaDigits_pow (k n : Nat) :
    itoaDigits n (10 ^ (k + 1)) = BitVec.ofNat 8 (48 + n / 10 ^ (k + 1)) :: itoaDigits (n % 10 ^ (k + 1)) (10 ^ k) := by
  have hd : 10 ^ (k + 1) / 10 = 10 ^ k := by rw [Nat.pow_succ]; exact Nat.mul_div_cancel _ (by decide)
  rw [itoaDigits, if_pos (ten_pow_pos _), hd]

theorem itoaDigits_snoc (k n : Nat) :
    itoaDigits n (10 ^ (k + 1)) = itoaDigits (n / 10) (10 ^ k) ++ [BitVec.ofNat 8 (48 + n % 10)] := by
  induction k generalizing n with
  | zero =>
    rw [itoaDigits_pow, show (10 : Nat) ^ 0 = 1 from rfl, itoaDigits_one, itoaDigits_one]
    rfl
  | succ k ih =>
    have hs : 10 ^ (k + 1 + 1) = 10 * 10 ^ (k + 1) := by rw [Nat.mul_comm, ← Nat.pow_succ]
    rw [itoaDigits_pow (k + 1), ih, itoaDigits_pow k, List.cons_append, Nat.div_div_eq_div_mul, ← hs, hs,
      Nat.mod_mul_right_div_self, Nat.mod_mul_right_mod]

theorem itoaDigits_decimal (k n : Nat) (h : n < 10 ^ (k + 1)) (hk : k = 0 ∨ 10 ^ k ≤ n) :
    itoaDigits n (10 ^ k) = decimal n := by
  induction k generalizing n with
  | zero =>
    have h' : n < 10 := by simpa using h
    rw [show (10 : Nat) ^ 0 = 1 from rfl, itoaDigits_one, decimal, if_pos h', decDigit_eq n h']
  | succ k ih =>
    have hge : 10 ^ (k + 1) ≤ n := by rcases hk with h0 | h0; · omega
                                      · exact h0
    have h10 : 10 ≤ 10 ^ (k + 1) := by
      calc 10 = 10 ^ 1 := rfl
        _ ≤ 10 ^ (k + 1) := Nat.pow_le_pow_right (by decide) (by omega)
    rw [itoaDigits_snoc k n, decimal, if_neg (by omega), decDigit_eq _ (Nat.mod_lt _ (by decide))]
    congr 1
    have hs : 10 ^ (k + 1) = 10 ^ k * 10 := Nat.pow_succ ..
    have hs2 : 10 ^ (k + 1 + 1) = 10 ^ (k + 1) * 10 := Nat.pow_succ ..
    apply ih
    · omega
    · right; omega

theorem decimal_len (k n : Nat) (h : n < 10 ^ (k + 1)) (hk : k = 0 ∨ 10 ^ k ≤ n) : (decimal n).length = k + 1 := by
  induction k generalizing n with
  | zero =>
    have h' : n < 10 := by simpa using h
    rw [decimal, if_pos h']; rfl
  | succ k ih =>
    have hge : 10 ^ (k + 1) ≤ n := by rcases hk with h0 | h0; · omega
                                      · exact h0
    have hs : 10 ^ (k + 1) = 10 ^ k * 10 := Nat.pow_succ ..
    have hs2 : 10 ^ (k + 1 + 1) = 10 ^ (k + 1) * 10 := Nat.pow_succ ..
    have h1 : 1 ≤ 10 ^ k := ten_pow_pos k
    rw [decimal, if_neg (by omega), List.length_append, ih (n / 10) (by omega) (Or.inr (by omega))]
    rfl

theorem itoaThresh_spec (n : Nat) (hn : n < 10 ^ 10) : ∀ (fuel j c : Nat), j + fuel = 8 → (j = 0 ∨ 10 ^ j ≤ n) →
    ∃ k, itoaThresh n (fuel + 1) (10 ^ (j + 1)) c = (10 ^ k, c + (k - j)) ∧ j ≤ k ∧ n < 10 ^ (k + 1) ∧
      (k = 0 ∨ 10 ^ k ≤ n) := by
  intro fuel
  induction fuel with
  | zero =>
    intro j c hj hl
    have : j = 8 := by omega
    subst this
    by_cases h : 10 ^ 9 ≤ n
    · exact ⟨9, by rw [itoaThresh, if_pos h, if_pos (by decide)], by omega, hn, Or.inr h⟩
    · exact ⟨8, by rw [itoaThresh, if_neg h]; rfl, by omega, by omega, Or.inr (by omega)⟩
  | succ fuel ih =>
    intro j c hj hl
    by_cases h : 10 ^ (j + 1) ≤ n
    · have hne : (10 : Nat) ^ (j + 1) ≠ 1000000000 := by
        intro hc
        have h9 : (10 : Nat) ^ (j + 1) < 10 ^ 9 := Nat.pow_lt_pow_right (by decide) (by omega)
        rw [hc] at h9
        exact absurd h9 (by decide)
      obtain ⟨k, e, hk, h1, h2⟩ := ih (j + 1) (c + 1) (by omega) (Or.inr h)
      refine ⟨k, ?_, by omega, h1, h2⟩
      rw [itoaThresh, if_pos h, if_neg hne, ← Nat.pow_succ, e, show c + 1 + (k - (j + 1)) = c + (k - j) from by omega]
    · refine ⟨j, ?_, by omega, by omega, hl⟩
      rw [itoaThresh, if_neg h, Nat.pow_succ, Nat.mul_div_cancel _ (by decide)]
      simp

/-- `ws_itoa` in full. -/
theorem wsItoa_spec (i : Int) (s : Out) (hlo : -2147483648 < i) (hhi : i < 2147483648) :
    wsItoa i s = if s.left < (decimalInt i).length then .fail .bufferTooSmall s else .ok (s.put (decimalInt i)) := by
  have hn : i.natAbs < 10 ^ 10 := by omega
  obtain ⟨k, e, _, h1, h2⟩ := itoaThresh_spec i.natAbs hn 8 0 (if i < 0 then 2 else 1) rfl (Or.inl rfl)
  have hd := itoaDigits_decimal k _ h1 h2
  have hl := decimal_len k _ h1 h2
  unfold wsItoa
  rw [if_neg (by omega)]
  simp only
  rw [show (10 : Nat) = 10 ^ (0 + 1) from rfl] 
  simp only [e, hd]
  have htxt : (if i < 0 then [45#8] else []) ++ decimal i.natAbs = decimalInt i := by
    unfold decimalInt
    by_cases hi : i < 0
    · rw [if_pos hi, if_pos hi]; rfl
    · rw [if_neg hi, if_neg hi]; rfl
  have hlen : (if i < 0 then 2 else 1) + (k - 0) = (decimalInt i).length := by
    unfold decimalInt
    by_cases hi : i < 0
    · rw [if_pos hi, if_pos hi, List.length_append, hl]
      show 2 + (k - 0) = 1 + (k + 1)
      omega
    · rw [if_neg hi, if_neg hi, hl]; omega
  rw [htxt, hlen]
  rfl


/-! ### addresses -/

theorem hexByte_eq (b : Byte) : [hexdigitNtoa (b.toNat >>> 4), hexdigitNtoa b.toNat] = hexByte b := by
  have h : b.toNat < 256 := b.isLt
  unfold hexByte
  rw [hexdigit_eq, hexdigit_eq, Nat.shiftRight_eq_div_pow, Nat.mod_eq_of_lt (show b.toNat / 2 ^ 4 < 16 from by omega)]

theorem fmtLink_joined : ∀ (l : List Byte), fmtLinkBytes l true = joined (ascii ":") (l.map hexByte)
  | [] => rfl
  | [b] => by
    simp only [fmtLinkBytes, if_true, List.nil_append, List.append_nil, hexByte_eq, List.map_cons, List.map_nil, joined]
  | b :: c :: rest => by
    have ih := fmtLink_joined (c :: rest)
    rw [fmtLinkBytes, hexByte_eq]
    have h2 : fmtLinkBytes (c :: rest) false = ascii ":" ++ fmtLinkBytes (c :: rest) true := by
      rw [fmtLinkBytes, fmtLinkBytes]
      simp only [if_true, Bool.false_eq_true, if_false, List.nil_append, List.append_assoc]
      rfl
    rw [h2, ih]
    simp only [if_true, List.nil_append, List.map_cons, joined, List.append_assoc]

theorem joined_hex_len : ∀ (l : List Byte), l ≠ [] → (joined (ascii ":") (l.map hexByte)).length + 1 = 3 * l.length
  | [], h => absurd rfl h
  | [b], _ => rfl
  | b :: c :: rest, _ => by
    have ih := joined_hex_len (c :: rest) (by simp)
    simp only [List.map_cons, joined, List.length_append, List.length_cons] at ih ⊢
    have h1 : (hexByte b).length = 2 := rfl
    have h2 : (ascii ":").length = 1 := by decide
    omega

theorem padCopy_eq (n : Nat) (a : List Byte) (len : Nat) (h : len ≤ n) (ha : len ≤ a.length) :
    padCopy n a len = some (padded n (a.take len)) := by
  unfold padCopy padded
  rw [if_neg (by omega), List.length_take, Nat.min_eq_left ha]
  rfl

theorem fmtCan_eq (a : List Byte) (n : Nat) (hn : n ≤ a.length) :
    fmtCanBytes a n = ((padded 4 (a.take n)).take 4).flatMap hexByte := by
  have h0 : hexByte 0#8 = [48#8, 48#8] := by decide
  have key : ∀ i, i < 4 → (if i < n then [hexdigitNtoa ((byteAt a i).toNat >>> 4), hexdigitNtoa (byteAt a i).toNat]
      else [48#8, 48#8]) = hexByte ((padded 4 (a.take n)).getD i 0) := by
    intro i hi
    by_cases h : i < n
    · rw [if_pos h, hexByte_eq]
      congr 1
      unfold byteAt padded
      rw [List.getD_eq_getElem?_getD, List.getD_eq_getElem?_getD, List.getElem?_append_left (by rw [List.length_take]; omega),
        List.getElem?_take, if_pos h]
    · rw [if_neg h, ← h0]
      congr 1
      unfold padded
      rw [List.getD_eq_getElem?_getD, List.getElem?_append_right (by rw [List.length_take]; omega)]
      rw [List.getElem?_replicate]
      split <;> rfl
  have hlen : 4 ≤ (padded 4 (a.take n)).length := by
    unfold padded; rw [List.length_append, List.length_replicate]; omega
  have htake : (padded 4 (a.take n)).take 4 = (List.range 4).map (fun i => (padded 4 (a.take n)).getD i 0) := by
    apply List.ext_getElem
    · rw [List.length_take, List.length_map, List.length_range]; omega
    · intro i h1 h2
      rw [List.getElem_take, List.getElem_map, List.getElem_range, List.getD_eq_getElem?_getD,
        List.getElem?_eq_getElem (by rw [List.length_take] at h1; omega)]
      rfl
  unfold fmtCanBytes
  rw [htake, List.flatMap_map]
  have : ∀ i, i ∈ List.range 4 → i < 4 := fun i hi => List.mem_range.1 hi
  show List.flatMap _ [0, 1, 2, 3] = List.flatMap _ [0, 1, 2, 3]
  simp only [List.flatMap_cons, List.flatMap_nil]
  rw [key 0 (by decide), key 1 (by decide), key 2 (by decide), key 3 (by decide)]

theorem can_len (l : List Byte) : (ascii "0x" ++ ((padded 4 l).take 4).flatMap hexByte).length = 10 := by
  have hlen : ((padded 4 l).take 4).length = 4 := by
    unfold padded; rw [List.length_take, List.length_append, List.length_replicate]; omega
  have : ∀ m : List Byte, (m.flatMap hexByte).length = 2 * m.length := by
    intro m
    induction m with
    | nil => rfl
    | cons x m ih => rw [List.flatMap_cons, List.length_append, ih, List.length_cons]; show 2 + _ = _; omega
  rw [List.length_append, this, hlen]
  rfl

theorem formatAddress_ok (E : FmtEnv) (family : Nat) (a t : List Byte) (bits buflen : Nat)
    (ht : AddrText E family a bits t) (ha : (bits + 7) / 8 ≤ a.length) (hl : t.length + 1 ≤ buflen) :
    ∃ stored, formatAddress E family a bits buflen buflen = .ok t stored ∧ stored ≤ t.length + 1 := by
  unfold AddrText at ht
  unfold formatAddress
  have h3 : bits >>> 3 = bits / 8 := Nat.shiftRight_eq_div_pow bits 3
  have hb : bitsToBytes bits = (bits + 7) / 8 := by unfold bitsToBytes; exact Nat.shiftRight_eq_div_pow _ 3
  cases hf : E.formatter family with
  | some f =>
    rw [hf] at ht
    simp only at ht ⊢
    rw [ht buflen (by omega)]
    exact ⟨_, rfl, by omega⟩
  | none =>
    rw [hf] at ht
    simp only at ht ⊢
    rw [h3, hb]
    rcases ht with ⟨rfl, rfl⟩ | ⟨rfl, hbits, rfl⟩ | ⟨rfl, hbits, rfl⟩ | ⟨rfl, rfl⟩ | ⟨rfl, rfl⟩
    · rw [if_pos rfl, fmtLink_joined]
      have : ¬ (bits / 8 * 3 > buflen) := by
        by_cases h0 : bits / 8 = 0
        · omega
        · have hlen : (a.take (bits / 8)).length = bits / 8 := by rw [List.length_take]; omega
          have hne : a.take (bits / 8) ≠ [] := by
            intro hc
            rw [hc] at hlen
            exact h0 hlen.symm
          have := joined_hex_len _ hne
          omega
      rw [if_neg this]
      exact ⟨_, rfl, by omega⟩
    · rw [if_neg (by decide), if_pos rfl, padCopy_eq 4 a _ (by omega) ha]
      simp only
      rw [if_neg (by omega)]
      exact ⟨_, rfl, by omega⟩
    · rw [if_neg (by decide), if_neg (by decide), if_pos rfl, padCopy_eq 16 a _ (by omega) ha]
      simp only
      rw [if_neg (by omega)]
      exact ⟨_, rfl, by omega⟩
    · rw [if_neg (by decide), if_neg (by decide), if_neg (by decide), if_pos rfl]
      rw [List.length_take, Nat.min_eq_left ha] at hl ⊢
      rw [if_neg (by omega)]
      exact ⟨_, rfl, by omega⟩
    · rw [if_neg (by decide), if_neg (by decide), if_neg (by decide), if_neg (by decide), if_pos rfl]
      rw [can_len] at hl
      rw [if_neg (by omega), fmtCan_eq a _ (by omega)]
      exact ⟨_, rfl, by omega⟩

/-! ### sequences of writes -/

/-- What a step is meant to produce. -/
def opText (at_ : List Byte → Nat → List Byte) : WOp → List Byte → List Byte
  | .str b, acc => acc ++ b
  | .num n, acc => acc ++ decimal n
  | .quoted nm, acc => acc ++ jString nm
  | .addr _ lead a bits trail, acc => acc ++ lead ++ at_ a bits ++ trail
  | .replace b, acc => acc.dropLast ++ b
  | .undefined, acc => acc

def opsText (at_ : List Byte → Nat → List Byte) (ops : List WOp) (acc : List Byte) : List Byte :=
  ops.foldl (fun acc o => opText at_ o acc) acc

/-- Steps with renderable arguments. -/
def OpOK (E : FmtEnv) (family : Nat) (at_ : List Byte → Nat → List Byte) : WOp → Prop
  | .str _ => True
  | .num n => n < 2147483648
  | .quoted _ => True
  | .addr _ _ a bits trail => AddrText E family a bits (at_ a bits) ∧ (bits + 7) / 8 ≤ a.length ∧ trail ≠ []
  | .replace b => b ≠ []
  | .undefined => False

structure Good (cap : Nat) (s : Out) : Prop where
  left : s.left + s.text.length = cap
  high : s.high ≤ cap

theorem writeBytes_ok {cap : Nat} {s : Out} (h : Good cap s) (b : List Byte) (hl : s.text.length + b.length ≤ cap) :
    writeBytes b s = .ok (s.put b) ∧ Good cap (s.put b) := by
  have := h.left
  have := h.high
  refine ⟨by unfold writeBytes; rw [if_neg (by omega)], ?_, ?_⟩
  · simp only [Out.put, List.length_append]; omega
  · simp only [Out.put]; omega

theorem writeBytes_fail {cap : Nat} {s : Out} (h : Good cap s) (b : List Byte) (hl : cap < s.text.length + b.length) :
    writeBytes b s = .fail .bufferTooSmall s := by
  have := h.left
  unfold writeBytes; rw [if_pos (by omega)]

theorem len_pos {l : List Byte} (h : l ≠ []) : 1 ≤ l.length := by
  cases l with
  | nil => exact absurd rfl h
  | cons x l => simp

theorem opText_len (at_ : List Byte → Nat → List Byte) (o : WOp) (acc : List Byte) (E : FmtEnv) (family : Nat)
    (ho : OpOK E family at_ o) : acc.length ≤ (opText at_ o acc).length := by
  cases o with
  | replace b =>
    have := len_pos ho
    simp only [opText, List.length_append, List.length_dropLast]
    omega
  | undefined => exact Nat.le_refl _
  | str b => simp only [opText, List.length_append]; omega
  | num b => simp only [opText, List.length_append]; omega
  | quoted b => simp only [opText, List.length_append]; omega
  | addr _ _ _ _ _ => simp only [opText, List.length_append]; omega

theorem opsText_len (at_ : List Byte → Nat → List Byte) (E : FmtEnv) (family : Nat) : ∀ (os : List WOp) (acc : List Byte),
    (∀ o, o ∈ os → OpOK E family at_ o) → acc.length ≤ (opsText at_ os acc).length
  | [], acc, _ => Nat.le_refl _
  | o :: os, acc, h => Nat.le_trans (opText_len at_ o acc E family (h o (by simp)))
      (opsText_len at_ E family os _ (fun o ho => h o (by simp [ho])))

theorem opText_ne (at_ : List Byte → Nat → List Byte) (o : WOp) (acc : List Byte) (E : FmtEnv) (family : Nat)
    (ho : OpOK E family at_ o) (h : acc ≠ []) : opText at_ o acc ≠ [] := by
  have h1 := opText_len at_ o acc E family ho
  have h2 := len_pos h
  intro hc
  rw [hc] at h1
  simp at h1
  exact h h1

theorem wsItoa_nat (n : Nat) (s : Out) (h : n < 2147483648) :
    wsItoa n s = writeBytes (decimal n) s := by
  rw [wsItoa_spec n s (by omega) (by omega)]
  have : decimalInt (n : Int) = decimal n := by
    unfold decimalInt; rw [if_neg (by omega)]; rfl
  rw [this]
  rfl

theorem good_unwrite {cap : Nat} {s : Out} (h : Good cap s) (hne : s.text ≠ []) : Good cap (unwriteByte s) := by
  have := h.left
  have := len_pos hne
  refine ⟨?_, h.high⟩
  simp only [unwriteByte, List.length_dropLast]
  omega

theorem runOp_ok (E : FmtEnv) (family : Nat) (at_ : List Byte → Nat → List Byte) (cap : Nat) (hcap : cap < 2147483648)
    (o : WOp) (s : Out) (hg : Good cap s) (ho : OpOK E family at_ o) (hne : s.text ≠ [] ∨ ∀ b, o ≠ .replace b)
    (hl : (opText at_ o s.text).length ≤ cap) :
    ∃ s', runOp E family o s = .ok s' ∧ s'.text = opText at_ o s.text ∧ Good cap s' := by
  cases o with
  | str b =>
    simp only [opText, List.length_append] at hl
    obtain ⟨h1, h2⟩ := writeBytes_ok hg b hl
    exact ⟨_, h1, rfl, h2⟩
  | num n =>
    simp only [opText, List.length_append] at hl
    obtain ⟨h1, h2⟩ := writeBytes_ok hg (decimal n) hl
    exact ⟨_, by rw [runOp, wsItoa_nat n s ho, h1], rfl, h2⟩
  | quoted nm =>
    have hq1 : (ascii "\"").length = 1 := by decide
    simp only [opText, jString, List.length_append, hq1] at hl
    have hleft := hg.left
    obtain ⟨h1, g1⟩ := writeBytes_ok hg [34#8] (by simp only [List.length_singleton]; omega)
    obtain ⟨h2, g2⟩ := writeBytes_ok g1 nm (by simp only [Out.put, List.length_append, List.length_singleton]; omega)
    obtain ⟨h3, g3⟩ := writeBytes_ok g2 [34#8] (by simp only [Out.put, List.length_append, List.length_singleton]; omega)
    refine ⟨_, ?_, ?_, g3⟩
    · rw [runOp, if_neg (by omega), h1]
      simp only [WRes.bind, h2, h3]
    · simp only [Out.put, opText, jString, List.append_assoc]
      rfl
  | addr stale lead a bits trail =>
    obtain ⟨ht, ha, htr⟩ := ho
    have htr1 := len_pos htr
    simp only [opText, List.length_append] at hl
    have hleft := hg.left
    obtain ⟨h1, g1⟩ := writeBytes_ok hg lead (by omega)
    have hleft1 := g1.left
    have hput : (s.put lead).text.length = s.text.length + lead.length := by simp [Out.put]
    have hlen : ∀ l, (at_ a bits).length + 1 ≤ l → l ≤ cap →
        ∃ st, formatAddress E family a bits (intSize l) (l % 4294967296) = .ok (at_ a bits) st ∧ st ≤ (at_ a bits).length + 1 := by
      intro l hl1 hl2
      have e1 : l % 4294967296 = l := Nat.mod_eq_of_lt (by omega)
      have e2 : intSize l = l := by unfold intSize; simp only [e1]; rw [if_pos (by omega)]
      rw [e1, e2]
      exact formatAddress_ok E family a _ bits l ht ha hl1
    obtain ⟨st, hf, hst⟩ := hlen (if stale = true then s.left else (s.put lead).left)
      (by split <;> omega) (by split <;> omega)
    have hmod : ((s.put lead).left + sizeTMod - (at_ a bits).length) % sizeTMod = (s.put lead).left - (at_ a bits).length := by
      have : (s.put lead).left + sizeTMod - (at_ a bits).length = ((s.put lead).left - (at_ a bits).length) + sizeTMod := by omega
      rw [this, Nat.add_mod_right]
      apply Nat.mod_eq_of_lt
      show _ < 18446744073709551616
      omega
    have g2 : Good cap
        { text := (s.put lead).text ++ at_ a bits,
          left := ((s.put lead).left + sizeTMod - (at_ a bits).length) % sizeTMod,
          high := max (s.put lead).high ((s.put lead).text.length + st) } := by
      refine ⟨?_, ?_⟩
      · simp only [hmod, List.length_append]; omega
      · have := g1.high
        simp only
        omega
    obtain ⟨h3, g3⟩ := writeBytes_ok g2 trail (by simp only [List.length_append]; omega)
    refine ⟨_, ?_, ?_, g3⟩
    · rw [runOp, h1]
      simp only [WRes.bind, hf, h3]
    · simp only [Out.put, opText]
  | replace b =>
    have hne' : s.text ≠ [] := hne.resolve_right (fun h => h b rfl)
    have g1 := good_unwrite hg hne'
    simp only [opText, List.length_append] at hl
    obtain ⟨h1, g2⟩ := writeBytes_ok g1 b hl
    exact ⟨_, h1, rfl, g2⟩
  | undefined => exact absurd ho id

theorem runOps_ok (E : FmtEnv) (family : Nat) (at_ : List Byte → Nat → List Byte) (cap : Nat) (hcap : cap < 2147483648) :
    ∀ (os : List WOp) (s : Out), Good cap s → (∀ o, o ∈ os → OpOK E family at_ o) → s.text ≠ [] →
      (opsText at_ os s.text).length ≤ cap →
      ∃ s', runOps E family os s = .ok s' ∧ s'.text = opsText at_ os s.text ∧ Good cap s'
  | [], s, hg, _, _, _ => ⟨s, rfl, rfl, hg⟩
  | o :: os, s, hg, ho, hne, hl => by
    have ho1 := ho o (by simp)
    have hmono := opsText_len at_ E family os (opText at_ o s.text) (fun o h => ho o (by simp [h]))
    obtain ⟨s1, h1, h2, g1⟩ := runOp_ok E family at_ cap hcap o s hg ho1 (Or.inl hne)
      (Nat.le_trans hmono hl)
    have hne1 : s1.text ≠ [] := by rw [h2]; exact opText_ne at_ o s.text E family ho1 hne
    obtain ⟨s2, h3, h4, g2⟩ := runOps_ok E family at_ cap hcap os s1 g1 (fun o h => ho o (by simp [h])) hne1
      (by rw [h2]; exact hl)
    refine ⟨s2, ?_, ?_, g2⟩
    · rw [runOps, h1]; exact h3
    · rw [h4, h2]; rfl

/-- Steps that render no address. -/
def NoAddr : WOp → Prop
  | .addr _ _ _ _ _ => False
  | _ => True

theorem runOp_small (E : FmtEnv) (family : Nat) (at_ : List Byte → Nat → List Byte) (cap : Nat)
    (o : WOp) (s : Out) (hg : Good cap s) (ho : OpOK E family at_ o) (hna : NoAddr o) (hne : s.text ≠ [])
    (hl : cap < (opText at_ o s.text).length) :
    ∃ s', runOp E family o s = .fail .bufferTooSmall s' ∧ s'.high ≤ cap := by
  cases o with
  | str b =>
    simp only [opText, List.length_append] at hl
    exact ⟨s, writeBytes_fail hg b hl, hg.high⟩
  | num n =>
    simp only [opText, List.length_append] at hl
    exact ⟨s, by rw [runOp, wsItoa_nat n s ho, writeBytes_fail hg _ hl], hg.high⟩
  | quoted nm =>
    have hq1 : (ascii "\"").length = 1 := by decide
    simp only [opText, jString, List.length_append, hq1] at hl
    have := hg.left
    exact ⟨s, by rw [runOp, if_pos (by omega)], hg.high⟩
  | addr _ _ _ _ _ => exact absurd hna id
  | replace b =>
    have g1 := good_unwrite hg hne
    simp only [opText, List.length_append] at hl
    exact ⟨_, by rw [runOp]; exact writeBytes_fail g1 b hl, g1.high⟩
  | undefined => exact absurd ho id

theorem runOps_small (E : FmtEnv) (family : Nat) (at_ : List Byte → Nat → List Byte) (cap : Nat) (hcap : cap < 2147483648) :
    ∀ (os : List WOp) (s : Out), Good cap s → (∀ o, o ∈ os → OpOK E family at_ o ∧ NoAddr o) → s.text ≠ [] →
      cap < (opsText at_ os s.text).length →
      ∃ s', runOps E family os s = .fail .bufferTooSmall s' ∧ s'.high ≤ cap
  | [], s, hg, _, _, hl => by
    have := hg.left
    simp only [opsText, List.foldl_nil] at hl
    omega
  | o :: os, s, hg, ho, hne, hl => by
    obtain ⟨ho1, hna1⟩ := ho o (by simp)
    by_cases hc : (opText at_ o s.text).length ≤ cap
    · obtain ⟨s1, h1, h2, g1⟩ := runOp_ok E family at_ cap hcap o s hg ho1 (Or.inl hne) hc
      have hne1 : s1.text ≠ [] := by rw [h2]; exact opText_ne at_ o s.text E family ho1 hne
      obtain ⟨s2, h3, h4⟩ := runOps_small E family at_ cap hcap os s1 g1 (fun o h => ho o (by simp [h])) hne1
        (by rw [h2]; exact hl)
      exact ⟨s2, by rw [runOps, h1]; exact h3, h4⟩
    · obtain ⟨s1, h1, h2⟩ := runOp_small E family at_ cap o s hg ho1 hna1 hne (by omega)
      exact ⟨s1, by rw [runOps, h1]; rfl, h2⟩

end WS.Fmt
