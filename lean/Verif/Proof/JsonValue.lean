import Verif.Spec.JsonValue
import Verif.Proof.JsonInts
/-
Proofs for C61 and C62.
-/
namespace WS.JVal
open WS WS.Dom WS.Spec.JVal WS.Spec.Json

/-! ### Lengths -/

theorem lenSize_eq (n : Nat) : lenSize n = (encodeLen n).length := by
  induction n using Nat.strongRecOn with
  | _ n ih =>
    rw [lenSize, encodeLen]
    split
    · rw [ih (n >>> 7) (by rw [Nat.shiftRight_eq_div_pow]; omega), List.length_cons]; omega
    · rfl

theorem byte_high (k : Nat) (h : k < 128) : (0x80#8 ||| BitVec.ofNat 8 k) &&& 0x80#8 = 0x80#8 ∧
    ((0x80#8 ||| BitVec.ofNat 8 k) &&& 0x7f#8).toNat = k ∧ BitVec.ofNat 8 k &&& 0x80#8 = 0#8 ∧ (BitVec.ofNat 8 k).toNat = k := by
  have : ∀ k < 128, (0x80#8 ||| BitVec.ofNat 8 k) &&& 0x80#8 = 0x80#8 ∧
    ((0x80#8 ||| BitVec.ofNat 8 k) &&& 0x7f#8).toNat = k ∧ BitVec.ofNat 8 k &&& 0x80#8 = 0#8 ∧ (BitVec.ofNat 8 k).toNat = k := by decide
  exact this k h

theorem and_7f (n : Nat) : n &&& 0x7f = n % 128 := Nat.and_two_pow_sub_one_eq_mod n 7

theorem readLen_encode (n : Nat) : ∀ (len shift : Nat) (rest : List Byte), len < 2 ^ shift → shift < 64 → n * 2 ^ shift < 2 ^ 64 →
    readLen len shift (encodeLen n ++ rest) = some (len + n * 2 ^ shift) ∧ afterLen (encodeLen n ++ rest) = some rest := by
  induction n using Nat.strongRecOn with
  | _ n ih =>
    intro len shift rest hl hs hn
    rw [encodeLen]
    have or_add : ∀ k, len ||| k <<< shift = len + k * 2 ^ shift := by
      intro k
      rw [Nat.or_comm, ← Nat.shiftLeft_add_eq_or_of_lt hl, Nat.shiftLeft_eq]; omega
    have hlt : n % 128 < 128 := Nat.mod_lt _ (by decide)
    obtain ⟨b1, b2, b3, b4⟩ := byte_high (n % 128) hlt
    by_cases h : 128 ≤ n
    · simp only [h, if_true, List.cons_append, and_7f]
      have hq : n >>> 7 = n / 128 := Nat.shiftRight_eq_div_pow n 7
      have hsplit : n % 128 * 2 ^ shift + n / 128 * 2 ^ (shift + 7) = n * 2 ^ shift := by
        rw [Nat.pow_add, show 2 ^ 7 = 128 from rfl, show n / 128 * (2 ^ shift * 128) = 128 * (n / 128) * 2 ^ shift by
          rw [Nat.mul_comm (2 ^ shift) 128, ← Nat.mul_assoc, Nat.mul_comm (n / 128) 128], ← Nat.add_mul, Nat.add_comm, Nat.div_add_mod]
      have hlow : n % 128 * 2 ^ shift < 2 ^ 64 := by omega
      have hs7 : shift + 7 < 64 := by
        have h1 : 1 ≤ n / 128 := by omega
        have h2 : 2 ^ (shift + 7) ≤ n / 128 * 2 ^ (shift + 7) := Nat.le_mul_of_pos_left _ h1
        exact (Nat.pow_lt_pow_iff_right (by decide : 1 < 2)).1 (by omega)
      have hl' : len + n % 128 * 2 ^ shift < 2 ^ (shift + 7) := by
        have : (n % 128 + 1) * 2 ^ shift ≤ 128 * 2 ^ shift := Nat.mul_le_mul_right _ (by omega)
        rw [Nat.add_mul] at this
        rw [Nat.pow_add, show 2 ^ 7 = 128 from rfl, Nat.mul_comm _ 128]
        omega
      obtain ⟨g1, g2⟩ := ih (n >>> 7) (by omega) (len + n % 128 * 2 ^ shift) (shift + 7) rest hl' hs7 (by rw [hq]; omega)
      constructor
      · rw [readLen, if_neg (by omega), if_pos (by rw [b1]; decide), b2, Nat.mod_eq_of_lt (by rw [Nat.shiftLeft_eq]; exact hlow), or_add, g1, hq]
        congr 1; omega
      · rw [afterLen, if_pos (by rw [b1]; decide), g2]
    · simp only [h, if_false, List.cons_append, and_7f, List.nil_append]
      have hm : n % 128 = n := Nat.mod_eq_of_lt (by omega)
      constructor
      · rw [readLen, if_neg (by omega), if_neg (by rw [b3]; simp), b4, hm, Nat.mod_eq_of_lt (by rw [Nat.shiftLeft_eq]; exact hn), or_add]
      · rw [afterLen, if_neg (by rw [b3]; simp)]

theorem encodeLen_length (n : Nat) : 1 ≤ (encodeLen n).length ∧ (n < 2 ^ 63 → (encodeLen n).length ≤ 9) := by
  have h : ∀ k n, n < 128 ^ (k + 1) → (encodeLen n).length ≤ k + 1 := by
    intro k
    induction k with
    | zero => intro n hn; rw [encodeLen, if_neg (by omega)]; simp
    | succ k ih =>
      intro n hn
      rw [encodeLen]
      split
      · rw [List.length_cons]
        have := ih (n >>> 7) (by rw [Nat.shiftRight_eq_div_pow]; rw [Nat.pow_succ] at hn; exact Nat.div_lt_of_lt_mul (by rw [Nat.mul_comm]; exact hn))
        omega
      · simp
  exact ⟨by rw [encodeLen]; split <;> simp, fun hn => h 8 n (by omega)⟩

/-- What `store` leaves. -/
theorem store_payload {mem : Bool} {c : Cell} {type : Byte} {size : Nat} {data : List Byte} (ht : type &&& 0x80#8 = 0#8) (ht2 : type &&& 0x0f#8 = type)
    (hs : data.length = size) (h64 : size + 1 < 2 ^ 64) (hm : mem = true ∨ size ≤ 15) :
    ∃ c', store mem c type size data = some (c', 0) ∧ typeOf c' = type ∧ ∃ more, payload c' = some (data ++ more) := by
  unfold store
  rw [if_neg (by omega), Nat.mod_eq_of_lt h64]
  by_cases hin : size + 1 ≤ 16
  · rw [if_pos hin]
    refine ⟨_, rfl, ht2, ?_⟩
    exact ⟨_, by simp only [payload, Cell.head, List.headD_cons, ht, if_true, List.drop_succ_cons, List.drop_zero]; rfl⟩
  · rw [if_neg hin]
    have : mem = true := by rcases hm with h | h; exact h; omega
    subst this
    rw [if_pos rfl]
    have h1 : (type ||| 0x80#8) &&& 0x80#8 = 0x80#8 := by
      ext i hi; simp only [BitVec.getElem_and, BitVec.getElem_or]; cases (0x80#8)[i] <;> simp
    have h2 : (type ||| 0x80#8) &&& 0x0f#8 = type := by
      rw [← ht2]
      ext i hi
      simp only [BitVec.getElem_and, BitVec.getElem_or]
      have : ((0x80#8)[i] && (0x0f#8)[i]) = false := by
        have : ∀ i, ∀ hi : i < 8, ((0x80#8)[i] && (0x0f#8)[i]) = false := by decide
        exact this i hi
      revert this
      cases (0x80#8)[i] <;> cases (0x0f#8)[i] <;> simp
    refine ⟨_, rfl, h2, [], ?_⟩
    simp only [payload, Cell.head, List.headD_cons, h1, show ¬ (0x80#8 = 0#8) by decide, if_false, List.append_nil]

theorem initString_spec (mem : Bool) (c : Cell) (s : List Byte) (hs : s.length < 2 ^ 63) (hm : mem = true ∨ s.length ≤ 13) :
    ∃ c', initString mem c s = some (c', 0) ∧ typeOf c' = tString ∧ stringLength c' = some s.length ∧
      ∃ more, string c' = some (some (s ++ 0#8 :: more)) := by
  obtain ⟨e1, e2⟩ := encodeLen_length s.length
  have e2 := e2 hs
  have hsz : (lenSize s.length + s.length + 1) % 2 ^ 64 = lenSize s.length + s.length + 1 := Nat.mod_eq_of_lt (by rw [lenSize_eq]; omega)
  unfold initString
  rw [hsz, lenSize_eq]
  have hlen : (encodeLen s.length ++ s ++ [0#8]).length = (encodeLen s.length).length + s.length + 1 := by
    simp only [List.length_append, List.length_cons, List.length_nil]
  obtain ⟨c', h1, h2, more, h3⟩ := store_payload (mem := mem) (c := c) (type := tString) (size := (encodeLen s.length).length + s.length + 1)
    (data := encodeLen s.length ++ s ++ [0#8]) (by decide) (by decide) hlen (by omega) (by
      rcases hm with h | h
      · exact Or.inl h
      · right
        have : (encodeLen s.length).length = 1 := by rw [encodeLen, if_neg (by omega)]; rfl
        omega)
  refine ⟨c', h1, h2, ?_, more, ?_⟩
  · rw [stringLength, if_neg (by rw [h2]; simp), h3]
    simp only [List.append_assoc]
    rw [(readLen_encode s.length 0 0 _ (by decide) (by decide) (by omega)).1]; simp
  · rw [string, if_neg (by rw [h2]; simp), h3]
    simp only [List.append_assoc]
    rw [(readLen_encode s.length 0 0 _ (by decide) (by decide) (by omega)).2]
    simp

theorem color_and (red : Bool) (b m : Byte) (hm : m &&& 0x10#8 = 0#8) :
    (if red then b ||| 0x10#8 else b &&& ~~~0x10#8) &&& m = b &&& m := by
  ext i hi
  have h : (m[i] && (0x10#8)[i]) = false := by
    have := congrArg (fun x : BitVec 8 => x[i]) hm
    simpa using this
  cases red
  · simp only [Bool.false_eq_true, if_false, BitVec.getElem_and, BitVec.getElem_not]
    revert h; cases m[i] <;> cases (0x10#8)[i] <;> simp
  · simp only [if_true, BitVec.getElem_and, BitVec.getElem_or]
    revert h; cases m[i] <;> cases (0x10#8)[i] <;> simp

theorem setColor_same (red : Bool) (c : Cell) : typeOf (setColor red c) = typeOf c ∧ payload (setColor red c) = payload c := by
  have h1 : (setColor red c).head = if red then c.head ||| 0x10#8 else c.head &&& ~~~0x10#8 := rfl
  constructor
  · rw [typeOf, typeOf, h1, color_and _ _ _ (by decide)]
  · unfold payload
    rw [h1, color_and _ _ _ (by decide)]
    rfl

/-! ### Integers -/

theorem le_length (n x : Nat) : (le n x).length = n := by
  induction n generalizing x with
  | zero => rfl
  | succ n ih => rw [le, List.length_cons, ih]

theorem ofLe_le (n x : Nat) : ofLe (le n x) = x % 256 ^ n := by
  induction n generalizing x with
  | zero => rw [le, ofLe, Nat.pow_zero, Nat.mod_one]
  | succ n ih =>
    rw [le, ofLe, ih, BitVec.toNat_ofNat, show 256 ^ (n + 1) = 256 * 256 ^ n by rw [Nat.pow_succ, Nat.mul_comm], Nat.mod_mul]

theorem bmod_of_range {i : Int} {n : Nat} (h1 : -(2 ^ n : Nat) ≤ i) (h2 : i < (2 ^ n : Nat)) : Int.bmod i (2 ^ (n + 1)) = i := by
  apply Int.bmod_eq_of_le
  · rw [Nat.pow_succ]; omega
  · rw [Nat.pow_succ]; omega

/-- What is stored is read. -/
theorem initInt_number {mem : Bool} {c : Cell} {type : Byte} {n : Nat} {i : Int} (hr : InRange type i)
    (hn : (n = 4 ∧ (type = tInt32 ∨ type = tUInt32)) ∨ (n = 8 ∧ (type = tInt64 ∨ type = tUInt64))) :
    ∃ c', initInt mem c type n i = some (c', 0) ∧ typeOf c' = type ∧ number c' = some (some i) := by
  obtain ⟨r1, r2, r3, r4⟩ := hr
  have ht : type &&& 0x80#8 = 0#8 ∧ type &&& 0x0f#8 = type := by
    rcases hn with ⟨_, rfl | rfl⟩ | ⟨_, rfl | rfl⟩ <;> decide
  obtain ⟨c', h1, h2, more, h3⟩ := store_payload (mem := mem) (c := c) (type := type) (size := n) (data := le n (i % 2 ^ (8 * n)).toNat)
    ht.1 ht.2 (le_length _ _) (by omega) (by right; omega)
  refine ⟨c', h1, h2, ?_⟩
  have htake : ofLe ((le n (i % 2 ^ (8 * n)).toNat ++ more).take n) = (i % 2 ^ (8 * n)).toNat % 256 ^ n := by
    rw [List.take_left' (le_length _ _), ofLe_le]
  have hlen : n ≤ (le n (i % 2 ^ (8 * n)).toNat ++ more).length := by rw [List.length_append, le_length]; omega
  generalize (le n (i % 2 ^ (8 * n)).toNat ++ more) = X at h3 htake hlen
  unfold number
  rw [h2, h3]
  rcases hn with ⟨rfl, rfl | rfl⟩ | ⟨rfl, rfl | rfl⟩
  · have hr := r1 rfl
    have e : (ofLe (X.take 4) : Int) = i % ((2 ^ 32 : Nat) : Int) := by omega
    have e2 : signed 32 (ofLe (X.take 4)) = i := by
      rw [signed, e, Int.emod_bmod]
      exact bmod_of_range (n := 31) (by omega) (by omega)
    rw [← e2]
    simp only [true_or, if_true, hlen]
  · have hr := r2 rfl
    have e : (ofLe (X.take 4) : Int) = i := by omega
    rw [← e]
    simp only [or_true, if_true, hlen, show ¬ (tUInt32 = tInt32) by decide, if_false]
  · have hr := r3 rfl
    have e : (ofLe (X.take 8) : Int) = i % ((2 ^ 64 : Nat) : Int) := by omega
    have e2 : signed 64 (ofLe (X.take 8)) = i := by
      rw [signed, e, Int.emod_bmod]
      exact bmod_of_range (n := 63) (by omega) (by omega)
    rw [← e2]
    simp only [show ¬ (tInt64 = tInt32 ∨ tInt64 = tUInt32) by decide, if_false, true_or, if_true, hlen]
  · have hr := r4 rfl
    have e : (ofLe (X.take 8) : Int) = i := by omega
    rw [← e]
    simp only [show ¬ (tUInt64 = tInt32 ∨ tUInt64 = tUInt32) by decide, if_false, or_true, if_true, hlen, show ¬ (tUInt64 = tInt64) by decide]

/-- The getters of a stored integer. -/
theorem getters {c : Cell} {i : Int} (h : number c = some (some i)) :
    int32 c = some (Int.bmod i (2 ^ 32)) ∧ uint32 c = some (i % 2 ^ 32) ∧ int64 c = some (Int.bmod i (2 ^ 64)) ∧ uint64 c = some (i % 2 ^ 64) := by
  simp only [int32, uint32, int64, uint64, h, Option.map_some, and_self]

theorem compatible_iff {c : Cell} {i : Int} {s t : Byte} (hs : typeOf c = s) (h : number c = some (some i)) (his : IntType s) (hit : IntType t)
    (hr : InRange s i) : ∃ b, compatible c t = some b ∧ (b = true ↔ InRange t i) := by
  obtain ⟨g1, g2, g3, g4⟩ := getters h
  obtain ⟨r1, r2, r3, r4⟩ := hr
  have k : ∀ a b : Byte, (a = b) = (a.toNat = b.toNat) := fun a b => propext ⟨congrArg _, BitVec.eq_of_toNat_eq⟩
  unfold compatible
  rw [hs, g1, g2, g3, g4]
  unfold InRange
  rcases his with rfl | rfl | rfl | rfl
  · have hr := r1 rfl
    have e : Int.bmod i (2 ^ 32) = i := bmod_of_range (n := 31) (by omega) (by omega)
    rw [e]
    rcases hit with rfl | rfl | rfl | rfl <;> simp [tInt32, tUInt32, tInt64, tUInt64, test] <;> omega
  · have hr := r2 rfl
    have e : i % 2 ^ 32 = i := by omega
    rw [e]
    rcases hit with rfl | rfl | rfl | rfl <;> simp [tInt32, tUInt32, tInt64, tUInt64, test] <;> omega
  · have hr := r3 rfl
    have e : Int.bmod i (2 ^ 64) = i := bmod_of_range (n := 63) (by omega) (by omega)
    rw [e]
    rcases hit with rfl | rfl | rfl | rfl <;> simp [tInt32, tUInt32, tInt64, tUInt64, test] <;> omega
  · have hr := r4 rfl
    have e : i % 2 ^ 64 = i := by omega
    rw [e]
    rcases hit with rfl | rfl | rfl | rfl <;> simp [tInt32, tUInt32, tInt64, tUInt64, test] <;> omega

/-! ### Paths -/

theorem pathIndex_digits {d : List Byte} {n : Nat} (h : Dec d n) : ∀ (i : Nat) (p : List Byte), i < 2 ^ 64 →
    pathIndex i (d ++ p) = pathIndex ((i * 10 ^ d.length + n) % 2 ^ 64) p := by
  induction h with
  | nil => intro i p hi; simp only [List.nil_append, List.length_nil, Nat.pow_zero, Nat.mul_one, Nat.add_zero]; rw [Nat.mod_eq_of_lt hi]
  | snoc hd hk ih =>
    rename_i t n k
    intro i p hi
    rw [List.append_assoc, ih i _ hi, List.cons_append, List.nil_append, pathIndex]
    have hb : ∀ k < 10, 0x30#8 ≤ BitVec.ofNat 8 (0x30 + k) ∧ BitVec.ofNat 8 (0x30 + k) ≤ 0x39#8 ∧ (BitVec.ofNat 8 (0x30 + k)).toNat - 0x30 = k := by decide
    obtain ⟨b1, b2, b3⟩ := hb k hk
    rw [if_pos ⟨b1, b2⟩, b3, List.length_append, List.length_cons, List.length_nil]
    congr 1
    have : i * 10 ^ (t.length + (0 + 1)) = i * 10 ^ t.length * 10 := by rw [Nat.pow_add, ← Nat.mul_assoc]
    rw [this]
    omega

theorem bracketed_iff (t : List Byte) : (2 < t.length ∧ t.head? = some 0x5b#8 ∧ t.getLast? = some 0x5d#8) ↔ Bracketed t := by
  constructor
  · rintro ⟨h1, h2, h3⟩
    match t, h1, h2 with
    | b :: r, h1, h2 =>
      simp only [List.head?_cons, Option.some.injEq] at h2
      subst h2
      have hr : r ≠ [] := by intro e; rw [e] at h1; simp at h1
      refine ⟨r.dropLast, ?_, ?_⟩
      · intro e
        have := congrArg List.length e
        rw [List.length_dropLast, List.length_nil] at this
        rw [List.length_cons] at h1
        omega
      · rw [List.getLast?_cons, List.getLast?_eq_some_getLast hr] at h3
        simp only [Option.getD_some, Option.some.injEq] at h3
        have := List.dropLast_concat_getLast hr
        rw [h3] at this
        exact congrArg _ this.symm
  · rintro ⟨inner, h, rfl⟩
    have := List.length_pos_iff.2 h
    refine ⟨by simp only [List.length_cons, List.length_append, List.length_nil]; omega, rfl, ?_⟩
    rw [show ch '[' :: (inner ++ [ch ']']) = (ch '[' :: inner) ++ [ch ']'] from rfl, List.getLast?_append]
    rfl

theorem lookup_find {es : List (List Byte × V)} {k : List Byte} : (es.find? fun e => e.1 = k).map (·.2) = es.lookup k := by
  induction es with
  | nil => rfl
  | cons e es ih =>
    obtain ⟨a, v⟩ := e
    rw [List.find?_cons, List.lookup_cons]
    by_cases h : a = k
    · subst h; simp
    · have h' : (k == a) = false := by simp; exact fun e => h e.symm
      simp only [h, decide_false, h', ih]

theorem pathToken_iff {v w : V} {t : List Byte} (ht : Proper t) : pathToken v t = some w ↔ Item v t w := by
  unfold pathToken
  by_cases hb : Bracketed t
  · rw [if_pos ((bracketed_iff t).2 hb)]
    obtain ⟨d, n, hd, hdec, hn, rfl⟩ := ht hb
    have hidx : pathIndex 0 ((ch '[' :: (d ++ [ch ']'])).drop 1) = (n, [ch ']']) := by
      rw [List.drop_succ_cons, List.drop_zero, pathIndex_digits hdec 0 _ (by decide), Nat.zero_mul, Nat.zero_add, Nat.mod_eq_of_lt hn]
      rfl
    simp only [hidx, List.head?_cons, show ¬ (some (ch ']') ≠ some 0x5d#8) by decide, if_false]
    constructor
    · intro h
      cases v with
      | array xs => exact .index hd hdec h
      | _ => cases h
    · intro h
      generalize hg : ch '[' :: (d ++ [ch ']']) = tok at h
      cases h with
      | stay => cases hg
      | index h1 h2 h3 =>
        rename_i xs d' n'
        have e : d = d' := List.append_cancel_right (List.cons.inj hg).2
        subst e
        have := WS.JNum.dec_val hdec
        have := WS.JNum.dec_val h2
        have e : n = n' := by omega
        subst e
        exact h3
      | key h1 h2 h3 => exact absurd (hg ▸ ⟨d, hd, rfl⟩) h2
  · rw [if_neg (fun h => hb ((bracketed_iff t).1 h))]
    by_cases h0 : 0 < t.length
    · rw [if_pos h0]
      have hne : t ≠ [] := List.length_pos_iff.1 h0
      constructor
      · intro h
        cases v with
        | dict o es => exact .key hne hb (by rw [← lookup_find]; exact h)
        | _ => cases h
      · intro h
        cases h with
        | stay => exact absurd rfl hne
        | index h1 h2 h3 => exact absurd ⟨_, h1, rfl⟩ hb
        | key h1 h2 h3 => exact lookup_find.trans h3
    · rw [if_neg h0]
      have : t = [] := by cases t; rfl; simp at h0
      subst this
      constructor
      · intro h; cases h; exact .stay
      · intro h
        cases h with
        | stay => rfl
        | key h1 h2 h3 => exact absurd rfl h1

theorem pathFrom_token (v : V) (t : List Byte) (ht : ch '/' ∉ t) : ∀ (pre rest : List Byte), pathFrom v pre (t ++ rest) = pathFrom v (pre ++ t) rest := by
  induction t with
  | nil => intro pre rest; simp
  | cons b t ih =>
    intro pre rest
    have hb : b ≠ 0x2f#8 := fun e => ht (e ▸ .head _)
    rw [List.cons_append, pathFrom, if_neg hb, ih (fun h => ht (.tail _ h)), List.append_assoc]
    rfl

theorem path_joined (ts : List (List Byte)) (hne : ts ≠ []) (hs : ∀ t ∈ ts, ch '/' ∉ t) (hp : ∀ t ∈ ts, Proper t) :
    ∀ (v w : V), pathFrom v [] (joined ts) = some w ↔ Walk v ts w := by
  induction ts with
  | nil => exact absurd rfl hne
  | cons t ts ih =>
    intro v w
    have h1 := pathFrom_token v t (hs t (.head _)) []
    cases ts with
    | nil =>
      have := h1 []
      rw [List.append_nil, List.nil_append] at this
      rw [joined, this, pathFrom, pathToken_iff (hp t (.head _))]
      constructor
      · intro h; exact .step h .done
      · intro h
        cases h with
        | step h1 h2 => cases h2; exact h1
    | cons t' ts =>
      rw [joined, h1, List.nil_append, pathFrom, if_pos (show ch '/' = 0x2f#8 from rfl)]
      · cases hq : pathToken v t with
        | none =>
          simp only [reduceCtorEq, false_iff]
          intro h
          cases h with
          | step g1 g2 =>
            rw [(pathToken_iff (hp t (.head _))).2 g1] at hq
            cases hq
        | some x =>
          simp only
          rw [ih (by simp) (fun y hy => hs y (.tail _ hy)) (fun y hy => hp y (.tail _ hy))]
          constructor
          · intro h; exact .step ((pathToken_iff (hp t (.head _))).1 hq) h
          · intro h
            cases h with
            | step g1 g2 =>
              rw [(pathToken_iff (hp t (.head _))).2 g1] at hq
              cases hq
              exact g2
      · simp

end WS.JVal
