import Verif.Proof.RoundTrip5
/-
Auxiliary lemmas for C57: the rule that is created from what the loader has read.
-/
namespace WS.RoundTrip
open WS WS.Sax WS.Conf WS.Spec WS.Spec.Load WS.Spec.RoundTrip

theorem padByte_idem (b : Byte) (k : Nat) (hk : k < 8) : padByte (padByte b k) k = padByte b k := by
  have hall : ∀ (k : Fin 8) (b : Byte), padByte (padByte b k.val) k.val = padByte b k.val := by
    intro k b
    have h0 : (0xff#8 <<< k.val) &&& (0xff#8 >>> (8 - k.val)) = 0#8 := by revert k; decide
    unfold padByte
    by_cases h : b &&& (0xff#8 >>> (8 - k.val)) ≠ 0
    · simp only [if_pos h]
      rw [BitVec.and_assoc, h0]
      simp
    · simp only [if_neg h]
  exact hall ⟨k, hk⟩ b

theorem padAddr_idem (a : List Byte) (n : Nat) : padAddr (padAddr a n) n = padAddr a n := by
  unfold padAddr
  by_cases h : n % 8 = 0
  · simp [h]
  · simp only [h, if_false]
    by_cases hl : bitsToBytes n - 1 < a.length
    · have e : (a.set (bitsToBytes n - 1) (padByte (a.getD (bitsToBytes n - 1) 0) (n % 8))).getD (bitsToBytes n - 1) 0 =
          padByte (a.getD (bitsToBytes n - 1) 0) (n % 8) := by
        rw [List.getD_eq_getElem?_getD, List.getElem?_set_self hl]; rfl
      rw [e, padByte_idem _ _ (by omega), List.set_set]
    · have e : a.set (bitsToBytes n - 1) (padByte (a.getD (bitsToBytes n - 1) 0) (n % 8)) = a := List.set_eq_of_length_le (by omega)
      rw [e, e]

theorem padAddr_length (a : List Byte) (n : Nat) : (padAddr a n).length = a.length := by
  unfold padAddr; split <;> simp

theorem zip_idem : ∀ (x m : List Byte), List.zipWith (fun a b => a &&& b) (List.zipWith (fun a b => a &&& b) x m) m = List.zipWith (fun a b => a &&& b) x m
  | [], m => by simp
  | _ :: _, [] => by simp
  | a :: x, b :: m => by
    simp only [List.zipWith_cons_cons, zip_idem x m]
    rw [BitVec.and_assoc, BitVec.and_self]

theorem maskAddr_idem {a : List Byte} {n : Nat} (h : a.length = n + n) : maskAddr (maskAddr a n) n = maskAddr a n := by
  unfold maskAddr
  have hl : (List.zipWith (fun x m => x &&& m) (a.take n) (a.drop n)).length = n := by simp; omega
  rw [List.take_left' hl, List.drop_left' hl, zip_idem]

/-- An address as it is kept by the library. -/
def Normal (e : Endpoint) (bm : Bool) : Prop :=
  (if bm then maskAddr e.addr (bitsToBytes e.bits / 2) else padAddr e.addr e.bits) = e.addr

theorem normal_init {e0 e : Endpoint} {bm : Bool} (hb : e.bits = e0.bits) (ha : e.addr = (initEndpoint e0 bm).addr)
    (hl : e.addr.length = bitsToBytes e.bits) (h16 : bm = true → e.bits % 16 = 0) : Normal e bm := by
  unfold Normal
  cases bm with
  | false =>
    simp only [Bool.false_eq_true, if_false]
    have : e.addr = padAddr e0.addr e0.bits := by rw [ha]; rfl
    rw [this, hb, padAddr_idem]
  | true =>
    simp only [if_true]
    have e1 : e.addr = maskAddr e0.addr (bitsToBytes e0.bits / 2) := by rw [ha]; rfl
    have hn : bitsToBytes e.bits = bitsToBytes e.bits / 2 + bitsToBytes e.bits / 2 := by
      rw [bytes_div]; have := h16 rfl; omega
    have hl0 : e0.addr.length = bitsToBytes e0.bits / 2 + bitsToBytes e0.bits / 2 := by
      rw [← hb]
      have h1 : (maskAddr e0.addr (bitsToBytes e0.bits / 2)).length = bitsToBytes e.bits := by rw [← e1]; exact hl
      unfold maskAddr at h1
      rw [← hb] at h1
      simp only [List.length_append, List.length_zipWith, List.length_take, List.length_drop] at h1
      have h8 : bitsToBytes e.bits = e.bits / 16 + e.bits / 16 := by rw [bytes_div]; have := h16 rfl; omega
      rw [h8] at h1 ⊢
      have h9 : (e.bits / 16 + e.bits / 16) / 2 = e.bits / 16 := by omega
      rw [h9] at h1 ⊢
      omega
    rw [e1, hb]
    exact maskAddr_idem hl0

/-- What the insertion makes of an endpoint that was read back. -/
theorem holds_init {r : Route} {e : Endpoint} {aw pw iw : Nat} {fam pro : Nat} {sa : Sa} {bm : Bool}
    (h : Holds r e aw pw iw { family := fam, proto := pro } sa)
    (hn : r.flags.getLsbD aw = false → Normal e bm) (hb : r.flags.getLsbD aw = true → bm = false) :
    (sockAddrOf sa).family = fam ∧ (sockAddrOf sa).proto = pro ∧
      initEndpoint (sockAddrOf sa).ep bm = clearedEnd e (r.flags.getLsbD aw) (r.flags.getLsbD pw) (r.flags.getLsbD iw) := by
  obtain ⟨h1, h2, h3, h4, h5, h6⟩ := h
  refine ⟨h1, h2, ?_⟩
  unfold sockAddrOf initEndpoint clearedEnd
  cases ha : r.flags.getLsbD aw with
  | true =>
    rw [hb ha]
    rw [ha] at h5
    simp only [if_true] at h5
    simp only [Bool.false_eq_true, if_false, if_true, h5, h3, h4]
    congr 1
  | false =>
    have h6 := h6 ha
    have hn := hn ha
    rw [ha] at h5
    simp only [Bool.false_eq_true, if_false] at h5 ⊢
    unfold Normal at hn
    simp only [h5, h3, h4, h6]
    congr 1

end WS.RoundTrip
