import Verif.Model.RouteKey
namespace WS
open Std

/-- Lexicographic order on byte strings, through their numeric values. -/
def bytesKey (a : List Byte) : List Nat := a.map BitVec.toNat

theorem bytesKey_inj {a b : List Byte} (h : bytesKey a = bytesKey b) : a = b := by
  unfold bytesKey at h
  induction a generalizing b with
  | nil => cases b with
    | nil => rfl
    | cons => simp at h
  | cons x xs ih => cases b with
    | nil => simp at h
    | cons y ys =>
      simp only [List.map_cons, List.cons.injEq] at h
      rw [ih h.2, BitVec.eq_of_toNat_eq h.1]

theorem memcmp_lex (a b : List Byte) :
    (memcmp a b (min a.length b.length)).then (compare a.length b.length)
      = compare (bytesKey a) (bytesKey b) := by
  unfold bytesKey
  induction a generalizing b with
  | nil => cases b with
    | nil => rfl
    | cons y ys =>
      simp only [memcmp, List.compare_eq_compareLex, List.compareLex, List.map_cons, List.map_nil, List.length_cons,
        List.length_nil, Ordering.then]
      rw [Nat.compare_eq_lt]; omega
  | cons x xs ih => cases b with
    | nil =>
      simp only [memcmp, List.compare_eq_compareLex, List.compareLex, List.map_cons, List.map_nil, List.length_cons,
        List.length_nil, Ordering.then]
      rw [Nat.compare_eq_gt]; omega
    | cons y ys =>
      have := ih ys
      simp only [List.compare_eq_compareLex, List.map_cons, List.compareLex_cons_cons, List.length_cons] at *
      rw [← this]
      have e : min (xs.length + 1) (ys.length + 1) = min xs.length ys.length + 1 := by omega
      rw [e, memcmp]
      have e2 : compare (xs.length + 1) (ys.length + 1) = compare xs.length ys.length := by
        rcases Nat.lt_trichotomy xs.length ys.length with h | h | h
        · rw [Nat.compare_eq_lt.2 h, Nat.compare_eq_lt.2 (by omega)]
        · rw [Nat.compare_eq_eq.2 h, Nat.compare_eq_eq.2 (by omega)]
        · rw [Nat.compare_eq_gt.2 h, Nat.compare_eq_gt.2 (by omega)]
      rw [e2]
      cases compare x.toNat y.toNat <;> rfl

theorem bitsToBytes_eq (n : Nat) : bitsToBytes n = (n + 7) / 8 := by
  unfold bitsToBytes; rw [Nat.shiftRight_eq_div_pow]

/-- Exact-mode address comparison is lexicographic on (bytes, bit length). -/
theorem prefixful_exact (l r : Endpoint) (hl : l.WF) (hr : r.WF) :
    (cmpAddrsPrefixful l.addr l.bits r.addr r.bits false false).1
      = (compare (bytesKey l.addr) (bytesKey r.addr)).then (compare l.bits r.bits) := by
  unfold Endpoint.WF at hl hr
  rw [← memcmp_lex]
  rw [hl, hr]
  rw [bitsToBytes_eq] at *
  rw [bitsToBytes_eq] at *
  unfold cmpAddrsPrefixful
  simp only [bitsToBytes_eq, Bool.or_self, Bool.false_eq_true, if_false]
  by_cases hlt : l.bits < r.bits
  · have e : min ((l.bits + 7) / 8) ((r.bits + 7) / 8) = (l.bits + 7) / 8 := by omega
    have c : compare l.bits r.bits = .lt := Nat.compare_eq_lt.2 hlt
    simp only [hlt, if_true, e, c]
    have hne : l.bits ≠ r.bits := by omega
    by_cases h0 : l.bits = 0
    · simp only [h0, if_true]
      have : l.addr = [] := List.length_eq_zero_iff.1 (by omega)
      have hr0 : ¬ (0 = r.bits) := by omega
      simp only [this, memcmp, hr0, if_false, ne_eq, not_true_eq_false]
      have : compare ((0 + 7) / 8) ((r.bits + 7) / 8) = .lt := Nat.compare_eq_lt.2 (by omega)
      rw [this]; rfl
    · simp only [h0, if_false, ne_eq, hne, not_false_eq_true, if_true]
      cases memcmp l.addr r.addr ((l.bits + 7) / 8) with
      | eq =>
        simp only [Ordering.then]
        rcases Nat.lt_or_ge ((l.bits + 7) / 8) ((r.bits + 7) / 8) with h | h
        · rw [Nat.compare_eq_lt.2 h]
        · rw [Nat.compare_eq_eq.2 (by omega : (l.bits + 7) / 8 = (r.bits + 7) / 8)]
      | lt => rfl
      | gt => rfl
  · have e : min ((l.bits + 7) / 8) ((r.bits + 7) / 8) = (r.bits + 7) / 8 := by omega
    simp only [hlt, if_false, e]
    by_cases heq : l.bits = r.bits
    · simp only [heq, if_true, ne_eq, not_true_eq_false, if_false]
      rw [Nat.compare_eq_eq.2 rfl, Nat.compare_eq_eq.2 rfl]
      by_cases h0 : r.bits = 0
      · have : l.addr = [] := List.length_eq_zero_iff.1 (by omega)
        simp [h0, this, memcmp]
      · simp only [h0, if_false]
        cases memcmp l.addr r.addr ((r.bits + 7) / 8) <;> rfl
    · have c : compare l.bits r.bits = .gt := Nat.compare_eq_gt.2 (by omega)
      rw [c]
      by_cases h0 : r.bits = 0
      · have : r.addr = [] := List.length_eq_zero_iff.1 (by omega)
        have hl0 : l.bits ≠ 0 := by omega
        simp only [h0, if_true, hl0, if_false, ne_eq, not_false_eq_true, this]
        have : compare ((l.bits + 7) / 8) ((0 + 7) / 8) = .gt := Nat.compare_eq_gt.2 (by omega)
        rw [this]
        cases l.addr <;> rfl
      · simp only [h0, if_false, ne_eq, heq, not_false_eq_true, if_true]
        cases memcmp l.addr r.addr ((r.bits + 7) / 8) with
        | eq =>
          simp only [Ordering.then]
          rcases Nat.lt_or_ge ((r.bits + 7) / 8) ((l.bits + 7) / 8) with h | h
          · rw [Nat.compare_eq_gt.2 h]
          · rw [Nat.compare_eq_eq.2 (by omega : (l.bits + 7) / 8 = (r.bits + 7) / 8)]
        | lt => rfl
        | gt => rfl

theorem prefixful_exact_inexact (a b : List Byte) (m n : Nat) :
    (cmpAddrsPrefixful a m b n false false).2 = false := by
  unfold cmpAddrsPrefixful
  simp only [Bool.or_self, Bool.false_eq_true, if_false]
  repeat' split
  all_goals rfl

theorem bitmaskful_exact_inexact (a b : List Byte) (m n : Nat) :
    (cmpAddrsBitmaskful a m b n false false).2 = false := by
  unfold cmpAddrsBitmaskful
  simp only [Bool.or_self, Bool.false_eq_true, if_false, Bool.false_and]
  repeat' split
  all_goals rfl

/-- In exact mode the mask comparator orders exactly like the prefix comparator. -/
theorem bitmaskful_exact (l r : Endpoint) :
    (cmpAddrsBitmaskful l.addr l.bits r.addr r.bits false false).1
      = (cmpAddrsPrefixful l.addr l.bits r.addr r.bits false false).1 := by
  unfold cmpAddrsBitmaskful cmpAddrsPrefixful
  simp only [Bool.false_and, Bool.false_eq_true, if_false, Bool.or_self, ne_eq]
  by_cases h0 : (if l.bits < r.bits then l.bits else r.bits) = 0
  · simp only [h0, if_true]
  · simp only [h0, if_false]
    by_cases he : l.bits = r.bits
    · simp only [he, if_true, not_true_eq_false, if_false]
    · simp only [he, if_false, not_false_eq_true, if_true]

theorem labelCmp_lex (l r : List Byte) : labelCmp l r = compare (bytesKey l) (bytesKey r) := by
  rw [← memcmp_lex]
  unfold labelCmp
  rcases Nat.lt_trichotomy l.length r.length with h | h | h
  · rw [if_neg (by omega), Nat.min_eq_left (by omega), Nat.compare_eq_lt.2 h]
    cases memcmp l r l.length <;> rfl
  · rw [if_pos (by omega), Nat.min_eq_right (by omega), Nat.compare_eq_eq.2 h]
    cases memcmp l r r.length <;> simp [h, Ordering.then]
  · rw [if_pos (by omega), Nat.min_eq_right (by omega), Nat.compare_eq_gt.2 h]
    cases memcmp l r r.length <;> simp [Ordering.then]; omega

/-! ### The exact order as a lexicographic product -/

/-- Null parent event first, then by label. -/
def eventKey (r : Route) : List Nat :=
  match r.event with
  | none => []
  | some e => 0 :: bytesKey e.label

def exactLex : Route → Route → Ordering :=
  compareLex (compareOn (·.family)) <|
  compareLex (compareOn (fun r => bytesKey r.remote.addr)) <|
  compareLex (compareOn (·.remote.bits)) <|
  compareLex (compareOn (·.proto)) <|
  compareLex (compareOn (·.loc.port)) <|
  compareLex (compareOn (fun r => bytesKey r.loc.addr)) <|
  compareLex (compareOn (·.loc.bits)) <|
  compareLex (compareOn (·.remote.port)) <|
  compareLex (compareOn (·.remote.iface)) <|
  compareLex (compareOn (·.loc.iface)) <|
  compareLex (compareOn (fun r => (r.flags &&& RF.IMMUTABLE_FLAGS).toNat)) <|
  compareLex (compareOn (·.effPriority)) (compareOn eventKey)

instance : TransCmp exactLex := by unfold exactLex; infer_instance

theorem scalarStage_exact (l r : Nat) (wf b inx : Flags) (k : Flags → Ordering × Flags) :
    (scalarStage l r false wf b inx k).1 = (compare l r).then (k inx).1 := by
  unfold scalarStage
  rcases Nat.lt_trichotomy l r with h | h | h
  · rw [if_pos (by omega), Nat.compare_eq_lt.2 h]; simp [h, Ordering.then]
  · rw [if_neg (by omega), Nat.compare_eq_eq.2 h]; rfl
  · rw [if_pos (by omega), Nat.compare_eq_gt.2 h]; simp [Ordering.then, show ¬ l < r by omega]

theorem addrStage_exact (l r : Endpoint) (hl : l.WF) (hr : r.WF) (wf b bm inx : Flags)
    (k : Flags → Ordering × Flags) :
    (addrStage l r false wf b bm inx k).1 =
      (compare (bytesKey l.addr) (bytesKey r.addr)).then ((compare l.bits r.bits).then (k inx).1) := by
  unfold addrStage
  have h : (if wf.has bm = true then
      cmpAddrsBitmaskful l.addr l.bits r.addr r.bits (false && wf.has b) false
    else cmpAddrsPrefixful l.addr l.bits r.addr r.bits (false && wf.has b) false).1
     = (compare (bytesKey l.addr) (bytesKey r.addr)).then (compare l.bits r.bits) := by
    rw [Bool.false_and]
    split
    · rw [bitmaskful_exact, prefixful_exact l r hl hr]
    · exact prefixful_exact l r hl hr
  have h2 : (if wf.has bm = true then
      cmpAddrsBitmaskful l.addr l.bits r.addr r.bits (false && wf.has b) false
    else cmpAddrsPrefixful l.addr l.bits r.addr r.bits (false && wf.has b) false).2 = false := by
    rw [Bool.false_and]
    split
    · exact bitmaskful_exact_inexact ..
    · exact prefixful_exact_inexact ..
  rw [← Ordering.then_assoc, ← h]
  simp only
  revert h2
  generalize (if wf.has bm = true then
      cmpAddrsBitmaskful l.addr l.bits r.addr r.bits (false && wf.has b) false
    else cmpAddrsPrefixful l.addr l.bits r.addr r.bits (false && wf.has b) false) = c
  intro h2
  obtain ⟨c1, c2⟩ := c
  simp only at h2
  subst h2
  cases c1 <;> simp [Ordering.then]

theorem eventStage_exact (l r : Route) (wf inx : Flags) (hi : inx.has RF.PARENT_EVENT_WILDCARD = false) :
    (eventStage l r false wf inx).1 = (compare l.effPriority r.effPriority).then (compare (eventKey l) (eventKey r)) := by
  unfold eventStage
  rw [scalarStage_exact]
  congr 1
  unfold eventKey
  by_cases he : l.event = r.event
  · rw [if_pos he, he]; exact (ReflCmp.compare_self (cmp := compare)).symm
  · rw [if_neg he, hi]
    simp only [Bool.false_eq_true, if_false, Bool.false_and]
    cases hl : l.event <;> cases hr : r.event
    · simp [hl, hr] at he
    · rfl
    · rfl
    · rename_i a b
      simp only [labelCmp_lex]
      simp only [List.compare_eq_compareLex, List.compareLex_cons_cons]
      have : compare 0 0 = Ordering.eq := rfl
      simp only [this, Ordering.then]
      cases List.compareLex compare (bytesKey a.label) (bytesKey b.label) <;> rfl

theorem flagsStage_exact (a b : Flags) (k : Ordering × Flags) (inx : Flags) :
    (if (!false && a != b) = true then
      if a.toNat < b.toNat then (Ordering.lt, inx) else (Ordering.gt, inx)
     else k).1 = (compare a.toNat b.toNat).then k.1 := by
  by_cases h : a = b
  · subst h; simp [Nat.compare_eq_eq.2 rfl, Ordering.then]
  · have : a.toNat ≠ b.toNat := fun e => h (BitVec.eq_of_toNat_eq e)
    simp only [Bool.not_false, Bool.true_and, bne_iff_ne, ne_eq, h, not_false_eq_true, if_true]
    rcases Nat.lt_or_gt_of_ne this with h | h
    · rw [if_pos h, Nat.compare_eq_lt.2 h]; rfl
    · rw [if_neg (by omega), Nat.compare_eq_gt.2 h]; rfl

/-- The table comparator is the lexicographic product, on well-formed rules. -/
theorem routeKeyCmp_eq (l r : Route) (hl : l.WF) (hr : r.WF) : routeKeyCmp l r = exactLex l r := by
  unfold routeKeyCmp routeKeyCmp1 exactLex compareLex compareOn
  simp only
  rw [scalarStage_exact, addrStage_exact _ _ hl.1 hr.1, scalarStage_exact, scalarStage_exact,
    addrStage_exact _ _ hl.2 hr.2, scalarStage_exact, scalarStage_exact, scalarStage_exact,
    flagsStage_exact, eventStage_exact _ _ _ _ (by decide)]
  
end WS
