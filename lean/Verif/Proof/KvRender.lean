import Verif.Spec.KvRender
import Verif.Proof.DomDump4
/-
Rendering of user values.
-/
namespace WS.Render
open WS WS.Spec.Render WS.Spec.Json WS.Spec.Dom

theorem store_lt {m : Mem} {k : Nat} {b : List Byte} {i : Nat} (h1 : k ≤ i) (h2 : i - k < b.length) : store m k b i = b[i - k] := by
  unfold store
  rw [if_pos h1, List.getElem?_eq_getElem h2]; rfl
theorem store_before {m : Mem} {k : Nat} {b : List Byte} {i : Nat} (h : i < k) : store m k b i = m i := by
  unfold store; rw [if_neg (by omega)]
theorem store_after {m : Mem} {k : Nat} {b : List Byte} {i : Nat} (h : k + b.length ≤ i) : store m k b i = m i := by
  unfold store
  split
  · rw [List.getElem?_eq_none (by omega)]; rfl
  · rfl
theorem store_append (m : Mem) (k : Nat) (a b : List Byte) : store (store m k a) (k + a.length) b = store m k (a ++ b) := by
  funext i
  by_cases h1 : i < k
  · rw [store_before (by omega), store_before h1, store_before h1]
  · by_cases h2 : i < k + a.length
    · rw [store_before h2, store_lt (by omega) (by omega), store_lt (by omega) (by rw [List.length_append]; omega), List.getElem_append_left]
    · by_cases h3 : i < k + a.length + b.length
      · rw [store_lt (by omega) (by omega), store_lt (by omega) (by rw [List.length_append]; omega), List.getElem_append_right (by omega)]
        congr 1; omega
      · rw [store_after (by omega), store_after (by omega), store_after (by rw [List.length_append]; omega)]
theorem store_nil (m : Mem) (k : Nat) : store m k [] = m := by
  funext i
  unfold store
  split <;> simp

theorem holds_store (m : Mem) (t : List Byte) : Holds (store m 0 (t ++ [0#8])) t ∧ SameFrom (t.length + 1) m (store m 0 (t ++ [0#8])) := by
  refine ⟨⟨fun i h => ?_, ?_⟩, fun i h => store_after (by simp; omega)⟩
  · rw [store_lt (by omega) (by simp; omega)]; simp [h]
  · rw [store_lt (by omega) (by simp)]; simp

theorem fin_spec (m : Mem) (space : Nat) (t : List Byte) :
    ((fin m space t).err = .none ↔ t.length < space) ∧
    ((fin m space t).err = .none → Holds (fin m space t).mem t ∧ SameFrom (t.length + 1) m (fin m space t).mem) ∧
    (fin m space t).len = t.length ∧
    ((fin m space t).err ≠ .none → (fin m space t).err = some .bufferTooSmall) ∧
    SameFrom space m (fin m space t).mem := by
  unfold fin snprintf
  by_cases h0 : space = 0
  · subst h0
    rw [if_pos rfl]
    refine ⟨by simp, by simp, rfl, by simp, fun i _ => rfl⟩
  · rw [if_neg h0]
    dsimp only
    by_cases h : t.length < space
    · rw [if_neg (by omega), List.take_of_length_le (by omega)]
      exact ⟨⟨fun _ => h, fun _ => rfl⟩, fun _ => holds_store m t, rfl, fun q => absurd rfl q,
        fun i hi => store_after (by rw [List.length_append]; simp; omega)⟩
    · rw [if_pos (by omega)]
      exact ⟨⟨fun q => (by cases q), fun q => absurd q h⟩, fun q => (by cases q), rfl, fun _ => rfl,
        fun i hi => store_after (by rw [List.length_append, List.length_take]; simp; omega)⟩

theorem tooSmall_neg : tooSmall < 0 := by decide
theorem tooSmall_kept : translate tooSmall = .inl tooSmall := by
  unfold translate; rw [if_pos (by decide)]

/-- The writer on pieces that fit, and on pieces that do not. -/
theorem writer_pieces : ∀ (ps : List (List Byte)) (m : Mem) (pos left : Nat),
    (ps.flatten.length ≤ left → writeAll writer (m, pos, left) ps = ((store m pos ps.flatten, pos + ps.flatten.length, left - ps.flatten.length), 0)) ∧
    (left < ps.flatten.length → (writeAll writer (m, pos, left) ps).2 = tooSmall ∧ SameFrom (pos + left) m (writeAll writer (m, pos, left) ps).1.1)
  | [], m, pos, left => by
    constructor
    · intro _; simp [writeAll, store_nil]
    · intro h; simp at h
  | p :: ps, m, pos, left => by
    by_cases hp : p.length > left
    · have hw : writer (m, pos, left) p = ((m, pos, left), tooSmall) := by simp only [writer]; rw [if_pos hp]
      constructor
      · intro h; rw [List.flatten_cons, List.length_append] at h; omega
      · intro _
        rw [writeAll, hw, if_pos tooSmall_neg]
        exact ⟨rfl, fun _ _ => rfl⟩
    · have hw : writer (m, pos, left) p = ((store m pos p, pos + p.length, left - p.length), 0) := by simp only [writer]; rw [if_neg hp]
      obtain ⟨i1, i2⟩ := writer_pieces ps (store m pos p) (pos + p.length) (left - p.length)
      constructor
      · intro h
        rw [List.flatten_cons, List.length_append] at h
        rw [writeAll, hw, if_neg (by simp)]
        dsimp only
        rw [i1 (by omega), store_append, List.flatten_cons, List.length_append]
        simp only [Prod.mk.injEq, and_true, true_and]
        omega
      · intro h
        rw [List.flatten_cons, List.length_append] at h
        rw [writeAll, hw, if_neg (by simp)]
        dsimp only
        obtain ⟨a, b⟩ := i2 (by omega)
        refine ⟨a, fun i hi => ?_⟩
        rw [b i (by omega), store_after (by omega)]

theorem decText_pos (n : Nat) : 0 < (decText n).length := by
  unfold decText
  split <;> simp

theorem decText_integer : ∀ n : Nat, IntPart (decText n) ∧ Dec (decText n) n ∧ (decText n = [ch '0'] ↔ n = 0) := by
  intro n
  induction n using Nat.strongRecOn with
  | _ n ih =>
    unfold decText
    split
    · next h =>
      refine ⟨?_, ?_, ?_⟩
      · by_cases h0 : n = 0
        · subst h0; exact .zero
        · refine .first ?_ ?_
          · unfold Digit
            have : n = 1 ∨ n = 2 ∨ n = 3 ∨ n = 4 ∨ n = 5 ∨ n = 6 ∨ n = 7 ∨ n = 8 ∨ n = 9 := by omega
            rcases this with rfl | rfl | rfl | rfl | rfl | rfl | rfl | rfl | rfl <;> decide
          · have : n = 1 ∨ n = 2 ∨ n = 3 ∨ n = 4 ∨ n = 5 ∨ n = 6 ∨ n = 7 ∨ n = 8 ∨ n = 9 := by omega
            rcases this with rfl | rfl | rfl | rfl | rfl | rfl | rfl | rfl | rfl <;> decide
      · have := Dec.snoc (t := []) (n := 0) (k := n) .nil h
        simpa using this
      · have : n = 0 ∨ n = 1 ∨ n = 2 ∨ n = 3 ∨ n = 4 ∨ n = 5 ∨ n = 6 ∨ n = 7 ∨ n = 8 ∨ n = 9 := by omega
        rcases this with rfl | rfl | rfl | rfl | rfl | rfl | rfl | rfl | rfl | rfl <;> decide
    · next h =>
      obtain ⟨i1, i2, i3⟩ := ih (n / 10) (by omega)
      have hk : n % 10 < 10 := Nat.mod_lt _ (by decide)
      refine ⟨.next i1 (fun q => by have := i3.1 q; omega) ?_, ?_, ?_⟩
      · unfold Digit
        generalize n % 10 = k at hk
        have : k = 0 ∨ k = 1 ∨ k = 2 ∨ k = 3 ∨ k = 4 ∨ k = 5 ∨ k = 6 ∨ k = 7 ∨ k = 8 ∨ k = 9 := by omega
        rcases this with rfl | rfl | rfl | rfl | rfl | rfl | rfl | rfl | rfl | rfl <;> decide
      · have := Dec.snoc i2 hk
        rwa [show n / 10 * 10 + n % 10 = n by omega] at this
      · constructor
        · intro q
          have hl := congrArg List.length q
          have := decText_pos (n / 10)
          rw [List.length_append] at hl
          simp only [List.length_cons, List.length_nil] at hl
          omega
        · intro q; omega

theorem decText_is (n : Nat) : Integer (decText n) n := ⟨_, _, (decText_integer n).1, (decText_integer n).2.1, Or.inl ⟨rfl, rfl⟩⟩
theorem decTextI_is (i : Int) : Integer (decTextI i) i := by
  unfold decTextI
  split
  · next h => exact ⟨_, _, (decText_integer i.natAbs).1, (decText_integer i.natAbs).2.1, Or.inr ⟨rfl, by omega⟩⟩
  · next h => exact ⟨_, _, (decText_integer i.natAbs).1, (decText_integer i.natAbs).2.1, Or.inl ⟨rfl, by omega⟩⟩

end WS.Render
