import Verif.Proof.JsonArray
/-
C60: arrays of JSON values behave as lists.
-/
namespace WS.Props
open WS.JArr WS.Spec.JArr

/-- Sample values: numbers, where 0 is null and 99 the fresh value. -/
def numFini (_ : Nat) : Nat × Int := (0, 0)

/-- C60: after every history of calls on an array the results were those of a list, and the array has the elements of that list.  This needs
an allocator whose `realloc` keeps the memory when asked for zero bytes, or a history in which no removal empties the array; and index and
count of a removal must not exceed `size_t` together. -/
theorem C60_array_is_a_list_partial {α : Type} (fresh : α) (fini : α → α × Int) (hf : ∀ v, 0 ≤ (fini v).2) (zeroFrees : Bool)
    (calls : List (Call α)) (hs : ∀ c ∈ calls, Sane c) (hz : zeroFrees = false ∨ KeepsSome ([] : List α) calls) :
    ∃ a l reports, run fresh fini zeroFrees init calls = some (a, reports) ∧ Run [] calls l reports ∧
      a.size = l.length ∧ ∀ i, get a i = some l[i]? := by
  obtain ⟨a, l, reps, h1, h2, h3⟩ := run_spec fresh fini hf zeroFrees calls init_rep hs
    (fun e => hz.elim (fun h => by rw [h] at e; cases e) id)
  exact ⟨a, l, reps, h1, h2, (rep_size h3).1, get_spec h3⟩

/-- A history with insertions in the middle, a removal, a failed allocation, and everything removed. -/
def arrayCalls : List (Call Nat) :=
  [.append (some fun _ => 7) 1, .append (some fun _ => 7) 2, .insert (some fun _ => 7) 1 3, .append none 4, .insert none 0 5,
   .removeRange none 1 2, .removeRange none 2 1, .put 0 6, .remove none 0, .remove (some fun _ => 7) 0, .append (some fun _ => 7) 8]

example : ∃ a l reports, run 99 numFini false init arrayCalls = some (a, reports) ∧ Run [] arrayCalls l reports ∧
    a.size = l.length ∧ ∀ i, get a i = some l[i]? :=
  C60_array_is_a_list_partial 99 numFini (fun _ => Int.le_refl 0) false arrayCalls
    (by intro c hc; simp only [arrayCalls, List.mem_cons, List.not_mem_nil, or_false] at hc
        rcases hc with rfl | rfl | rfl | rfl | rfl | rfl | rfl | rfl | rfl | rfl | rfl <;> simp [Sane]) (Or.inl rfl)

example : (run 99 numFini false init arrayCalls).map (·.2) =
    some [.pointer true, .pointer true, .pointer true, .pointer true, .pointer false, .code 0, .code (-1), .pointer true, .code 0, .code 0, .pointer true] := by
  decide

/-- The calls of a program that fills an array and keeps one element in it. -/
def keptCalls : List (Call Nat) := [.append (some fun _ => 7) 1, .append (some fun _ => 7) 2, .insert none 5 9]

example : ∃ a l reports, run 99 numFini true init keptCalls = some (a, reports) ∧ Run [] keptCalls l reports ∧
    a.size = l.length ∧ ∀ i, get a i = some l[i]? :=
  C60_array_is_a_list_partial 99 numFini (fun _ => Int.le_refl 0) true keptCalls
    (by intro c hc; simp only [keptCalls, List.mem_cons, List.not_mem_nil, or_false] at hc
        rcases hc with rfl | rfl | rfl <;> simp [Sane])
    (Or.inr (by
      intro before c after l1 l2 reps rep he _ hr _
      have hc : c ∈ keptCalls := by rw [he]; simp
      simp only [keptCalls, List.mem_cons, List.not_mem_nil, or_false] at hc
      rcases hc with rfl | rfl | rfl <;> exact hr.elim))

/-! ### Findings -/

/-- C60, finding: with an allocator whose `realloc` releases the memory when asked for zero bytes (as glibc's does), an array whose only
element is removed keeps a pointer to the released memory, and the next element is written there. -/
theorem C60_emptied_array_dangles {α : Type} (fresh : α) (fini : α → α × Int) (v w : α) (hf : 0 ≤ (fini v).2) (junk : Nat → α) (r r' : Reply α) :
    (∃ a, run fresh fini true init [.append (some junk) v, .remove r 0] = some (a, [.pointer true, .code 0]) ∧ a.buf = .freed) ∧
    run fresh fini true init [.append (some junk) v, .remove r 0, .append r' w] = none := by
  have hn : ¬ (fini v).2 < 0 := by omega
  constructor
  · refine ⟨⟨.freed, 0, 1⟩, ?_, rfl⟩
    simp [run, step, append, JArr.insert, init, arrayRealloc, realloc, place, put, remove, removeRange, wrap, resize, finis, shrink, hn]
  · simp [run, step, append, JArr.insert, init, arrayRealloc, realloc, place, put, remove, removeRange, wrap, resize, finis, shrink, hn]

example : run 99 numFini true init [.append (some fun _ => 7) 1, .remove none 0, .append (some fun _ => 7) 2] = none :=
  (C60_emptied_array_dangles 99 numFini 1 2 (by decide) _ _ _).2

/-- C60, finding: the check of the range wraps.  Removing element 2^64-1 of an array without elements succeeds, and the array then claims
to have 2^64-1 elements; of an array without room it moves memory outside the array. -/
theorem C60_removal_wraps {α : Type} (fini : α → α × Int) (zeroFrees : Bool) (r : Reply α) :
    (∃ a : Arr α, remove fini zeroFrees r init (2 ^ 64 - 1) = some (a, 0) ∧ a.size = 2 ^ 64 - 1) ∧
    ∀ (x : α) (xs : List α), (x :: xs).length < 2 ^ 63 →
      removeRange fini zeroFrees r ⟨.live (x :: xs), (x :: xs).length, (x :: xs).length⟩ 1 (2 ^ 64 - 1) = none := by
  constructor
  · refine ⟨⟨.null, 2 ^ 64 - 1, 0⟩, ?_, rfl⟩
    simp [remove, removeRange, wrap, init, shrink]
  · intro x xs _
    simp only [removeRange, wrap]
    have h1 : (1 + (2 ^ 64 - 1)) % 2 ^ 64 = 0 := by decide
    simp [h1, finis, memmove, show ¬ (1 + (xs.length + 1) ≤ xs.length + 1) by omega]

example : removeRange numFini false none ⟨.live [1, 2], 2, 2⟩ 1 (2 ^ 64 - 1) = none :=
  (C60_removal_wraps numFini false none).2 1 [2] (by decide)

/-- C60, finding: a removal that fails because an element cannot be released has destroyed the elements before it, which stay in the array. -/
theorem C60_failed_removal_destroys {α : Type} (fini : α → α × Int) (zeroFrees : Bool) (r : Reply α) (x y : α) (xs : List α)
    (hx : 0 ≤ (fini x).2) (hy : (fini y).2 < 0) :
    removeRange fini zeroFrees r ⟨.live (x :: y :: xs), xs.length + 2, xs.length + 2⟩ 0 2 =
      some (⟨.live ((fini x).1 :: (fini y).1 :: xs), xs.length + 2, xs.length + 2⟩, (fini y).2) := by
  have h1 : wrap (0 + 2) = 2 := rfl
  simp [removeRange, h1, finis, show ¬ (fini x).2 < 0 by omega, hy, show ¬ xs.length + 2 < 2 by omega]

example : (removeRange (fun n => (0, if n = 2 then -1 else 0)) false none ⟨.live [1, 2], 2, 2⟩ 0 2).map (·.2) = some (-1) := by
  have h := C60_failed_removal_destroys (fun n => (0, if n = 2 then -1 else 0)) false none 1 2 [] (by decide) (by decide)
  exact congrArg (Option.map (·.2)) h

end WS.Props
