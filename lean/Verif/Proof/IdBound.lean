import Verif.Proof.Table
/-
While fewer than 2^32 - 1 insertions have been tried, the ID counter has not wrapped and an
insertion cannot fail for want of an ID.
-/
namespace WS
variable {κ : Type} {cmp : Nat → κ → κ → Ordering}

/-! ### the ID bound -/

/-- All IDs handed out so far, and the counter, are at most `n`. -/
structure IdBound (s : Store κ) (n : Nat) : Prop where
  ctr : s.counter ≤ n
  ids : ∀ e ∈ s.byId, e.id ≤ n

theorem IdBound.mono {s : Store κ} {n m : Nat} (h : IdBound s n) (hnm : n ≤ m) : IdBound s m :=
  ⟨Nat.le_trans h.ctr hnm, fun e he => Nat.le_trans (h.ids e he) hnm⟩

theorem deleteById1_bound {s : Store κ} {n : Nat} (h : IdBound s n) (hn : n + 1 < idModulus) (e : Ent κ)
    (he : e.id ≤ n) : IdBound (deleteById1 s e) n := by
  refine ⟨?_, ?_⟩
  · unfold deleteById1
    simp only
    have hc := h.ctr
    split
    · rename_i hx
      rw [Nat.mod_eq_of_lt (by omega)] at hx
      rw [show s.counter + (idModulus - 1) = (s.counter - 1) + idModulus by simp only [idModulus] at *; omega,
        Nat.add_mod_right, Nat.mod_eq_of_lt (by omega)]
      omega
    · exact hc
  · intro x hx
    unfold deleteById1 at hx
    simp only [List.mem_filter] at hx
    exact h.ids x hx.1

theorem tableDelete1_bound {s : Store κ} {n : Nat} (h : IdBound s n) (hn : n + 1 < idModulus) (e : Ent κ)
    (he : e.id ≤ n) : IdBound (tableDelete1 s e) n := by
  unfold tableDelete1
  exact deleteById1_bound (s := s.setTable e.tbl (unlink (s.tables e.tbl) e)) ⟨h.ctr, h.ids⟩ hn e he

theorem foldl_deleteById1_bound (l : List (Ent κ)) {s : Store κ} {n : Nat} (h : IdBound s n)
    (hn : n + 1 < idModulus) (hl : ∀ e ∈ l, e.id ≤ n) : IdBound (l.foldl deleteById1 s) n := by
  induction l generalizing s with
  | nil => exact h
  | cons e rest ih =>
    rw [List.foldl_cons]
    exact ih (deleteById1_bound h hn e (hl e (by simp))) (fun x hx => hl x (by simp [hx]))

theorem tableFlush_bound {s : Store κ} (hi : StoreInv cmp s) {n : Nat} (h : IdBound s n)
    (hn : n + 1 < idModulus) (t : Nat) : IdBound (tableFlush s t) n := by
  unfold tableFlush
  exact foldl_deleteById1_bound _ (s := s.setTable t {}) ⟨h.ctr, h.ids⟩ hn
    (fun e he => h.ids e ((hi.mem t e).1 he).1)

theorem storeInsert_bound {s : Store κ} (hi : StoreInv cmp s) {n : Nat} (h : IdBound s n)
    (hn : n + 1 < idModulus) (t : Nat) (k : κ) :
    (storeInsert cmp s t k).1 ≠ .error .invalidArg ∧
    (n + 2 < idModulus → IdBound (storeInsert cmp s t k).2 (n + 1)) := by
  unfold storeInsert
  rcases idAllocate_spec s t k hi.idSorted hi.ctr with ⟨a1, a2, a3⟩ | ⟨c, c1, c2, c3, c4, c5⟩
  · exfalso
    obtain ⟨i, hi1, hi2⟩ := a3 (n + 1) (by have := h.ctr; omega) hn
    have := h.ids i hi1
    omega
  · rw [show idAllocate s t k = (.ok ⟨c, t, k⟩, (idAllocate s t k).2) from Prod.ext c4 rfl]
    simp only
    have hc : c ≤ n + 1 := by
      apply Nat.le_of_not_lt
      intro hlt
      obtain ⟨i, hi1, hi2⟩ := c3 (n + 1) (by have := h.ctr; omega) hlt
      have := h.ids i hi1
      omega
    obtain ⟨_, l, hl, hs1⟩ := insertById_ok _ _ _ c5
    have hb1 : IdBound (idAllocate s t k).2 (n + 1) := by
      rw [hs1]
      refine ⟨hc, ?_⟩
      intro e he
      rcases ((idSplice_some _ _ _ hi.idSorted hl).2.1 e).1 he with rfl | he
      · exact hc
      · exact Nat.le_trans (h.ids e he) (by omega)
    unfold tableInsert
    have hz : ¬ (c = 0) := by omega
    simp only [hz, if_false]
    cases hk : keySplice (cmp t) ⟨c, t, k⟩ ((idAllocate s t k).2.tables t).ents with
    | none => exact ⟨by simp, fun hn2 => deleteById1_bound hb1 hn2 _ hc⟩
    | some l' => exact ⟨by simp, fun _ => ⟨hb1.ctr, hb1.ids⟩⟩


end WS
