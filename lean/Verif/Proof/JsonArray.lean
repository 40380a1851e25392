import Verif.Spec.JsonArray
/-
Proofs for C60.
-/
namespace WS.JArr
open WS.Spec.JArr

/-- The array represents the list `l`. -/
def Rep {α : Type} (a : Arr α) (l : List α) : Prop :=
  match a.buf with
  | .null => a.size = 0 ∧ a.alloc = 0 ∧ l = []
  | .live cells => cells.length = a.alloc ∧ a.alloc < 2 ^ 59 ∧ a.size ≤ a.alloc ∧ cells.take a.size = l
  | .freed => False

variable {α : Type}

theorem rep_size {a : Arr α} {l : List α} (h : Rep a l) : a.size = l.length ∧ a.size ≤ a.alloc ∧ a.alloc < 2 ^ 59 := by
  unfold Rep at h
  split at h
  · obtain ⟨h1, h2, rfl⟩ := h
    exact ⟨h1, by omega, by omega⟩
  · obtain ⟨h1, h2, h3, rfl⟩ := h
    rw [List.length_take]
    exact ⟨by omega, h3, h2⟩
  · exact h.elim

theorem resize_length (cells : List α) (n : Nat) (junk : Nat → α) : (resize cells n junk).length = n := by
  simp only [resize, List.length_append, List.length_take, List.length_map, List.length_range]
  omega

theorem resize_take (cells : List α) (n k : Nat) (junk : Nat → α) (h1 : k ≤ n) (h2 : k ≤ cells.length) : (resize cells n junk).take k = cells.take k := by
  rw [resize, List.take_append_of_le_length (by rw [List.length_take]; omega), List.take_take, Nat.min_eq_left h1]

/-- Reallocation to `n` cells: success, or failure with nothing changed. -/
theorem arrayRealloc_spec {a : Arr α} {l : List α} (h : Rep a l) (z : Bool) (r : Reply α) (n : Nat) (hn : n < 2 ^ 60) (hz : z = true → 0 < n)
    (hs : a.size ≤ n) :
    ∃ a' rc, arrayRealloc z r a n = some (a', rc) ∧
      ((rc = 0 ∧ Rep a' l ∧ a'.size = a.size ∧ a'.alloc = n ∧ (∃ c, a'.buf = .live c)) ∨ (rc = -1 ∧ a' = a ∧ (r = none ∨ 2 ^ 59 ≤ n))) := by
  have hw : wrap (n * 16) = n * 16 := by unfold wrap; omega
  have hnz : ¬ ((z && decide (n * 16 = 0)) = true) := by
    cases z with
    | false => simp
    | true => have := hz rfl; simp; omega
  unfold arrayRealloc realloc
  rw [hw]
  obtain ⟨buf, size, alloc⟩ := a
  cases buf with
  | freed => exact h.elim
  | null =>
    obtain ⟨h1, h2, rfl⟩ := h
    by_cases hb : n * 16 < 2 ^ 63
    · simp only [hb, if_true]
      cases r with
      | none => exact ⟨_, _, rfl, Or.inr ⟨rfl, rfl, Or.inl rfl⟩⟩
      | some junk =>
        refine ⟨_, _, rfl, Or.inl ⟨rfl, ?_, rfl, rfl, _, rfl⟩⟩
        simp only at h1
        exact ⟨by rw [resize_length]; simp only; omega, by simp only; omega, hs, by simp only [h1, List.take_zero]⟩
    · simp only [hb, if_false]
      exact ⟨_, _, rfl, Or.inr ⟨rfl, rfl, Or.inr (by omega)⟩⟩
  | live cells =>
    obtain ⟨h1, h2, h3, h4⟩ := h
    simp only at h1 h2 h3 h4 hs
    simp only [hnz, if_false]
    by_cases hb : n * 16 < 2 ^ 63
    · simp only [hb, if_true]
      cases r with
      | none => exact ⟨_, _, rfl, Or.inr ⟨rfl, rfl, Or.inl rfl⟩⟩
      | some junk =>
        refine ⟨_, _, rfl, Or.inl ⟨rfl, ?_, rfl, rfl, _, rfl⟩⟩
        have : n * 16 / 16 = n := by omega
        exact ⟨by rw [resize_length]; exact this, by simp only; omega, hs, by
          simp only [this]; rw [resize_take _ _ _ _ hs (by omega), h4]⟩
    · simp only [hb, if_false]
      exact ⟨_, _, rfl, Or.inr ⟨rfl, rfl, Or.inr (by omega)⟩⟩

/-- The cells after `place` and the initialisation of the new element. -/
theorem place_spec {a : Arr α} {l : List α} (h : Rep a l) (fresh v : α) (i : Nat) (hi : i ≤ a.size) (hroom : a.size < a.alloc) :
    ∃ a' a'', place fresh a i = some a' ∧ put a' i v = some a'' ∧ Rep a'' (l.take i ++ v :: l.drop i) := by
  obtain ⟨buf, size, alloc⟩ := a
  cases buf with
  | freed => exact h.elim
  | null => obtain ⟨h1, h2, _⟩ := h; simp only at h1 h2 hroom; omega
  | live cells =>
    obtain ⟨h1, h2, h3, h4⟩ := h
    simp only at h1 h2 h3 h4 hroom hi
    have hw : wrap (i + 1) = i + 1 := by unfold wrap; omega
    have hw2 : wrap (size + 1) = size + 1 := by unfold wrap; omega
    have hll : l.length = size := by rw [← h4, List.length_take]; omega
    by_cases hlt : i < size
    · have hm : memmove cells (i + 1) i (size - i) = some (cells.take (i + 1) ++ (cells.drop i).take (size - i) ++ cells.drop (i + 1 + (size - i))) := by
        rw [memmove, if_pos ⟨by omega, by omega⟩]
      have hlen : (cells.take (i + 1) ++ (cells.drop i).take (size - i) ++ cells.drop (i + 1 + (size - i))).length = alloc := by
        simp only [List.length_append, List.length_take, List.length_drop]; omega
      generalize hX : cells.take (i + 1) ++ (cells.drop i).take (size - i) ++ cells.drop (i + 1 + (size - i)) = X at hm hlen
      have p1 : place fresh ⟨.live cells, size, alloc⟩ i = some ⟨.live (X.set i fresh), wrap (size + 1), alloc⟩ := by
        simp only [place, hw, hlt, if_true, hm, hlen, show i < alloc by omega]
      have p2 : put ⟨.live (X.set i fresh), wrap (size + 1), alloc⟩ i v = some ⟨.live ((X.set i fresh).set i v), wrap (size + 1), alloc⟩ := by
        simp only [put, List.length_set, hlen, show i < alloc by omega, if_true]
      refine ⟨_, _, p1, p2, ?_⟩
      subst hX
      refine ⟨by simp only [List.length_set, hlen], h2, by simp only [hw2]; omega, ?_⟩
      simp only [hw2, List.set_set]
      apply List.ext_getElem
      · simp only [List.length_take, List.length_set, hlen, List.length_append, List.length_cons, List.length_drop]; omega
      · intro k hk1 hk2
        simp only [List.getElem_take, List.getElem_set, List.getElem_append, List.length_take, List.length_drop, List.length_append,
          List.getElem_drop, ← h4, List.getElem_cons]
        simp only [List.length_take, List.length_set, hlen] at hk1
        by_cases e : i = k
        · subst e
          have e2 : min i (min size cells.length) = i := by omega
          simp [e2]
        · simp only [e, if_false]
          have e1 : min size cells.length = size := by omega
          have e2 : min i size = i := by omega
          have e3 : min (i + 1) cells.length = i + 1 := by omega
          have e4 : min (size - i) (cells.length - i) = size - i := by omega
          simp only [e1, e2, e3, e4]
          by_cases hki : k < i
          · have : k < i + 1 + (size - i) := by omega
            have : k < i + 1 := by omega
            simp [*]
          · have g1 : k < i + 1 + (size - i) := by omega
            have g2 : ¬ k < i + 1 := by omega
            have g3 : k - i ≠ 0 := by omega
            simp only [g1, g2, hki, g3, dif_pos, dif_neg, not_false_eq_true]
            congr 1
    · have hi' : i = size := by omega
      subst hi'
      have p1 : place fresh ⟨.live cells, i, alloc⟩ i = some ⟨.live (cells.set i fresh), wrap (i + 1), alloc⟩ := by
        simp only [place, Nat.lt_irrefl, if_false, h1, hroom, if_true]
      have p2 : put ⟨.live (cells.set i fresh), wrap (i + 1), alloc⟩ i v = some ⟨.live ((cells.set i fresh).set i v), wrap (i + 1), alloc⟩ := by
        simp only [put, List.length_set, h1, hroom, if_true]
      refine ⟨_, _, p1, p2, ?_⟩
      refine ⟨by simp only [List.length_set, h1], h2, by simp only [hw2]; omega, ?_⟩
      simp only [hw2, List.set_set]
      rw [List.take_of_length_le (by omega : l.length ≤ i), List.drop_of_length_le (by omega : l.length ≤ i), ← h4]
      apply List.ext_getElem
      · simp only [List.length_take, List.length_set, List.length_append, List.length_cons, List.length_nil]; omega
      · intro k hk1 hk2
        simp only [List.length_take, List.length_set] at hk1
        simp only [List.getElem_take, List.getElem_set, List.getElem_append, List.length_take]
        by_cases e : i = k
        · subst e; simp [Nat.min_eq_left (show i ≤ cells.length by omega)]
        · have : k < min i cells.length := by omega
          simp [e, this]

theorem insert_spec {a : Arr α} {l : List α} (h : Rep a l) (fresh v : α) (z : Bool) (r : Reply α) (i : Nat) :
    (∃ a', insert fresh z r a i = some (a', false) ∧ Rep a' l ∧ (l.length < i ∨ (i ≤ l.length ∧ Refused r l))) ∨
    (∃ a' a'', insert fresh z r a i = some (a', true) ∧ put a' i v = some a'' ∧ Rep a'' (l.take i ++ v :: l.drop i) ∧ i ≤ l.length) := by
  obtain ⟨hs, hle, hal⟩ := rep_size h
  unfold insert
  by_cases h1 : a.size < i
  · rw [if_pos h1]
    exact Or.inl ⟨a, rfl, h, Or.inl (by omega)⟩
  rw [if_neg h1]
  by_cases h2 : a.alloc ≤ a.size
  · rw [if_pos h2]
    obtain ⟨n, hn⟩ : ∃ n, n = (if 0 < a.alloc then wrap (a.alloc * 2) else 1) := ⟨_, rfl⟩
    rw [← hn]
    have hw : wrap (a.alloc * 2) = a.alloc * 2 := by unfold wrap; omega
    rw [hw] at hn
    have hn1 : n < 2 ^ 60 ∧ 0 < n ∧ a.size < n ∧ (2 ^ 59 ≤ n → 2 ^ 58 ≤ a.alloc) := by split at hn <;> subst hn <;> omega
    obtain ⟨a', rc, h3, h4⟩ := arrayRealloc_spec h z r n hn1.1 (fun _ => hn1.2.1) (by omega)
    rw [h3]
    rcases h4 with ⟨rfl, g1, g2, g3, -⟩ | ⟨rfl, rfl, g⟩
    · simp only [ne_eq, not_true_eq_false, if_false]
      obtain ⟨b, b', p1, p2, p3⟩ := place_spec g1 fresh v i (by omega) (by omega)
      exact Or.inr ⟨b, b', by rw [p1]; rfl, p2, p3, by omega⟩
    · refine Or.inl ⟨a', rfl, h, Or.inr ⟨by omega, ?_⟩⟩
      rcases g with g | g
      · exact Or.inl g
      · exact Or.inr (by have := hn1.2.2.2 g; omega)
  · rw [if_neg h2]
    obtain ⟨b, b', p1, p2, p3⟩ := place_spec h fresh v i (by omega) (by omega)
    exact Or.inr ⟨b, b', by rw [p1]; rfl, p2, p3, by omega⟩

/-- Releasing elements leaves the others, and works within the buffer. -/
theorem finis_spec (fini : α → α × Int) (hf : ∀ v, 0 ≤ (fini v).2) (n : Nat) :
    ∀ (cells : List α) (i : Nat), i + n ≤ cells.length →
      ∃ cells', finis fini cells i n = some (cells', 0) ∧ cells'.length = cells.length ∧ cells'.take i = cells.take i ∧
        cells'.drop (i + n) = cells.drop (i + n) := by
  induction n with
  | zero => intro cells i _; exact ⟨cells, rfl, rfl, rfl, rfl⟩
  | succ n ih =>
    intro cells i h
    have hi : i < cells.length := by omega
    obtain ⟨c', g1, g2, g3, g4⟩ := ih (cells.set i (fini cells[i]).1) (i + 1) (by rw [List.length_set]; omega)
    refine ⟨c', ?_, by rw [g2, List.length_set], ?_, ?_⟩
    · rw [finis, List.getElem?_eq_getElem hi]
      have := hf cells[i]
      simp only [show ¬ (fini cells[i]).2 < 0 by omega, if_false]
      exact g1
    · have := congrArg (List.take i) g3
      rw [List.take_take, List.take_take, Nat.min_eq_left (by omega), List.take_set_of_le (Nat.le_refl i)] at this
      exact this
    · rw [show i + (n + 1) = i + 1 + n by omega, g4, List.drop_set_of_lt (by omega)]

theorem shrink_spec {a : Arr α} {l : List α} (h : Rep a l) (z : Bool) (hz : z = true → l ≠ []) (r : Reply α) :
    ∃ a', shrink z r a = some a' ∧ Rep a' l := by
  obtain ⟨hs, hle, hal⟩ := rep_size h
  unfold shrink
  by_cases hc : wrap (4 * a.size) < a.alloc
  · rw [if_pos hc]
    have hw : wrap (4 * a.size) = 4 * a.size := by unfold wrap; omega
    rw [hw] at hc
    obtain ⟨a', rc, h3, h4⟩ := arrayRealloc_spec h z r (a.alloc / 2) (by omega) (fun e => by
      have := List.length_pos_iff.2 (hz e)
      omega) (by omega)
    rw [h3]
    rcases h4 with ⟨rfl, g1, _⟩ | ⟨rfl, rfl, g⟩
    · exact ⟨a', rfl, g1⟩
    · exact ⟨a', rfl, h⟩
  · rw [if_neg hc]
    exact ⟨a, rfl, h⟩

theorem removeRange_spec {a : Arr α} {l : List α} (h : Rep a l) (fini : α → α × Int) (hf : ∀ v, 0 ≤ (fini v).2) (z : Bool) (r : Reply α)
    (i n : Nat) (hin : i + n < 2 ^ 64) (hz : z = true → i + n ≤ l.length → l.take i ++ l.drop (i + n) ≠ []) :
    ∃ a' rc, removeRange fini z r a i n = some (a', rc) ∧
      ((l.length < i + n ∧ Rep a' l ∧ rc = -1) ∨ (i + n ≤ l.length ∧ Rep a' (l.take i ++ l.drop (i + n)) ∧ rc = 0)) := by
  obtain ⟨hs, hle, hal⟩ := rep_size h
  have hw : wrap (i + n) = i + n := by unfold wrap; omega
  unfold removeRange
  rw [hw]
  by_cases h1 : a.size < i + n
  · rw [if_pos h1]
    exact ⟨a, -1, rfl, Or.inl ⟨by omega, h, rfl⟩⟩
  rw [if_neg h1]
  have hw2 : wrap (a.size + 2 ^ 64 - n) = a.size - n := by unfold wrap; omega
  rw [hw2]
  obtain ⟨buf, size, alloc⟩ := a
  cases buf with
  | freed => exact h.elim
  | null =>
    obtain ⟨g1, g2, rfl⟩ := h
    simp only [List.length_nil] at hs h1
    have hi0 : i = 0 := by omega
    have hn0 : n = 0 := by omega
    subst hi0 hn0
    have hcond : ¬ (0 < 0 + 0 ∨ 0 + 0 < size) := by omega
    simp only [hcond, if_false, Nat.sub_zero]
    obtain ⟨a', s1, s2⟩ := shrink_spec (a := ⟨.null, size, alloc⟩) (l := ([] : List α)) ⟨g1, g2, rfl⟩ z
      (fun e => hz e (by simp)) r
    exact ⟨a', 0, by rw [s1]; rfl, Or.inr ⟨by simp, s2, rfl⟩⟩
  | live cells =>
    obtain ⟨g1, g2, g3, g4⟩ := h
    simp only at g1 g2 g3 g4 hs h1 hw2
    obtain ⟨c', f1, f2, f3, f4⟩ := finis_spec fini hf n cells i (by omega)
    have hsub : i + n - i = n := by omega
    simp only [hsub, f1, show ¬ ((0 : Int) < 0) by decide, if_false]
    have key : ∃ c'' : List α, (if i + n < size then memmove c' i (i + n) (size - (i + n)) else some c') = some c'' ∧ c''.length = alloc ∧
        c''.take (size - n) = l.take i ++ l.drop (i + n) := by
      by_cases hlt : i + n < size
      · rw [if_pos hlt, memmove, if_pos ⟨by omega, by omega⟩]
        refine ⟨_, rfl, by simp only [List.length_append, List.length_take, List.length_drop]; omega, ?_⟩
        rw [f3, f4, List.take_append_of_le_length (by simp only [List.length_append, List.length_take, List.length_drop]; omega),
          List.take_of_length_le (by simp only [List.length_append, List.length_take, List.length_drop]; omega), ← g4, List.take_take,
          Nat.min_eq_left (by omega), List.drop_take]
      · rw [if_neg hlt]
        refine ⟨c', rfl, by omega, ?_⟩
        have e : size - n = i := by omega
        rw [e, f3, ← g4, List.take_take, Nat.min_eq_left (by omega), List.drop_of_length_le (by rw [List.length_take]; omega), List.append_nil]
    obtain ⟨c'', k1, k2, k3⟩ := key
    rw [k1]
    obtain ⟨a', s1, s2⟩ := shrink_spec (a := ⟨.live c'', size - n, alloc⟩) (l := l.take i ++ l.drop (i + n))
      ⟨k2, g2, by simp only; omega, k3⟩ z (fun e => hz e (by omega)) r
    exact ⟨a', 0, by simp only [s1, Option.map_some], Or.inr ⟨by omega, s2, rfl⟩⟩

theorem clean_spec {a : Arr α} {l : List α} (h : Rep a l) (fini : α → α × Int) (hf : ∀ v, 0 ≤ (fini v).2) : clean fini a = some (init, 0) := by
  obtain ⟨buf, size, alloc⟩ := a
  cases buf with
  | freed => exact h.elim
  | null => obtain ⟨g1, g2, rfl⟩ := h; simp only at g1; simp only [clean, g1, Nat.lt_irrefl, if_false]
  | live cells =>
    obtain ⟨g1, g2, g3, g4⟩ := h
    simp only at g1 g2 g3 g4
    obtain ⟨c', f1, f2, f3, f4⟩ := finis_spec fini hf size cells 0 (by omega)
    simp only [clean, f1, show ¬ ((0 : Int) < 0) by decide, if_false]

theorem get_spec {a : Arr α} {l : List α} (h : Rep a l) (i : Nat) : get a i = some l[i]? := by
  obtain ⟨hs, _, _⟩ := rep_size h
  unfold get
  by_cases hi : i < a.size
  · rw [if_pos hi]
    obtain ⟨buf, size, alloc⟩ := a
    cases buf with
    | freed => exact h.elim
    | null => obtain ⟨g1, _⟩ := h; simp only at g1 hi; omega
    | live cells =>
      obtain ⟨g1, g2, g3, g4⟩ := h
      simp only at g1 g2 g3 g4 hi
      have hc : i < cells.length := by omega
      simp only [List.getElem?_eq_getElem hc]
      rw [← g4, List.getElem?_take, if_pos hi, List.getElem?_eq_getElem hc]
  · rw [if_neg hi, List.getElem?_eq_none (by omega)]

theorem put_spec {a : Arr α} {l : List α} (h : Rep a l) (i : Nat) (hi : i < l.length) (v : α) : ∃ a', put a i v = some a' ∧ Rep a' (l.set i v) := by
  obtain ⟨hs, _, _⟩ := rep_size h
  obtain ⟨buf, size, alloc⟩ := a
  cases buf with
  | freed => exact h.elim
  | null => obtain ⟨g1, g2, rfl⟩ := h; exact absurd hi (Nat.not_lt_zero _)
  | live cells =>
    obtain ⟨g1, g2, g3, g4⟩ := h
    simp only at g1 g2 g3 g4 hs
    have p1 : put ⟨.live cells, size, alloc⟩ i v = some ⟨.live (cells.set i v), size, alloc⟩ := by
      simp only [put, show i < cells.length by omega, if_true]
    refine ⟨_, p1, ?_⟩
    exact ⟨by simp only [List.length_set]; omega, g2, g3, by simp only; rw [List.take_set, g4]⟩

theorem step_spec {a : Arr α} {l : List α} (h : Rep a l) (fresh : α) (fini : α → α × Int) (hf : ∀ v, 0 ≤ (fini v).2) (z : Bool) (c : Call α)
    (hc : Sane c) (hz : z = true → Removes c → ∀ l' rep, Step l c l' rep → l' ≠ []) :
    ∃ a' l' rep, step fresh fini z a c = some (a', rep) ∧ Step l c l' rep ∧ Rep a' l' := by
  cases c with
  | insert r i v =>
    rcases insert_spec h fresh v z r i with ⟨a', h1, h2, h3⟩ | ⟨a', a'', h1, h2, h3, h4⟩
    · refine ⟨a', l, .pointer false, by simp only [step, h1], ?_, h2⟩
      rcases h3 with h3 | ⟨h3, h4⟩
      · exact .insertOutside h3
      · exact .noMemory h3 h4
    · exact ⟨a'', _, .pointer true, by simp only [step, h1, h2, Option.map_some], .insert h4, h3⟩
  | append r v =>
    have hs := (rep_size h).1
    rcases insert_spec h fresh v z r a.size with ⟨a', h1, h2, h3⟩ | ⟨a', a'', h1, h2, h3, h4⟩
    · refine ⟨a', l, .pointer false, by simp only [step, append, h1], ?_, h2⟩
      rcases h3 with h3 | ⟨h3, h4⟩
      · omega
      · exact .appendNoMemory h4
    · rw [hs, List.take_length, List.drop_length] at h3
      exact ⟨a'', _, .pointer true, by simp only [step, append, h1, h2, Option.map_some], .append, h3⟩
  | put i v =>
    have hg := get_spec h i
    by_cases hi : i < l.length
    · obtain ⟨a', h1, h2⟩ := put_spec h i hi v
      exact ⟨a', _, .pointer true, by simp only [step, hg, List.getElem?_eq_getElem hi, h1, Option.map_some], .put hi, h2⟩
    · refine ⟨a, l, .pointer false, ?_, .putOutside (by omega), h⟩
      simp only [step, hg, List.getElem?_eq_none (show l.length ≤ i by omega)]
  | removeRange r i n =>
    obtain ⟨a', rc, h1, h2⟩ := removeRange_spec h fini hf z r i n hc (fun e hle => hz e trivial _ _ (.removeRange hle))
    rcases h2 with ⟨h2, h3, rfl⟩ | ⟨h2, h3, rfl⟩
    · exact ⟨a', l, .code (-1), by simp only [step, h1, Option.map_some], .removeOutside h2, h3⟩
    · exact ⟨a', _, .code 0, by simp only [step, h1, Option.map_some], .removeRange h2, h3⟩
  | remove r i =>
    obtain ⟨a', rc, h1, h2⟩ := removeRange_spec h fini hf z r i 1 hc (fun e hle => hz e trivial _ _ (.remove hle))
    rcases h2 with ⟨h2, h3, rfl⟩ | ⟨h2, h3, rfl⟩
    · exact ⟨a', l, .code (-1), by simp only [step, remove, h1, Option.map_some], .removeOneOutside (by omega), h3⟩
    · exact ⟨a', _, .code 0, by simp only [step, remove, h1, Option.map_some], .remove h2, h3⟩
  | clean =>
    exact ⟨init, [], .code 0, by simp only [step, clean_spec h fini hf, Option.map_some], .clean, rfl, rfl, rfl⟩

theorem run_spec (fresh : α) (fini : α → α × Int) (hf : ∀ v, 0 ≤ (fini v).2) (z : Bool) (cs : List (Call α)) :
    ∀ {a : Arr α} {l : List α}, Rep a l → (∀ c ∈ cs, Sane c) → (z = true → KeepsSome l cs) →
      ∃ a' l' reps, run fresh fini z a cs = some (a', reps) ∧ Run l cs l' reps ∧ Rep a' l' := by
  induction cs with
  | nil => intro a l h _ _; exact ⟨a, l, [], rfl, .nil, h⟩
  | cons c cs ih =>
    intro a l h hs hk
    obtain ⟨a1, l1, rep, h1, h2, h3⟩ := step_spec h fresh fini hf z c (hs c (.head _))
      (fun e hr l' rep hst => hk e [] c cs l l' [] rep rfl .nil hr hst)
    obtain ⟨a2, l2, reps, g1, g2, g3⟩ := ih h3 (fun x hx => hs x (.tail _ hx)) (fun e before c' after l1' l2' reps rep' he hr hrem hst =>
      hk e (c :: before) c' after l1' l2' (rep :: reps) rep' (by rw [he]; rfl) (.cons h2 hr) hrem hst)
    exact ⟨a2, l2, rep :: reps, by simp only [run, h1, g1, Option.map_some], .cons h2 g2, g3⟩

theorem init_rep : Rep (init : Arr α) [] := ⟨rfl, rfl, rfl⟩

end WS.JArr
