import Verif.Spec.RefCount
/- Invariant of the reference-count transition system. -/
namespace WS.RC
open WS.Spec

/-- All references to `x`. -/
def total (h : Heap) (x : Nat) : Nat :=
  (if (h.objs x).inTable = true then 1 else 0) + h.handles x + heldUpto h.objs x h.next + h.dropping.count x

structure Inv (h : Heap) : Prop where
  count : ∀ x, (h.objs x).rc = total h x
  live : ∀ x, (h.objs x).live = true ↔ 0 < (h.objs x).rc
  bound : ∀ x, h.next ≤ x → (h.objs x).rc = 0
  refsLive : ∀ y, (h.objs y).live = false → (h.objs y).refs = []
  max : ∀ x, (h.objs x).rc ≤ maxRef

theorem heldUpto_congr (f g : Nat → Obj) (x n : Nat) (h : ∀ y, y < n → (f y).refs = (g y).refs) :
    heldUpto f x n = heldUpto g x n := by
  induction n with
  | zero => rfl
  | succ n ih => simp only [heldUpto]; rw [ih (fun y hy => h y (by omega)), h n (by omega)]

/-- Changing the references of one object. -/
theorem heldUpto_set (f : Nat → Obj) (x k n : Nat) (o : Obj) (hk : k < n) :
    heldUpto (fun y => if y = k then o else f y) x n + (f k).refs.count x = heldUpto f x n + o.refs.count x := by
  induction n with
  | zero => omega
  | succ n ih =>
    simp only [heldUpto]
    by_cases hkn : k = n
    · subst hkn
      have : heldUpto (fun y => if y = k then o else f y) x k = heldUpto f x k := by
        apply heldUpto_congr
        intro y hy
        have : y ≠ k := by omega
        simp [this]
      rw [this]; simp; omega
    · have hn : n ≠ k := fun h => hkn h.symm
      have := ih (by omega)
      simp only [hn, if_false]
      omega

theorem heldUpto_pos (f : Nat → Obj) (x n : Nat) (y : Nat) (hy : y < n) (h : x ∈ (f y).refs) :
    0 < heldUpto f x n := by
  induction n with
  | zero => omega
  | succ n ih =>
    simp only [heldUpto]
    by_cases hyn : y = n
    · subst hyn
      have := List.count_pos_iff.2 h
      omega
    · have := ih (by omega); omega

theorem heldUpto_exists (f : Nat → Obj) (x n : Nat) (h : 0 < heldUpto f x n) : ∃ y, y < n ∧ x ∈ (f y).refs := by
  induction n with
  | zero => simp [heldUpto] at h
  | succ n ih =>
    simp only [heldUpto] at h
    by_cases hc : 0 < (f n).refs.count x
    · exact ⟨n, by omega, List.count_pos_iff.1 hc⟩
    · obtain ⟨y, hy, hm⟩ := ih (by omega)
      exact ⟨y, by omega, hm⟩

theorem Inv.lt_next {h : Heap} (hi : Inv h) {x : Nat} (hp : 0 < (h.objs x).rc) : x < h.next := by
  apply Classical.byContradiction
  intro hc
  have := hi.bound x (by omega)
  omega

theorem inv_init : Inv {} := by
  constructor
  · intro x; simp [total, heldUpto]
  · intro x; simp
  · intro x _; rfl
  · intro x _; rfl
  · intro x; simp

/-- An object all of whose references are gone holds none. -/
theorem Inv.refs_lt {h : Heap} (hi : Inv h) {x y : Nat} (hm : x ∈ (h.objs y).refs) :
    y < h.next ∧ 0 < heldUpto h.objs x h.next := by
  have hl : (h.objs y).live = true := by
    cases hl : (h.objs y).live with
    | true => rfl
    | false => rw [hi.refsLive y hl] at hm; cases hm
  have := hi.lt_next ((hi.live y).1 hl)
  exact ⟨this, heldUpto_pos _ _ _ _ this hm⟩

/-- Everything an enabled effect refers to is allocated. -/
theorem Inv.enabled_pos {h : Heap} (hi : Inv h) (a : Act) (he : Enabled h a) :
    match a with
    | .create => True
    | .insertTable x | .acquire x | .giveUp x | .removeTable x | .decrement x => 0 < (h.objs x).rc
    | .link x y | .unlink x y => 0 < (h.objs x).rc ∧ 0 < (h.objs y).rc := by
  cases a with
  | create => trivial
  | insertTable x => simp only; rw [hi.count, total]; have := he.1; omega
  | acquire x =>
    simp only
    rw [hi.count, total]
    rcases he with h1 | h1 | ⟨y, h1⟩
    · rw [h1]; simp; omega
    · omega
    · have := (hi.refs_lt h1).2; omega
  | giveUp x => simp only; rw [hi.count, total]; have : 0 < h.handles x := he; omega
  | removeTable x => simp only; rw [hi.count, total]; rw [show (h.objs x).inTable = true from he]; simp; omega
  | decrement x => simp only; rw [hi.count, total]; have := List.count_pos_iff.2 (show x ∈ h.dropping from he); omega
  | link x y =>
    obtain ⟨h1, h2⟩ := he
    refine ⟨?_, ?_⟩
    · rw [hi.count, total]
      rcases h2 with h2 | h2
      · rw [h2]; simp; omega
      · omega
    · rw [hi.count, total]; omega
  | unlink x y =>
    have h1 : y ∈ (h.objs x).refs := he
    have h2 := hi.refs_lt h1
    refine ⟨?_, ?_⟩
    · have hl : (h.objs x).live = true := by
        cases hl : (h.objs x).live with
        | true => rfl
        | false => rw [hi.refsLive x hl] at h1; cases h1
      exact (hi.live x).1 hl
    · rw [hi.count, total]; omega

theorem count_cons' (a x : Nat) (l : List Nat) : (a :: l).count x = l.count x + (if a = x then 1 else 0) := by
  rw [List.count_cons]; by_cases h : a = x <;> simp [h]

theorem count_erase' (a x : Nat) (l : List Nat) (h : a ∈ l) :
    (l.erase a).count x + (if a = x then 1 else 0) = l.count x := by
  rw [List.count_erase]
  have := List.count_pos_iff.2 h
  by_cases hx : a = x
  · subst hx; simp; omega
  · have hx' : (x == a) = false := by simp; exact fun h => hx h.symm
    simp [hx]

theorem heldUpto_same (h : Heap) (k x : Nat) (o : Obj) (hk : k < h.next) (hr : o.refs = (h.objs k).refs) :
    heldUpto (fun y => if y = k then o else h.objs y) x h.next = heldUpto h.objs x h.next := by
  have := heldUpto_set h.objs x k h.next o hk
  rw [hr] at this; omega

theorem step_inv {h : Heap} (hi : Inv h) (a : Act) (he : Enabled h a) : Inv (step h a).1 := by
  have hpos := hi.enabled_pos a he
  cases a with
  | create =>
    have hzero : total h h.next = 0 := by rw [← hi.count]; exact hi.bound _ (Nat.le_refl _)
    have hz := hzero
    unfold total at hz
    have hnl : (h.objs h.next).live = false := by
      cases hl : (h.objs h.next).live with
      | false => rfl
      | true => have := (hi.live _).1 hl; have := hi.bound h.next (Nat.le_refl _); omega
    constructor
    · intro x
      simp only [step, Heap.setObj, Heap.setHandles, total, heldUpto, if_true]
      have hc : heldUpto (fun y => if y = h.next then { rc := 1, live := true } else h.objs y) x h.next
          = heldUpto h.objs x h.next := by
        apply heldUpto_congr; intro y hy
        have : y ≠ h.next := by omega
        simp [this]
      by_cases hx : x = h.next
      · subst hx
        simp only [if_true, List.count_nil]
        rw [hc]; simp; omega
      · simp only [hx, if_false, List.count_nil]
        rw [hc, hi.count x]
        simp [total]
    · intro x
      simp only [step, Heap.setObj, Heap.setHandles]
      by_cases hx : x = h.next
      · simp [hx]
      · simp [hx]; exact hi.live x
    · intro x hx
      simp only [step, Heap.setObj, Heap.setHandles] at hx ⊢
      have hx' : x ≠ h.next := by omega
      simp only [hx', if_false]
      exact hi.bound x (by omega)
    · intro y hy
      simp only [step, Heap.setObj, Heap.setHandles] at hy ⊢
      by_cases hx : y = h.next
      · simp [hx] at hy
      · simp only [hx, if_false] at hy ⊢; exact hi.refsLive y hy
    · intro x
      simp only [step, Heap.setObj, Heap.setHandles]
      by_cases hx : x = h.next
      · simp [hx, maxRef]
      · simp [hx]; exact hi.max x
  | insertTable k =>
    have hk := hi.lt_next hpos
    obtain ⟨h1, h2⟩ := he
    constructor
    · intro x
      simp only [step, Heap.setObj, Heap.setHandles, total]
      rw [heldUpto_same h k x { h.objs k with inTable := true } hk rfl]
      by_cases hx : x = k
      · subst hx
        simp only [if_true]
        have := hi.count x
        rw [total, h2] at this
        simp at this; omega
      · simp only [hx, if_false]
        rw [hi.count x]; rfl
    · intro x
      simp only [step, Heap.setObj, Heap.setHandles]
      by_cases hx : x = k
      · subst hx; simp; exact hi.live x
      · simp [hx]; exact hi.live x
    · intro x hx
      simp only [step, Heap.setObj, Heap.setHandles] at hx ⊢
      by_cases hxk : x = k
      · subst hxk; simp; exact hi.bound x hx
      · simp [hxk]; exact hi.bound x hx
    · intro y hy
      simp only [step, Heap.setObj, Heap.setHandles] at hy ⊢
      by_cases hx : y = k
      · subst hx; simp at hy ⊢; exact hi.refsLive y hy
      · simp [hx] at hy ⊢; exact hi.refsLive y hy
    · intro x
      simp only [step, Heap.setObj, Heap.setHandles]
      by_cases hx : x = k
      · subst hx; simp; exact hi.max x
      · simp [hx]; exact hi.max x
  | acquire k =>
    have hk := hi.lt_next hpos
    simp only [step, acquire, refInc]
    by_cases hm : (h.objs k).rc = maxRef
    · rw [if_pos hm]; exact hi
    · rw [if_neg hm]
      simp only
      constructor
      · intro x
        simp only [Heap.setObj, Heap.setHandles, total]
        rw [heldUpto_same h k x { h.objs k with rc := (h.objs k).rc + 1 } hk rfl]
        have := hi.count x
        rw [total] at this
        by_cases hx : x = k
        · subst hx; simp only [if_true]; omega
        · simp only [hx, if_false]; omega
      · intro x
        simp only [Heap.setObj, Heap.setHandles]
        have := hi.live x
        by_cases hx : x = k
        · subst hx; simp; exact this.2 hpos
        · simp [hx]; exact this
      · intro x hx
        simp only [Heap.setObj, Heap.setHandles] at hx ⊢
        have hxk : x ≠ k := by omega
        simp [hxk]; exact hi.bound x hx
      · intro y hy
        simp only [Heap.setObj, Heap.setHandles] at hy ⊢
        by_cases hx : y = k
        · subst hx; simp at hy ⊢; exact hi.refsLive y hy
        · simp [hx] at hy ⊢; exact hi.refsLive y hy
      · intro x
        simp only [Heap.setObj, Heap.setHandles]
        have := hi.max x
        by_cases hx : x = k
        · subst hx; simp; omega
        · simp [hx]; exact this
  | giveUp k =>
    constructor
    · intro x
      show (h.objs x).rc = (if (h.objs x).inTable = true then 1 else 0) +
        (if x = k then h.handles k - 1 else h.handles x) + heldUpto h.objs x h.next + (k :: h.dropping).count x
      rw [count_cons']
      have := hi.count x
      rw [total] at this
      have he' : 0 < h.handles k := he
      by_cases hx : x = k
      · subst hx; simp only [if_true]; omega
      · have hx' : ¬ k = x := fun h => hx h.symm
        simp only [hx, hx', if_false]; omega
    · intro x; exact hi.live x
    · intro x hx; exact hi.bound x hx
    · intro y hy; exact hi.refsLive y hy
    · intro x; exact hi.max x
  | removeTable k =>
    have hk := hi.lt_next hpos
    have he' : (h.objs k).inTable = true := he
    constructor
    · intro x
      simp only [step, Heap.setObj, total, count_cons']
      rw [heldUpto_same h k x { h.objs k with inTable := false } hk rfl]
      have := hi.count x
      rw [total] at this
      by_cases hx : x = k
      · subst hx; simp only [if_true]; rw [he'] at this; simp at this ⊢; omega
      · have hx' : ¬ k = x := fun h => hx h.symm
        simp only [hx, hx', if_false]; omega
    · intro x
      simp only [step, Heap.setObj]
      by_cases hx : x = k
      · subst hx; simp; exact hi.live x
      · simp [hx]; exact hi.live x
    · intro x hx
      simp only [step, Heap.setObj] at hx ⊢
      by_cases hxk : x = k
      · subst hxk; simp; exact hi.bound x hx
      · simp [hxk]; exact hi.bound x hx
    · intro y hy
      simp only [step, Heap.setObj] at hy ⊢
      by_cases hx : y = k
      · subst hx; simp at hy ⊢; exact hi.refsLive y hy
      · simp [hx] at hy ⊢; exact hi.refsLive y hy
    · intro x
      simp only [step, Heap.setObj]
      by_cases hx : x = k
      · subst hx; simp; exact hi.max x
      · simp [hx]; exact hi.max x
  | link k j =>
    obtain ⟨hpk, hpj⟩ := hpos
    have hk := hi.lt_next hpk
    constructor
    · intro x
      have hh := heldUpto_set h.objs x k h.next { h.objs k with refs := j :: (h.objs k).refs } hk
      simp only [count_cons'] at hh
      simp only [step, Heap.setObj, Heap.setHandles, total]
      have := hi.count x
      rw [total] at this
      have h1 := he.1
      by_cases hxj : x = j
      · subst hxj
        simp only [if_true] at hh ⊢
        by_cases hx : x = k
        · subst hx; simp only [if_true]; omega
        · simp only [hx, if_false]; omega
      · have hxj' : ¬ j = x := fun h => hxj h.symm
        simp only [hxj, hxj', if_false] at hh ⊢
        by_cases hx : x = k
        · subst hx; simp only [if_true]; omega
        · simp only [hx, if_false]; omega
    · intro x
      simp only [step, Heap.setObj, Heap.setHandles]
      by_cases hx : x = k
      · subst hx; simp; exact hi.live x
      · simp [hx]; exact hi.live x
    · intro x hx
      simp only [step, Heap.setObj, Heap.setHandles] at hx ⊢
      by_cases hxk : x = k
      · subst hxk; simp; exact hi.bound x hx
      · simp [hxk]; exact hi.bound x hx
    · intro y hy
      simp only [step, Heap.setObj, Heap.setHandles] at hy ⊢
      by_cases hx : y = k
      · subst hx; simp at hy
        have := (hi.live y).2 hpk
        rw [hy] at this; cases this
      · simp [hx] at hy ⊢; exact hi.refsLive y hy
    · intro x
      simp only [step, Heap.setObj, Heap.setHandles]
      by_cases hx : x = k
      · subst hx; simp; exact hi.max x
      · simp [hx]; exact hi.max x
  | unlink k j =>
    obtain ⟨hpk, hpj⟩ := hpos
    have hk := hi.lt_next hpk
    have hm : j ∈ (h.objs k).refs := he
    constructor
    · intro x
      have hh := heldUpto_set h.objs x k h.next { h.objs k with refs := (h.objs k).refs.erase j } hk
      have he2 := count_erase' j x _ hm
      simp only [step, Heap.setObj, total, count_cons']
      have := hi.count x
      rw [total] at this
      simp only at hh
      by_cases hx : x = k
      · subst hx; simp only [if_true]; omega
      · simp only [hx, if_false]; omega
    · intro x
      simp only [step, Heap.setObj]
      by_cases hx : x = k
      · subst hx; simp; exact hi.live x
      · simp [hx]; exact hi.live x
    · intro x hx
      simp only [step, Heap.setObj] at hx ⊢
      by_cases hxk : x = k
      · subst hxk; simp; exact hi.bound x hx
      · simp [hxk]; exact hi.bound x hx
    · intro y hy
      simp only [step, Heap.setObj] at hy ⊢
      by_cases hx : y = k
      · subst hx; simp at hy ⊢
        have := (hi.live y).2 hpk
        rw [hy] at this; cases this
      · simp [hx] at hy ⊢; exact hi.refsLive y hy
    · intro x
      simp only [step, Heap.setObj]
      by_cases hx : x = k
      · subst hx; simp; exact hi.max x
      · simp [hx]; exact hi.max x
  | decrement k =>
    have hk := hi.lt_next hpos
    have hm : k ∈ h.dropping := he
    have hpos' : 0 < (h.objs k).rc := hpos
    simp only [step, decrement]
    rw [if_neg (by omega)]
    by_cases hz : (h.objs k).rc - 1 > 0
    · rw [if_pos hz]
      constructor
      · intro x
        simp only [Heap.setObj, total]
        rw [heldUpto_same h k x { h.objs k with rc := (h.objs k).rc - 1 } hk rfl]
        have he2 := count_erase' k x _ hm
        have := hi.count x
        rw [total] at this
        by_cases hx : x = k
        · subst hx; simp only [if_true] at he2 ⊢; omega
        · have hx' : ¬ k = x := fun h => hx h.symm
          simp only [hx, hx', if_false] at he2 ⊢; omega
      · intro x
        simp only [Heap.setObj]
        by_cases hx : x = k
        · subst hx; simp; rw [hi.live x]; omega
        · simp [hx]; exact hi.live x
      · intro x hx
        simp only [Heap.setObj] at hx ⊢
        have hxk : x ≠ k := by omega
        simp [hxk]; exact hi.bound x hx
      · intro y hy
        simp only [Heap.setObj] at hy ⊢
        by_cases hx : y = k
        · subst hx; simp at hy ⊢; exact hi.refsLive y hy
        · simp [hx] at hy ⊢; exact hi.refsLive y hy
      · intro x
        simp only [Heap.setObj]
        have := hi.max x
        by_cases hx : x = k
        · subst hx; simp; omega
        · simp [hx]; exact this
    · rw [if_neg hz]
      constructor
      · intro x
        have hh := heldUpto_set h.objs x k h.next { h.objs k with rc := 0, live := false, refs := [] } hk
        simp only [List.count_nil] at hh
        simp only [Heap.setObj, total, List.count_append]
        have he2 := count_erase' k x _ hm
        have := hi.count x
        rw [total] at this
        by_cases hx : x = k
        · subst hx; simp only [if_true] at he2 ⊢; omega
        · have hx' : ¬ k = x := fun h => hx h.symm
          simp only [hx, hx', if_false] at he2 ⊢; omega
      · intro x
        simp only [Heap.setObj]
        by_cases hx : x = k
        · subst hx; simp
        · simp [hx]; exact hi.live x
      · intro x hx
        simp only [Heap.setObj] at hx ⊢
        have hxk : x ≠ k := by omega
        simp [hxk]; exact hi.bound x hx
      · intro y hy
        simp only [Heap.setObj] at hy ⊢
        by_cases hx : y = k
        · subst hx; simp
        · simp [hx] at hy ⊢; exact hi.refsLive y hy
      · intro x
        simp only [Heap.setObj]
        have := hi.max x
        by_cases hx : x = k
        · subst hx; simp
        · simp [hx]; exact this

theorem reach_inv {h : Heap} (hr : Reach h) : Inv h := by
  induction hr with
  | init => exact inv_init
  | step h a _ he ih => exact step_inv ih a he

end WS.RC
