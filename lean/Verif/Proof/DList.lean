import Verif.Spec.DList
namespace WS.DList

theorem getElem?_inj {xs : List Nat} (hn : xs.Nodup) {i j x : Nat} (hi : xs[i]? = some x) (hj : xs[j]? = some x) :
    i = j := by
  obtain ⟨h1, h2⟩ := List.getElem?_eq_some_iff.1 hi
  obtain ⟨h3, h4⟩ := List.getElem?_eq_some_iff.1 hj
  exact (List.getElem_inj hn).1 (h2.trans h4.symm)

/-- Insertion between `as` and `bs`. -/
theorem insert_rep {s s' : State} {as bs : List Nat} {e : Nat} (h : IsList s (as ++ bs))
    (he : e ∉ as ++ bs)
    (hn : ∀ y, (s'.cell y).next = if y = e then bs[0]? else if as[as.length - 1]? = some y then some e else (s.cell y).next)
    (hp : ∀ y, (s'.cell y).prev = if y = e then as[as.length - 1]? else if bs[0]? = some y then some e else (s.cell y).prev)
    (hh : s'.head = if as = [] then some e else s.head)
    (ht : s'.tail = if bs = [] then some e else s.tail)
    (hl : s'.len = s.len + 1) : IsList s' (as ++ e :: bs) ∧ Frame s s' (as ++ bs) e := by
  simp only [List.mem_append, not_or] at he
  have hne : ∀ {i x : Nat}, (as ++ bs)[i]? = some x → x ≠ e := by
    rintro i x hx rfl
    have := List.mem_of_getElem? hx
    simp [he] at this
  have hnd := h.nodup
  refine ⟨?_, ?_⟩
  · constructor
    · rw [List.nodup_append] at hnd ⊢
      refine ⟨hnd.1, List.nodup_cons.2 ⟨he.2, hnd.2.1⟩, ?_⟩
      intro a ha b hb
      rcases List.mem_cons.1 hb with rfl | hb
      · rintro rfl; exact he.1 ha
      · exact hnd.2.2 a ha b hb
    · rw [hh, h.head]
      cases as <;> simp
    · rw [ht, h.tail]
      cases bs with
      | nil => simp
      | cons b bs =>
        simp only [reduceCtorEq, if_false, List.length_append, List.length_cons]
        rw [List.getElem?_append_right (by omega), List.getElem?_append_right (by omega)]
        rw [show as.length + (bs.length + 1 + 1) - 1 - as.length = bs.length + 1 by omega,
          show as.length + (bs.length + 1) - 1 - as.length = bs.length by omega]
        simp
    · rw [hl, h.len]; simp; omega
    · intro i x hx
      rw [hn]
      rcases Nat.lt_trichotomy i as.length with hi | hi | hi
      · rw [List.getElem?_append_left hi] at hx
        have hx' : (as ++ bs)[i]? = some x := by rw [List.getElem?_append_left hi]; exact hx
        rw [if_neg (hne hx')]
        by_cases hl : i = as.length - 1
        · rw [if_pos (by rw [← hl]; exact hx), List.getElem?_append_right (by omega)]
          simp [show i + 1 - as.length = 0 by omega]
        · have : ¬ as[as.length - 1]? = some x := by
            intro hc
            have hc' : (as ++ bs)[as.length - 1]? = some x := by
              rw [List.getElem?_append_left (by omega)]; exact hc
            exact hl (getElem?_inj hnd hx' hc')
          rw [if_neg this, h.next i x hx', List.getElem?_append_left (by omega), List.getElem?_append_left (by omega)]
      · subst hi
        rw [List.getElem?_append_right (by omega)] at hx
        simp at hx
        subst hx
        rw [if_pos rfl, List.getElem?_append_right (by omega)]
        simp [show as.length + 1 - as.length = 1 by omega]
      · rw [List.getElem?_append_right (by omega)] at hx
        obtain ⟨j, hj⟩ : ∃ j, i - as.length = j + 1 := ⟨i - as.length - 1, by omega⟩
        rw [hj, List.getElem?_cons_succ] at hx
        have hx' : (as ++ bs)[i - 1]? = some x := by
          rw [List.getElem?_append_right (by omega)]
          rw [show i - 1 - as.length = j by omega]; exact hx
        rw [if_neg (hne hx')]
        have : ¬ as[as.length - 1]? = some x := by
          intro hc
          have hlen : as.length - 1 < as.length := (List.getElem?_eq_some_iff.1 hc).1
          have hc' : (as ++ bs)[as.length - 1]? = some x := by
            rw [List.getElem?_append_left hlen]; exact hc
          have := getElem?_inj hnd hx' hc'
          omega
        rw [if_neg this, h.next _ x hx', List.getElem?_append_right (by omega), List.getElem?_append_right (by omega)]
        rw [show i + 1 - as.length = (i - 1 + 1 - as.length) + 1 by omega, List.getElem?_cons_succ]
    · intro i x hx
      rw [hp]
      rcases Nat.lt_trichotomy i as.length with hi | hi | hi
      · rw [List.getElem?_append_left hi] at hx
        have hx' : (as ++ bs)[i]? = some x := by rw [List.getElem?_append_left hi]; exact hx
        rw [if_neg (hne hx')]
        have : ¬ bs[0]? = some x := by
          intro hc
          have hc' : (as ++ bs)[as.length]? = some x := by
            rw [List.getElem?_append_right (by omega), Nat.sub_self]; exact hc
          have := getElem?_inj hnd hx' hc'
          omega
        rw [if_neg this, h.prev i x hx']
        by_cases h0 : i = 0
        · simp [h0]
        · rw [if_neg h0, if_neg h0, List.getElem?_append_left (by omega), List.getElem?_append_left (by omega)]
      · subst hi
        rw [List.getElem?_append_right (by omega)] at hx
        simp at hx
        subst hx
        rw [if_pos rfl]
        by_cases h0 : as.length = 0
        · rw [if_pos h0]
          have := List.length_eq_zero_iff.1 h0
          simp [this]
        · rw [if_neg h0, List.getElem?_append_left (by omega)]
      · rw [List.getElem?_append_right (by omega)] at hx
        obtain ⟨j, hj⟩ : ∃ j, i - as.length = j + 1 := ⟨i - as.length - 1, by omega⟩
        rw [hj, List.getElem?_cons_succ] at hx
        have hx' : (as ++ bs)[i - 1]? = some x := by
          rw [List.getElem?_append_right (by omega)]
          rw [show i - 1 - as.length = j by omega]; exact hx
        rw [if_neg (hne hx'), if_neg (show ¬ i = 0 by omega)]
        by_cases hj0 : j = 0
        · subst hj0
          rw [if_pos hx, List.getElem?_append_right (by omega)]
          simp [show i - 1 - as.length = 0 by omega]
        · have : ¬ bs[0]? = some x := by
            intro hc
            have hc' : (as ++ bs)[as.length]? = some x := by
              rw [List.getElem?_append_right (by omega), Nat.sub_self]; exact hc
            have := getElem?_inj hnd hx' hc'
            omega
          rw [if_neg this, h.prev _ x hx', if_neg (show ¬ i - 1 = 0 by omega), List.getElem?_append_right (by omega),
            List.getElem?_append_right (by omega)]
          rw [show i - 1 - as.length = (i - 1 - 1 - as.length) + 1 by omega, List.getElem?_cons_succ]
  · intro y hy hye
    simp only [List.mem_append, not_or] at hy
    have h1 : ¬ as[as.length - 1]? = some y := fun hc => hy.1 (List.mem_of_getElem? hc)
    have h2 : ¬ bs[0]? = some y := fun hc => hy.2 (List.mem_of_getElem? hc)
    have e1 := hn y
    have e2 := hp y
    rw [if_neg hye, if_neg h1] at e1
    rw [if_neg hye, if_neg h2] at e2
    cases h3 : s'.cell y
    cases h4 : s.cell y
    rw [h3, h4] at e1 e2
    simp_all

/-- Deletion of `e` between `as` and `bs`.  Nothing is assumed of the removed cell's own links. -/
theorem delete_rep {s s' : State} {as bs : List Nat} {e : Nat} (h : IsList s (as ++ e :: bs))
    (hn : ∀ y, y ≠ e → (s'.cell y).next = if as[as.length - 1]? = some y then bs[0]? else (s.cell y).next)
    (hp : ∀ y, y ≠ e → (s'.cell y).prev = if bs[0]? = some y then as[as.length - 1]? else (s.cell y).prev)
    (hh : s'.head = if as = [] then bs[0]? else s.head)
    (ht : s'.tail = if bs = [] then as[as.length - 1]? else s.tail)
    (hl : s'.len = s.len - 1) : IsList s' (as ++ bs) ∧ Frame s s' (as ++ bs) e := by
  have hnd := h.nodup
  have hnd' := hnd
  rw [List.nodup_append, List.nodup_cons] at hnd'
  have heA : e ∉ as := fun hc => hnd'.2.2 e hc e List.mem_cons_self rfl
  have heB : e ∉ bs := hnd'.2.1.1
  have hne : ∀ {i x : Nat}, (as ++ bs)[i]? = some x → x ≠ e := by
    rintro i x hx rfl
    have := List.mem_of_getElem? hx
    simp [heA, heB] at this
  -- index in the old list
  have old : ∀ {i x : Nat}, (as ++ bs)[i]? = some x →
      (as ++ e :: bs)[if i < as.length then i else i + 1]? = some x := by
    intro i x hx
    by_cases hi : i < as.length
    · rw [if_pos hi, List.getElem?_append_left hi]
      rw [List.getElem?_append_left hi] at hx; exact hx
    · rw [if_neg hi, List.getElem?_append_right (by omega)]
      rw [List.getElem?_append_right (by omega)] at hx
      rw [show i + 1 - as.length = (i - as.length) + 1 by omega, List.getElem?_cons_succ]; exact hx
  refine ⟨?_, ?_⟩
  · constructor
    · rw [List.nodup_append]
      refine ⟨hnd'.1, hnd'.2.1.2, fun a ha b hb => hnd'.2.2 a ha b (List.mem_cons_of_mem _ hb)⟩
    · rw [hh, h.head]
      cases as <;> simp
    · rw [ht, h.tail]
      cases bs with
      | nil => simp
      | cons b bs =>
        simp only [reduceCtorEq, if_false, List.length_append, List.length_cons]
        rw [List.getElem?_append_right (by omega), List.getElem?_append_right (by omega)]
        rw [show as.length + (bs.length + 1 + 1) - 1 - as.length = bs.length + 1 by omega,
          show as.length + (bs.length + 1) - 1 - as.length = bs.length by omega]
        simp
    · rw [hl, h.len]; simp
    · intro i x hx
      rw [hn x (hne hx)]
      have hx' := old hx
      by_cases hi : i < as.length
      · rw [if_pos hi] at hx'
        have hxa : as[i]? = some x := by rwa [List.getElem?_append_left hi] at hx
        by_cases hl : i = as.length - 1
        · rw [if_pos (by rw [← hl]; exact hxa), List.getElem?_append_right (by omega)]
          simp [show i + 1 - as.length = 0 by omega]
        · have : ¬ as[as.length - 1]? = some x := by
            intro hc
            have hc' : (as ++ e :: bs)[as.length - 1]? = some x := by
              rw [List.getElem?_append_left (by omega)]; exact hc
            exact hl (getElem?_inj hnd hx' hc')
          rw [if_neg this, h.next i x hx', List.getElem?_append_left (by omega), List.getElem?_append_left (by omega)]
      · rw [if_neg hi] at hx'
        have : ¬ as[as.length - 1]? = some x := by
          intro hc
          have hlen : as.length - 1 < as.length := (List.getElem?_eq_some_iff.1 hc).1
          have hc' : (as ++ e :: bs)[as.length - 1]? = some x := by
            rw [List.getElem?_append_left hlen]; exact hc
          have := getElem?_inj hnd hx' hc'
          omega
        rw [if_neg this, h.next _ x hx', List.getElem?_append_right (by omega), List.getElem?_append_right (by omega)]
        rw [show i + 1 + 1 - as.length = (i + 1 - as.length) + 1 by omega, List.getElem?_cons_succ]
    · intro i x hx
      rw [hp x (hne hx)]
      have hx' := old hx
      by_cases hi : i < as.length
      · rw [if_pos hi] at hx'
        have : ¬ bs[0]? = some x := by
          intro hc
          have hc' : (as ++ e :: bs)[as.length + 1]? = some x := by
            rw [List.getElem?_append_right (by omega), show as.length + 1 - as.length = 0 + 1 by omega,
              List.getElem?_cons_succ]; exact hc
          have := getElem?_inj hnd hx' hc'
          omega
        rw [if_neg this, h.prev i x hx']
        by_cases h0 : i = 0
        · simp [h0]
        · rw [if_neg h0, if_neg h0, List.getElem?_append_left (by omega), List.getElem?_append_left (by omega)]
      · rw [if_neg hi] at hx'
        by_cases hj0 : i = as.length
        · have hb : bs[0]? = some x := by
            rw [List.getElem?_append_right (by omega), hj0, Nat.sub_self] at hx; exact hx
          rw [if_pos hb]
          by_cases h0 : i = 0
          · have : as.length = 0 := by omega
            have := List.length_eq_zero_iff.1 this
            simp [h0, this]
          · rw [if_neg h0, List.getElem?_append_left (by omega), hj0]
        · have : ¬ bs[0]? = some x := by
            intro hc
            have hc' : (as ++ e :: bs)[as.length + 1]? = some x := by
              rw [List.getElem?_append_right (by omega), show as.length + 1 - as.length = 0 + 1 by omega,
                List.getElem?_cons_succ]; exact hc
            have := getElem?_inj hnd hx' hc'
            omega
          rw [if_neg this, h.prev _ x hx', if_neg (show ¬ i + 1 = 0 by omega), if_neg (show ¬ i = 0 by omega),
            List.getElem?_append_right (by omega), List.getElem?_append_right (by omega)]
          rw [show i + 1 - 1 - as.length = (i - 1 - as.length) + 1 by omega, List.getElem?_cons_succ]
  · intro y hy hye
    simp only [List.mem_append, not_or] at hy
    have h1 : ¬ as[as.length - 1]? = some y := fun hc => hy.1 (List.mem_of_getElem? hc)
    have h2 : ¬ bs[0]? = some y := fun hc => hy.2 (List.mem_of_getElem? hc)
    have e1 := hn y hye
    have e2 := hp y hye
    rw [if_neg h1] at e1
    rw [if_neg h2] at e2
    cases h3 : s'.cell y
    cases h4 : s.cell y
    rw [h3, h4] at e1 e2
    simp_all


@[simp] theorem setNext_next (s : State) (x y : Nat) (v : Option Nat) :
    ((s.setNext x v).cell y).next = if y = x then v else (s.cell y).next := by
  simp only [State.setNext]; split <;> rfl
@[simp] theorem setNext_prev (s : State) (x y : Nat) (v : Option Nat) :
    ((s.setNext x v).cell y).prev = (s.cell y).prev := by
  simp only [State.setNext]; split <;> rfl
@[simp] theorem setPrev_prev (s : State) (x y : Nat) (v : Option Nat) :
    ((s.setPrev x v).cell y).prev = if y = x then v else (s.cell y).prev := by
  simp only [State.setPrev]; split <;> rfl
@[simp] theorem setPrev_next (s : State) (x y : Nat) (v : Option Nat) :
    ((s.setPrev x v).cell y).next = (s.cell y).next := by
  simp only [State.setPrev]; split <;> rfl
@[simp] theorem setNext_head (s : State) (x : Nat) (v : Option Nat) : (s.setNext x v).head = s.head := rfl
@[simp] theorem setNext_tail (s : State) (x : Nat) (v : Option Nat) : (s.setNext x v).tail = s.tail := rfl
@[simp] theorem setNext_len (s : State) (x : Nat) (v : Option Nat) : (s.setNext x v).len = s.len := rfl
@[simp] theorem setPrev_head (s : State) (x : Nat) (v : Option Nat) : (s.setPrev x v).head = s.head := rfl
@[simp] theorem setPrev_tail (s : State) (x : Nat) (v : Option Nat) : (s.setPrev x v).tail = s.tail := rfl
@[simp] theorem setPrev_len (s : State) (x : Nat) (v : Option Nat) : (s.setPrev x v).len = s.len := rfl

theorem prepend_rep {s : State} {xs : List Nat} {e : Nat} (h : IsList s xs) (he : e ∉ xs) :
    IsList (prepend s e) (e :: xs) ∧ Frame s (prepend s e) xs e := by
  have h' : IsList s ([] ++ xs) := h
  have hh := h.head
  have : ∀ s', s' = prepend s e → IsList s' ([] ++ e :: xs) ∧ Frame s s' ([] ++ xs) e := by
    rintro s' rfl
    have hd : ∀ x, xs[0]? = some x → x ≠ e := by
      rintro x hx rfl; exact he (List.mem_of_getElem? hx)
    apply insert_rep h' he
    · intro y
      unfold prepend
      simp only [setPrev_head]
      cases hc : s.head with
      | none => rw [hc] at hh; rw [← hh]; simp
      | some a => rw [hc] at hh; rw [← hh]; simp
    · intro y
      unfold prepend
      simp only [setPrev_head]
      cases hc : s.head with
      | none => rw [hc] at hh; rw [← hh]; simp
      | some a =>
        rw [hc] at hh
        have := hd a hh.symm
        simp [← hh]
        by_cases h1 : y = a
        · subst h1; simp [this]
        · simp [h1, Ne.symm h1]
    · unfold prepend; simp only [setPrev_head]; cases s.head <;> simp
    · unfold prepend
      simp only [setPrev_head]
      cases hc : s.head with
      | none => rw [hc] at hh; cases xs <;> simp at hh ⊢
      | some a => rw [hc] at hh; cases xs <;> simp_all
    · unfold prepend; simp only [setPrev_head]; cases s.head <;> simp
  exact this _ rfl

theorem append_rep {s : State} {xs : List Nat} {e : Nat} (h : IsList s xs) (he : e ∉ xs) :
    IsList (append s e) (xs ++ [e]) ∧ Frame s (append s e) xs e := by
  have h' : IsList s (xs ++ []) := by rw [List.append_nil]; exact h
  have ht := h.tail
  have : ∀ s', s' = append s e → IsList s' (xs ++ e :: []) ∧ Frame s s' (xs ++ []) e := by
    rintro s' rfl
    have hd : ∀ x, xs[xs.length - 1]? = some x → x ≠ e := by
      rintro x hx rfl; exact he (List.mem_of_getElem? hx)
    have hnil : s.tail = none ↔ xs = [] := by
      rw [ht]
      cases xs <;> simp
    apply insert_rep h' (by simpa using he)
    · intro y
      unfold append
      simp only [setNext_tail]
      cases hc : s.tail with
      | none => rw [hc] at ht; simp [← ht]
      | some a =>
        rw [hc] at ht
        have := hd a ht.symm
        simp [← ht]
        by_cases h1 : y = a
        · subst h1; simp [this]
        · simp [h1, Ne.symm h1]
    · intro y
      unfold append
      simp only [setNext_tail]
      cases hc : s.tail with
      | none => rw [hc] at ht; simp [← ht]
      | some a => rw [hc] at ht; simp [← ht]
    · unfold append
      simp only [setNext_tail]
      cases hc : s.tail with
      | none => simp [hnil.1 hc]
      | some a =>
        have : xs ≠ [] := fun hx => by rw [hnil.2 hx] at hc; cases hc
        simp [this]
    · unfold append; simp only [setNext_tail]; cases s.tail <;> simp
    · unfold append; simp only [setNext_tail]; cases s.tail <;> simp
  have := this _ rfl
  simpa using this

/-- Insertion before an interior cell, or before the head when the new cell's `prev` is already
NULL. -/
theorem insertBefore_rep {s : State} {as bs : List Nat} {p e : Nat} (h : IsList s (as ++ p :: bs))
    (he : e ∉ as ++ p :: bs) (hstale : as = [] → (s.cell e).prev = none) :
    IsList (insertBefore s (some p) e) (as ++ e :: p :: bs) ∧
      Frame s (insertBefore s (some p) e) (as ++ p :: bs) e := by
  have hpe : p ≠ e := by rintro rfl; simp at he
  have hae : ∀ x, as[as.length - 1]? = some x → x ≠ e := by
    rintro x hx rfl; exact he (List.mem_append_left _ (List.mem_of_getElem? hx))
  have hap : ∀ x, as[as.length - 1]? = some x → x ≠ p := by
    rintro x hx rfl
    have := h.nodup
    rw [List.nodup_append] at this
    exact this.2.2 x (List.mem_of_getElem? hx) x List.mem_cons_self rfl
  have hpp : (s.cell p).prev = as[as.length - 1]? := by
    have := h.prev as.length p (by rw [List.getElem?_append_right (by omega)]; simp)
    rw [this]
    by_cases h0 : as.length = 0
    · rw [if_pos h0, List.length_eq_zero_iff.1 h0]; simp
    · rw [if_neg h0, List.getElem?_append_left (by omega)]
  have hnil : as[as.length - 1]? = none ↔ as = [] := by cases as <;> simp
  apply insert_rep h he
  · intro y
    unfold insertBefore
    simp only [setNext_prev, hpp]
    cases hc : as[as.length - 1]? with
    | none => simp
    | some a =>
      have := hae a hc
      simp
      by_cases h1 : y = a
      · subst h1; simp [this]
      · simp [h1, Ne.symm h1]
  · intro y
    unfold insertBefore
    simp only [setNext_prev, hpp]
    cases hc : as[as.length - 1]? with
    | none =>
      have := hstale (hnil.1 hc)
      simp
      by_cases h1 : y = p
      · subst h1; simp [hpe]
      · by_cases h2 : y = e
        · subst h2; simp [h1, this]
        · simp [h1, h2, Ne.symm h1]
    | some a =>
      simp
      by_cases h1 : y = p
      · subst h1; simp [hpe]
      · by_cases h2 : y = e
        · subst h2; simp [h1]
        · simp [h1, h2, Ne.symm h1]
  · unfold insertBefore
    simp only [setNext_prev, hpp]
    cases hc : as[as.length - 1]? with
    | none => simp [hnil.1 hc]
    | some a =>
      have : as ≠ [] := fun hx => by rw [hnil.2 hx] at hc; cases hc
      simp [this]
  · unfold insertBefore
    simp only [setNext_prev, hpp]
    cases hc : as[as.length - 1]? <;> simp
  · unfold insertBefore
    simp only [setNext_prev, hpp]
    cases hc : as[as.length - 1]? <;> simp

/-- Insertion after an interior cell, or after the tail when the new cell's `next` is already
NULL. -/
theorem insertAfter_rep {s : State} {as bs : List Nat} {p e : Nat} (h : IsList s (as ++ p :: bs))
    (he : e ∉ as ++ p :: bs) (hstale : bs = [] → (s.cell e).next = none) :
    IsList (insertAfter s (some p) e) (as ++ p :: e :: bs) ∧
      Frame s (insertAfter s (some p) e) (as ++ p :: bs) e := by
  have hpe : p ≠ e := by rintro rfl; simp at he
  have hbe : ∀ x, bs[0]? = some x → x ≠ e := by
    rintro x hx rfl; exact he (List.mem_append_right _ (List.mem_cons_of_mem _ (List.mem_of_getElem? hx)))
  have hpn : (s.cell p).next = bs[0]? := by
    have := h.next as.length p (by rw [List.getElem?_append_right (by omega)]; simp)
    rw [this, List.getElem?_append_right (by omega), show as.length + 1 - as.length = 0 + 1 by omega,
      List.getElem?_cons_succ]
  have hnil : bs[0]? = none ↔ bs = [] := by cases bs <;> simp
  have h' : IsList s ((as ++ [p]) ++ bs) := by rw [List.append_assoc]; exact h
  have hlast : (as ++ [p])[(as ++ [p]).length - 1]? = some p := by simp
  have key : IsList (insertAfter s (some p) e) ((as ++ [p]) ++ e :: bs) ∧
      Frame s (insertAfter s (some p) e) ((as ++ [p]) ++ bs) e := by
    apply insert_rep h' (by rw [List.append_assoc]; exact he)
    · intro y
      unfold insertAfter
      simp only [setPrev_next, hpn, hlast]
      cases hc : bs[0]? with
      | none =>
        have := hstale (hnil.1 hc)
        simp
        by_cases h1 : y = p
        · subst h1; simp [hpe]
        · by_cases h2 : y = e
          · subst h2; simp [h1, this]
          · simp [h1, h2, Ne.symm h1]
      | some a =>
        simp
        by_cases h1 : y = p
        · subst h1; simp [hpe]
        · by_cases h2 : y = e
          · subst h2; simp [h1]
          · simp [h1, h2, Ne.symm h1]
    · intro y
      unfold insertAfter
      simp only [setPrev_next, hpn, hlast]
      cases hc : bs[0]? with
      | none => simp
      | some a =>
        have := hbe a hc
        simp
        by_cases h1 : y = a
        · subst h1; simp [this]
        · simp [h1, Ne.symm h1]
    · unfold insertAfter
      simp only [setPrev_next, hpn]
      cases hc : bs[0]? <;> simp
    · unfold insertAfter
      simp only [setPrev_next, hpn]
      cases hc : bs[0]? with
      | none => simp [hnil.1 hc]
      | some a =>
        have : bs ≠ [] := fun hx => by rw [hnil.2 hx] at hc; cases hc
        simp [this]
    · unfold insertAfter
      simp only [setPrev_next, hpn]
      cases hc : bs[0]? <;> simp
  simpa [List.append_assoc] using key

theorem link_facts {s : State} {as bs : List Nat} {e : Nat} (h : IsList s (as ++ e :: bs)) :
    (s.cell e).prev = as[as.length - 1]? ∧ (s.cell e).next = bs[0]? ∧
    (s.head = some e ↔ as = []) ∧ (s.tail = some e ↔ bs = []) ∧
    (∀ x, as[as.length - 1]? = some x → x ≠ e) ∧ (∀ x, bs[0]? = some x → x ≠ e) ∧
    (as[as.length - 1]? = none ↔ as = []) ∧ (bs[0]? = none ↔ bs = []) := by
  have hnd := h.nodup
  have hnd' := hnd
  rw [List.nodup_append, List.nodup_cons] at hnd'
  have heA : e ∉ as := fun hc => hnd'.2.2 e hc e List.mem_cons_self rfl
  have heB : e ∉ bs := hnd'.2.1.1
  have hidx : (as ++ e :: bs)[as.length]? = some e := by rw [List.getElem?_append_right (by omega)]; simp
  refine ⟨?_, ?_, ?_, ?_, ?_, ?_, ?_, ?_⟩
  · rw [h.prev as.length e hidx]
    by_cases h0 : as.length = 0
    · rw [if_pos h0, List.length_eq_zero_iff.1 h0]; simp
    · rw [if_neg h0, List.getElem?_append_left (by omega)]
  · rw [h.next as.length e hidx, List.getElem?_append_right (by omega),
      show as.length + 1 - as.length = 0 + 1 by omega, List.getElem?_cons_succ]
  · rw [h.head]
    constructor
    · intro hc
      have := getElem?_inj hnd hc hidx
      exact List.length_eq_zero_iff.1 this.symm
    · rintro rfl; simp
  · rw [h.tail]
    constructor
    · intro hc
      have := getElem?_inj hnd hc hidx
      rw [List.length_append, List.length_cons] at this
      exact List.length_eq_zero_iff.1 (by omega)
    · rintro rfl; simp
  · rintro x hx rfl; exact heA (List.mem_of_getElem? hx)
  · rintro x hx rfl; exact heB (List.mem_of_getElem? hx)
  · cases as <;> simp
  · cases bs <;> simp

theorem delete_rep_ll {s : State} {as bs : List Nat} {e : Nat} (h : IsList s (as ++ e :: bs)) :
    ∃ s', delete s e = some s' ∧ IsList s' (as ++ bs) ∧ Frame s s' (as ++ bs) e := by
  obtain ⟨f1, f2, f3, f4, f5, f6, f7, f8⟩ := link_facts h
  unfold delete
  by_cases ha : as = []
  · have hh := f3.2 ha
    rw [if_pos hh]
    simp only [f2]
    subst ha
    cases hb : bs[0]? with
    | none =>
      have hb' := f8.1 hb
      subst hb'
      refine ⟨_, rfl, ?_⟩
      apply delete_rep h <;> simp
    | some b =>
      have hb' : bs ≠ [] := fun hx => by rw [f8.2 hx] at hb; cases hb
      refine ⟨_, rfl, ?_⟩
      apply delete_rep h
      · intro y _; simp
      · intro y hy
        simp [hb]
        by_cases h1 : y = b
        · simp [h1]
        · simp [h1, Ne.symm h1]
      · simp [hb]
      · simp [hb']
      · simp
  · have hh : ¬ s.head = some e := fun hc => ha (f3.1 hc)
    rw [if_neg hh]
    obtain ⟨a, hla⟩ : ∃ a, as[as.length - 1]? = some a := by
      cases hc : as[as.length - 1]? with
      | none => exact absurd (f7.1 hc) ha
      | some a => exact ⟨a, rfl⟩
    by_cases hb : bs = []
    · have ht := f4.2 hb
      rw [if_pos ht]
      subst hb
      simp only [f1, hla, State.setNext?, Option.map_some]
      refine ⟨_, rfl, ?_⟩
      apply delete_rep h
      · intro y _
        simp [hla]
        by_cases h1 : y = a
        · simp [h1]
        · simp [h1, Ne.symm h1]
      · intro y _; simp
      · simp [ha]
      · simp [hla]
      · simp
    · have ht : ¬ s.tail = some e := fun hc => hb (f4.1 hc)
      rw [if_neg ht]
      obtain ⟨b, hlb⟩ : ∃ b, bs[0]? = some b := by
        cases hc : bs[0]? with
        | none => exact absurd (f8.1 hc) hb
        | some b => exact ⟨b, rfl⟩
      have hbe := f6 b hlb
      simp only [f1, f2, hla, hlb, State.setNext?, State.setPrev?, Option.map_some, Option.bind_some,
        setPrev_prev, setPrev_next, Ne.symm hbe, if_false]
      refine ⟨_, rfl, ?_⟩
      apply delete_rep h
      · intro y _
        simp [hla, hlb]
        by_cases h1 : y = a
        · simp [h1]
        · simp [h1, Ne.symm h1]
      · intro y _
        simp [hla, hlb]
        by_cases h1 : y = b
        · simp [h1]
        · simp [h1, Ne.symm h1]
      · simp [ha]
      · simp [hb]
      · simp

theorem tableSplice_rep {s : State} {as bs : List Nat} {e : Nat} (h : IsList s (as ++ bs)) (he : e ∉ as ++ bs) :
    IsList (tableSplice s bs[0]? e) (as ++ e :: bs) ∧ Frame s (tableSplice s bs[0]? e) (as ++ bs) e := by
  have hea : ∀ x, as[as.length - 1]? = some x → x ≠ e := by
    rintro x hx rfl; exact he (List.mem_append_left _ (List.mem_of_getElem? hx))
  cases bs with
  | nil =>
    have ht := h.tail
    rw [List.append_nil] at ht
    have hnil : as[as.length - 1]? = none ↔ as = [] := by cases as <;> simp
    simp only [List.getElem?_nil, tableSplice]
    cases hc : s.tail with
    | none =>
      rw [hc] at ht
      have := hnil.1 ht.symm
      subst this
      apply insert_rep h he <;> simp
    | some t =>
      rw [hc] at ht
      have hte := hea t ht.symm
      have hne : as ≠ [] := fun hx => by rw [hnil.2 hx] at ht; cases ht
      apply insert_rep h he
      · intro y
        simp [← ht]
        by_cases h1 : y = t
        · subst h1; simp [hte]
        · simp [h1, Ne.symm h1]
      · intro y; simp [← ht]
      · simp [hne]
      · simp
      · simp
  | cons p bs =>
    have hpe : p ≠ e := by rintro rfl; simp at he
    obtain ⟨f1, f2, f3, f4, f5, f6, f7, f8⟩ := link_facts h
    simp only [List.getElem?_cons_zero, tableSplice, setNext_prev, setPrev_prev, hpe, if_false, f1]
    cases hc : as[as.length - 1]? with
    | none =>
      have := f7.1 hc
      subst this
      apply insert_rep h he
      · intro y; simp
      · intro y; simp
        by_cases h1 : y = p
        · subst h1; simp [hpe]
        · simp [h1, Ne.symm h1]
      · simp
      · simp
      · simp
    | some a =>
      have hae := hea a hc
      have hne : as ≠ [] := fun hx => by rw [f7.2 hx] at hc; cases hc
      apply insert_rep h he
      · intro y
        simp [hc]
        by_cases h1 : y = a
        · subst h1; simp [hae]
        · simp [h1, Ne.symm h1]
      · intro y
        simp [hc]
        by_cases h1 : y = p
        · subst h1; simp [hpe]
        · simp [h1, Ne.symm h1]
      · simp [hne]
      · simp
      · simp

theorem tableUnlink_rep {s : State} {as bs : List Nat} {e : Nat} (h : IsList s (as ++ e :: bs)) :
    IsList (tableUnlink s e) (as ++ bs) ∧ Frame s (tableUnlink s e) (as ++ bs) e ∧
      (tableUnlink s e).cell e = {} := by
  obtain ⟨f1, f2, f3, f4, f5, f6, f7, f8⟩ := link_facts h
  have hfin : (tableUnlink s e).cell e = {} := by
    unfold tableUnlink
    simp [State.setNext, State.setPrev]
  refine (fun (p : _ ∧ _) => ⟨p.1, p.2, hfin⟩) ?_
  clear hfin
  unfold tableUnlink
  simp only [f1]
  cases ha : as[as.length - 1]? with
  | none =>
    have ha' := f7.1 ha
    subst ha'
    simp only [f1, f2]
    cases hb : bs[0]? with
    | none =>
      have hb' := f8.1 hb
      subst hb'
      apply delete_rep h <;> simp
      · intro y hy; simp [hy]
      · intro y hy; simp [hy]
    | some b =>
      have hb' : bs ≠ [] := fun hx => by rw [f8.2 hx] at hb; cases hb
      apply delete_rep h
      · intro y hy; simp [hy]
      · intro y hy
        simp [hb, hy]
        by_cases h1 : y = b
        · simp [h1]
        · simp [h1, Ne.symm h1]
      · simp [hb]
      · simp [hb']
      · simp
  | some a =>
    have ha' : as ≠ [] := fun hx => by rw [f7.2 hx] at ha; cases ha
    have hae := f5 a ha
    simp only [setNext_next, setNext_prev, f1, f2, Ne.symm hae, if_false]
    cases hb : bs[0]? with
    | none =>
      have hb' := f8.1 hb
      subst hb'
      apply delete_rep h
      · intro y hy
        simp [ha, hy]
        by_cases h1 : y = a
        · simp [h1]
        · simp [h1, Ne.symm h1]
      · intro y hy; simp [hy]
      · simp [ha']
      · simp
      · simp
    | some b =>
      have hb' : bs ≠ [] := fun hx => by rw [f8.2 hx] at hb; cases hb
      apply delete_rep h
      · intro y hy
        simp [ha, hb, hy]
        by_cases h1 : y = a
        · simp [h1]
        · simp [h1, Ne.symm h1]
      · intro y hy
        simp [ha, hb, hy]
        by_cases h1 : y = b
        · simp [h1]
        · simp [h1, Ne.symm h1]
      · simp [ha']
      · simp [hb']
      · simp

theorem walk_list {s : State} {xs : List Nat} (h : IsList s xs) (i n : Nat) (hn : xs.length - i ≤ n) :
    walk s n xs[i]? = xs.drop i := by
  induction n generalizing i with
  | zero =>
    rw [List.drop_eq_nil_of_le (by omega)]
    cases xs[i]? <;> rfl
  | succ n ih =>
    cases hx : xs[i]? with
    | none =>
      rw [List.drop_eq_nil_of_le (by simpa using hx)]; rfl
    | some x =>
      rw [walk, h.next i x hx, ih (i + 1) (by omega)]
      obtain ⟨h1, h2⟩ := List.getElem?_eq_some_iff.1 hx
      rw [List.drop_eq_getElem_cons h1, h2]

end WS.DList
