import Verif.Spec.Thread
/-
The invariant of the fallback thread identities.
-/
namespace WS.Thread
open WS WS.Spec.Thread

/-- Distance of an identity below 0. -/
def below (id : Id) : Nat := (-id).toNat

structure IdInv (s : Ids) : Prop where
  low : below s.counter < 0xffffff
  fb : ∀ k id, inUse (s.slots k) = some id → hosted (s.slots k) = false → 1 ≤ below id ∧ below id ≤ below s.counter
  host : ∀ k id, inUse (s.slots k) = some id → hosted (s.slots k) = true → id ≠ 0#64 ∧ id.toNat < 2 ^ 64 - 2 ^ 24
  dist : ∀ k j id, inUse (s.slots k) = some id → inUse (s.slots j) = some id → k = j
  nb : ∀ k id, s.slots k ≠ .bumping id

theorem setSlot_eq (s : Ids) (k : Nat) (x : Slot) : (setSlot s k x).slots k = x := by simp [setSlot]
theorem setSlot_ne (s : Ids) {k j : Nat} (x : Slot) (h : j ≠ k) : (setSlot s k x).slots j = s.slots j := by simp [setSlot, h]
theorem setSlot_counter (s : Ids) (k : Nat) (x : Slot) : (setSlot s k x).counter = s.counter := rfl

/-- Replacing one slot. -/
theorem IdInv.set {s : Ids} (i : IdInv s) (c : Id) (k : Nat) (x : Slot) (hc : below c < 0xffffff)
    (hmono : ∀ j id, j ≠ k → inUse (s.slots j) = some id → hosted (s.slots j) = false → below id ≤ below c)
    (hx : ∀ id, inUse x = some id → (hosted x = false → 1 ≤ below id ∧ below id ≤ below c) ∧
      (hosted x = true → id ≠ 0#64 ∧ id.toNat < 2 ^ 64 - 2 ^ 24) ∧
      ∀ j, j ≠ k → inUse (s.slots j) ≠ some id) (hb : ∀ id, x ≠ .bumping id) :
    IdInv (setSlot { s with counter := c } k x) := by
  refine ⟨hc, ?_, ?_, ?_, ?_⟩
  · intro j id h1 h2
    by_cases hj : j = k
    · subst hj; rw [setSlot_eq] at h1 h2; exact (hx id h1).1 h2
    · rw [setSlot_ne _ _ hj] at h1 h2; exact ⟨(i.fb j id h1 h2).1, hmono j id hj h1 h2⟩
  · intro j id h1 h2
    by_cases hj : j = k
    · subst hj; rw [setSlot_eq] at h1 h2; exact (hx id h1).2.1 h2
    · rw [setSlot_ne _ _ hj] at h1 h2; exact i.host j id h1 h2
  · intro a b id h1 h2
    by_cases ha : a = k
    · by_cases hb : b = k
      · rw [ha, hb]
      · subst ha; rw [setSlot_eq] at h1; rw [setSlot_ne _ _ hb] at h2; exact absurd h2 ((hx id h1).2.2 b hb)
    · by_cases hb : b = k
      · subst hb; rw [setSlot_eq] at h2; rw [setSlot_ne _ _ ha] at h1; exact absurd h1 ((hx id h2).2.2 a ha)
      · rw [setSlot_ne _ _ ha] at h1; rw [setSlot_ne _ _ hb] at h2; exact i.dist a b id h1 h2
  · intro j id
    by_cases hj : j = k
    · subst hj; rw [setSlot_eq]; exact hb id
    · rw [setSlot_ne _ _ hj]; exact i.nb j id

theorem below_dec {c : Id} (h : below c < 0xffffff) : below (c - 1#64) = below c + 1 := by
  unfold below at *; bv_omega
theorem below_inc {c : Id} (h : 1 ≤ below c) : below (c + 1#64) = below c - 1 := by
  unfold below at *; bv_omega
theorem below_inj {a b : Id} (h : below a = below b) : a = b := by
  unfold below at *; bv_omega
theorem below_zero : below 0#64 = 0 := rfl
theorem below_wrap : below WRAP = 0xffffff := rfl
theorem below_ne_zero {a : Id} (h : 1 ≤ below a) : a ≠ 0#64 := by
  intro hc; subst hc; exact absurd h (by decide)
theorem host_below {a : Id} (h0 : a ≠ 0#64) (h : a.toNat < 2 ^ 64 - 2 ^ 24) : 2 ^ 24 < below a := by
  unfold below; bv_omega

theorem IdInv.init : IdInv {} := by
  refine ⟨by decide, ?_, ?_, ?_, ?_⟩ <;> intro k <;> intros <;> simp_all [inUse]

/-- One step keeps the invariant while identities are left. -/
theorem IdInv.step {s s' : Ids} {c : Step} (i : IdInv s) (hl : below s.counter + creates c < 0xffffff) (hf : HostFair s c)
    (h : idStep s c = some s') : IdInv s' ∧ below s'.counter ≤ below s.counter + creates c := by
  cases c with
  | start k host =>
    simp only [idStep] at h
    cases hk : s.slots k with
    | absent =>
      rw [hk] at h; simp only at h
      by_cases h0 : host = NO_ID
      · simp only [h0, ne_eq, not_true, if_false] at h
        have hcr : creates (.start k host) = 1 := by rw [h0]; rfl
        rw [hcr] at hl ⊢
        have hd := below_dec (show below s.counter < 0xffffff by omega)
        have hw : ¬ s.counter - 1#64 = WRAP := by
          intro hc; rw [hc, below_wrap] at hd; omega
        rw [if_neg hw] at h
        cases h
        refine ⟨i.set _ _ _ (by rw [hd]; omega) ?_ ?_ (by intro id hc; cases hc), by rw [setSlot_counter]; simp only; omega⟩
        · intro j id _ h1 h2
          have := i.fb j id h1 h2
          rw [hd]; omega
        · intro id hid
          cases hid
          refine ⟨fun _ => ⟨by omega, by omega⟩, fun hh => (by cases hh), ?_⟩
          intro j hj hu
          cases hh : hosted (s.slots j) with
          | false => have := i.fb j _ hu hh; omega
          | true => have h3 := i.host j _ hu hh; have := host_below h3.1 h3.2; omega
      · rw [if_pos h0] at h
        cases h
        have hf' := hf h0
        refine ⟨i.set s.counter _ _ i.low ?_ ?_ (by intro id hc; cases hc), by rw [setSlot_counter]; omega⟩
        · intro j id _ h1 h2; exact (i.fb j id h1 h2).2
        · intro id hid
          cases hid
          exact ⟨fun hh => (by cases hh), fun _ => ⟨h0, hf'.1⟩, fun j _ => hf'.2 j⟩
    | bumping id => rw [hk] at h; cases h
    | live id fb => rw [hk] at h; cases h
    | leaving id fb => rw [hk] at h; cases h
  | bump k =>
    simp only [idStep] at h
    cases hk : s.slots k with
    | bumping id =>
      exact absurd hk (i.nb k id)
    | absent => rw [hk] at h; cases h
    | live id fb => rw [hk] at h; cases h
    | leaving id fb => rw [hk] at h; cases h
  | test k =>
    simp only [idStep] at h
    cases hk : s.slots k with
    | live id fb =>
      rw [hk] at h; cases h
      refine ⟨i.set s.counter _ _ i.low (fun j id _ h1 h2 => (i.fb j id h1 h2).2) ?_ (by intro id hc; split at hc <;> cases hc), by rw [setSlot_counter]; omega⟩
      intro id' hid
      split at hid
      · rename_i he
        cases hid
        rw [if_pos he]
        refine ⟨fun hh => i.fb k id (by rw [hk]; rfl) (by rw [hk]; exact hh), fun hh => i.host k id (by rw [hk]; rfl) (by rw [hk]; exact hh), ?_⟩
        intro j hj hu
        exact hj (i.dist j k id hu (by rw [hk]; rfl))
      · cases hid
    | absent => rw [hk] at h; cases h
    | bumping id => rw [hk] at h; cases h
    | leaving id fb => rw [hk] at h; cases h
  | swap k =>
    simp only [idStep] at h
    cases hk : s.slots k with
    | leaving id fb =>
      rw [hk] at h; cases h
      split
      · rename_i he
        have hu : inUse (s.slots k) = some id := by rw [hk]; rfl
        have hfb : hosted (s.slots k) = false := by
          cases hh : hosted (s.slots k) with
          | false => rfl
          | true =>
            have h3 := i.host k id hu hh
            have h4 := host_below h3.1 h3.2
            have := i.low; rw [he] at this; omega
        have h1 := i.fb k id hu hfb
        have hi := below_inc h1.1
        refine ⟨i.set _ _ _ (by have := i.low; rw [hi]; omega) ?_ (fun _ hc => by cases hc) (by intro id hc; cases hc), by rw [setSlot_counter]; simp only; omega⟩
        intro j id' hj h2 h3
        have h4 := i.fb j id' h2 h3
        rw [hi]
        have : below id' ≠ below id := by
          intro hc
          have := below_inj hc
          subst this
          exact hj (i.dist j k id' h2 hu)
        rw [he] at h4
        omega
      · exact ⟨i.set s.counter _ _ i.low (fun j id _ h1 h2 => (i.fb j id h1 h2).2) (fun _ hc => by cases hc) (by intro id hc; cases hc), by rw [setSlot_counter]; omega⟩
    | absent => rw [hk] at h; cases h
    | bumping id => rw [hk] at h; cases h
    | live id fb => rw [hk] at h; cases h

theorem IdInv.distinct {s : Ids} (i : IdInv s) : Distinct s := by
  refine ⟨?_, i.dist⟩
  intro k id h
  cases hh : hosted (s.slots k) with
  | false => exact below_ne_zero (i.fb k id h hh).1
  | true => exact (i.host k id h hh).1

theorem reach_inv {n : Nat} {s : Ids} (h : Reach n s) (hn : n < 0xffffff) : IdInv s ∧ below s.counter ≤ n := by
  induction h with
  | init => exact ⟨.init, by decide⟩
  | step _ hf hs ih =>
    obtain ⟨i, hb⟩ := ih (by omega)
    obtain ⟨i', hb'⟩ := i.step (by omega) hf hs
    exact ⟨i', by omega⟩

/-! ### nested contexts -/

/-- The identities of the contexts of a stack, newest first, are consecutive. -/
def Stacked (s : Ids) : List Nat → Prop
  | [] => True
  | k :: st => (∃ id, (s.slots k = .live id true ∨ s.slots k = .leaving id true) ∧ below id = st.length + 1) ∧ k ∉ st ∧ Stacked s st

theorem stacked_congr {s s' : Ids} {st : List Nat} (h : ∀ j ∈ st, s'.slots j = s.slots j) (hs : Stacked s st) : Stacked s' st := by
  induction st with
  | nil => trivial
  | cons k st ih =>
    obtain ⟨⟨id, h1, h2⟩, h3, h4⟩ := hs
    exact ⟨⟨id, by rw [h k (by simp)]; exact h1, h2⟩, h3, ih (fun j hj => h j (by simp [hj])) h4⟩

structure NestInv (st : List Nat) (s : Ids) : Prop where
  inv : IdInv s
  cnt : below s.counter = st.length
  stk : Stacked s st
  rest : ∀ j, j ∉ st → s.slots j = .absent

theorem nest_inv {st : List Nat} {s : Ids} (h : Nested st s) : NestInv st s := by
  induction h with
  | init => exact ⟨.init, by decide, trivial, fun _ _ => rfl⟩
  | @enter st s s' k _ hlen hs ih =>
    have hc : below s.counter + creates (.start k 0#64) < 0xffffff := by
      rw [ih.cnt]; show st.length + 1 < _; omega
    obtain ⟨i', hb⟩ := ih.inv.step hc (fun h => absurd rfl h) hs
    simp only [idStep] at hs
    cases hk : s.slots k with
    | absent =>
      rw [hk] at hs
      have hd := below_dec ih.inv.low
      have hw : ¬ s.counter - 1#64 = WRAP := by
        intro hc; rw [hc, below_wrap, ih.cnt] at hd; omega
      simp only [NO_ID, ne_eq, not_true, if_false] at hs
      rw [if_neg hw] at hs
      have hs := Option.some.inj hs
      have hkn : k ∉ st := by
        intro hm
        have : ∀ l : List Nat, Stacked s l → k ∈ l → s.slots k ≠ .absent := by
          intro l
          induction l with
          | nil => intro _ hm; cases hm
          | cons a l ihl =>
            intro h1 hm
            rcases List.mem_cons.1 hm with h2 | h2
            · subst h2
              obtain ⟨⟨id, h3, _⟩, _⟩ := h1
              rcases h3 with h3 | h3 <;> rw [h3] <;> intro hc <;> cases hc
            · exact ihl h1.2.2 h2
        exact this st ih.stk hm hk
      refine ⟨i', ?_, ?_, ?_⟩
      · rw [← hs, setSlot_counter]; simp only [List.length_cons]; rw [hd, ih.cnt]
      · refine ⟨⟨s.counter - 1#64, Or.inl (by rw [← hs, setSlot_eq]), by rw [hd, ih.cnt]⟩, hkn, ?_⟩
        refine stacked_congr ?_ ih.stk
        intro j hj
        rw [← hs, setSlot_ne _ _ (by intro hc; subst hc; exact hkn hj)]
      · intro j hj
        simp only [List.mem_cons, not_or] at hj
        rw [← hs, setSlot_ne _ _ hj.1]
        exact ih.rest j hj.2
    | bumping id => rw [hk] at hs; cases hs
    | live id fb => rw [hk] at hs; cases hs
    | leaving id fb => rw [hk] at hs; cases hs
  | @test st s s' k _ hs ih =>
    obtain ⟨i', _⟩ := ih.inv.step (c := .test k) (by have := ih.inv.low; simpa [creates] using this) trivial hs
    obtain ⟨⟨id, h1, h2⟩, h3, h4⟩ := ih.stk
    have hid : id = s.counter := below_inj (by rw [h2, ih.cnt]; rfl)
    simp only [idStep] at hs
    rcases h1 with h1 | h1
    · rw [h1] at hs
      simp only [hid, if_true] at hs
      have hs := Option.some.inj hs
      have hu : s'.slots k = .leaving s.counter true := by rw [← hs, setSlot_eq]
      rw [if_neg (by rw [hu]; simp [inUse])]
      refine ⟨i', by rw [← hs]; exact ih.cnt, ⟨⟨s.counter, Or.inr hu, by rw [← hid]; exact h2⟩, h3, ?_⟩, ?_⟩
      · refine stacked_congr ?_ h4
        intro j hj
        rw [← hs, setSlot_ne _ _ (by intro hc; subst hc; exact h3 hj)]
      · intro j hj
        rw [← hs, setSlot_ne _ _ (by intro hc; subst hc; exact hj (by simp))]
        exact ih.rest j hj
    · rw [h1] at hs; cases hs
  | @leave st s s' k _ hs ih =>
    obtain ⟨i', _⟩ := ih.inv.step (c := .swap k) (by have := ih.inv.low; simpa [creates] using this) trivial hs
    obtain ⟨⟨id, h1, h2⟩, h3, h4⟩ := ih.stk
    have hid : s.counter = id := below_inj (by rw [h2, ih.cnt]; rfl)
    simp only [idStep] at hs
    rcases h1 with h1 | h1
    · rw [h1] at hs; cases hs
    · rw [h1] at hs
      simp only [hid, if_true] at hs
      have hs := Option.some.inj hs
      refine ⟨i', ?_, ?_, ?_⟩
      · rw [← hs, setSlot_counter]; simp only; rw [below_inc (by omega), h2]; omega
      · refine stacked_congr ?_ h4
        intro j hj
        rw [← hs, setSlot_ne _ _ (by intro hc; subst hc; exact h3 hj)]
      · intro j hj
        by_cases hjk : j = k
        · subst hjk; rw [← hs, setSlot_eq]
        · rw [← hs, setSlot_ne _ _ hjk]
          exact ih.rest j (by simp [hj, hjk])

/-! ### identities come round -/

/-- A list of steps. -/
def runs : Ids → List Step → Option Ids
  | s, [] => some s
  | s, c :: cs => (idStep s c).bind fun s' => runs s' cs

theorem runs_append {s : Ids} {a b : List Step} : runs s (a ++ b) = (runs s a).bind fun s' => runs s' b := by
  induction a generalizing s with
  | nil => rfl
  | cons c a ih =>
    simp only [List.cons_append, runs]
    cases idStep s c with
    | none => rfl
    | some s' => exact ih

/-- One context stays, the others are gone. -/
def base (a c : Id) : Ids := { counter := c, slots := fun k => if k = 0 then .live a true else .absent }

/-- Two contexts come; the older goes first. -/
def round : List Step := [.start 1 0#64, .start 2 0#64, .test 1, .test 2, .swap 2]

theorem round_runs {a c : Id} (h1 : c - 1#64 ≠ WRAP) (h2 : c - 1#64 - 1#64 ≠ WRAP) :
    runs (base a c) round = some (base a (c - 1#64)) := by
  have h3 : ¬ c - 1#64 = c - 1#64 - 1#64 := by bv_omega
  have e1 : idStep (base a c) (.start 1 0#64) = some (setSlot { base a c with counter := c - 1#64 } 1 (.live (c - 1#64) true)) := by
    simp [idStep, base, NO_ID, h1]
  have e2 : idStep (setSlot { base a c with counter := c - 1#64 } 1 (.live (c - 1#64) true)) (.start 2 0#64) =
      some (setSlot (setSlot { base a c with counter := c - 1#64 - 1#64 } 1 (.live (c - 1#64) true)) 2 (.live (c - 1#64 - 1#64) true)) := by
    have : (setSlot { base a c with counter := c - 1#64 } 1 (.live (c - 1#64) true)).slots 2 = .absent := by simp [setSlot, base]
    simp only [idStep, this, NO_ID]
    rw [if_neg (by simp), setSlot_counter, if_neg h2]
    rfl
  have e3 : idStep (setSlot (setSlot { base a c with counter := c - 1#64 - 1#64 } 1 (.live (c - 1#64) true)) 2 (.live (c - 1#64 - 1#64) true)) (.test 1) =
      some (setSlot { base a c with counter := c - 1#64 - 1#64 } 2 (.live (c - 1#64 - 1#64) true)) := by
    simp only [idStep, setSlot, base]
    simp only [if_neg (show ¬ (1 : Nat) = 2 by decide), if_true]
    congr 2
    funext j
    by_cases hj : j = 1
    · simp [hj]; bv_omega
    · simp [hj]
  have e4 : idStep (setSlot { base a c with counter := c - 1#64 - 1#64 } 2 (.live (c - 1#64 - 1#64) true)) (.test 2) =
      some (setSlot { base a c with counter := c - 1#64 - 1#64 } 2 (.leaving (c - 1#64 - 1#64) true)) := by
    simp only [idStep, setSlot, base, if_true]
    congr 2
    funext j
    by_cases hj : j = 2 <;> simp [hj]
  have e5 : idStep (setSlot { base a c with counter := c - 1#64 - 1#64 } 2 (.leaving (c - 1#64 - 1#64) true)) (.swap 2) =
      some (base a (c - 1#64)) := by
    simp only [idStep, setSlot, base, if_true]
    congr 2
    · bv_omega
    · funext j
      by_cases hj : j = 2 <;> simp [hj]
  simp only [round, runs, e1, e2, e3, e4, e5, Option.bind_some]

def rounds : Nat → List Step
  | 0 => []
  | n + 1 => round ++ rounds n

theorem rounds_runs (n : Nat) {a c : Id} (h : below c + n + 1 < 0xffffff) :
    ∃ c', runs (base a c) (rounds n) = some (base a c') ∧ below c' = below c + n := by
  induction n generalizing c with
  | zero => exact ⟨c, rfl, rfl⟩
  | succ n ih =>
    have hd := below_dec (show below c < 0xffffff by omega)
    have hd2 := below_dec (c := c - 1#64) (show below (c - 1#64) < 0xffffff by omega)
    have h1 : c - 1#64 ≠ WRAP := by intro hc; rw [hc, below_wrap] at hd; omega
    have h2 : c - 1#64 - 1#64 ≠ WRAP := by intro hc; rw [hc, below_wrap] at hd2; omega
    obtain ⟨c', hr, hb⟩ := ih (c := c - 1#64) (by omega)
    refine ⟨c', ?_, by omega⟩
    simp only [rounds]
    rw [runs_append, round_runs h1 h2]
    exact hr

/-- Which context a step is about. -/
def slotOf : Step → Nat
  | .start k _ | .bump k | .test k | .swap k => k

theorem rounds_slots (n : Nat) : ∀ c ∈ rounds n, slotOf c < 3 ∧ ∀ k h, c = .start k h → h = 0#64 := by
  induction n with
  | zero => intro c hc; cases hc
  | succ n ih =>
    intro c hc
    simp only [rounds] at hc
    rcases List.mem_append.1 hc with h | h
    · simp only [round, List.mem_cons, List.not_mem_nil, or_false] at h
      rcases h with h | h | h | h | h <;> subst h <;> refine ⟨by simp [slotOf], ?_⟩ <;> intro k x hx <;> cases hx <;> rfl
    · exact ih c h

/-- The end of the story: the identity of the context that stayed is given to another. -/
def finale : List Step := [.start 1 0#64, .start 2 0#64, .bump 2, .test 1, .start 1 0#64]

theorem finale_runs {a c : Id} (h : below c = 0xfffffd) :
    ∃ s, runs (base a c) finale = some s ∧ s.slots 0 = .live a true ∧ s.slots 1 = .live (0#64 - 1#64) true := by
  have hc : c = 0#64 - 0xfffffd#64 := below_inj (by rw [h]; decide)
  have n1 : c - 1#64 ≠ WRAP := by rw [hc]; decide
  have n2 : c - 1#64 - 1#64 = WRAP := by rw [hc]; decide
  have n3 : WRAP + 0xffffff#64 = 0#64 := by decide
  have n4 : ¬ c - 1#64 = 0#64 := by rw [hc]; decide
  have n5 : 0#64 - 1#64 ≠ WRAP := by decide
  have e1 : idStep (base a c) (.start 1 0#64) = some (setSlot { base a c with counter := c - 1#64 } 1 (.live (c - 1#64) true)) := by
    simp [idStep, base, NO_ID, n1]
  have e2 : idStep (setSlot { base a c with counter := c - 1#64 } 1 (.live (c - 1#64) true)) (.start 2 0#64) =
      some (setSlot (setSlot { base a c with counter := WRAP } 1 (.live (c - 1#64) true)) 2 (.bumping WRAP)) := by
    have : (setSlot { base a c with counter := c - 1#64 } 1 (.live (c - 1#64) true)).slots 2 = .absent := by simp [setSlot, base]
    simp only [idStep, this, NO_ID]
    rw [if_neg (by simp), setSlot_counter, if_pos n2]
    simp only [n2]
    rfl
  have e3 : idStep (setSlot (setSlot { base a c with counter := WRAP } 1 (.live (c - 1#64) true)) 2 (.bumping WRAP)) (.bump 2) =
      some (setSlot (setSlot { base a c with counter := 0#64 } 1 (.live (c - 1#64) true)) 2 (.live WRAP true)) := by
    simp only [idStep, setSlot, if_true, n3]
    congr 2
    funext j
    by_cases hj : j = 2 <;> simp [hj]
  have e4 : idStep (setSlot (setSlot { base a c with counter := 0#64 } 1 (.live (c - 1#64) true)) 2 (.live WRAP true)) (.test 1) =
      some (setSlot { base a c with counter := 0#64 } 2 (.live WRAP true)) := by
    simp only [idStep, setSlot]
    simp only [if_neg (show ¬ (1 : Nat) = 2 by decide), if_true, if_neg n4]
    congr 2
    funext j
    by_cases hj : j = 1
    · simp [hj, base]
    · simp [hj]
  have e5 : idStep (setSlot { base a c with counter := 0#64 } 2 (.live WRAP true)) (.start 1 0#64) =
      some (setSlot (setSlot { base a c with counter := 0#64 - 1#64 } 2 (.live WRAP true)) 1 (.live (0#64 - 1#64) true)) := by
    have : (setSlot { base a c with counter := 0#64 } 2 (.live WRAP true)).slots 1 = .absent := by simp [setSlot, base]
    simp only [idStep, this, NO_ID]
    rw [if_neg (by simp), setSlot_counter, if_neg n5]
    rfl
  refine ⟨setSlot (setSlot { base a c with counter := 0#64 - 1#64 } 2 (.live WRAP true)) 1 (.live (0#64 - 1#64) true), ?_, ?_, ?_⟩
  · simp only [finale, runs, e1, e2, e3, e4, e5, Option.bind_some]
  · simp [setSlot, base]
  · simp [setSlot]

theorem runs_reach {cs : List Step} (hc : ∀ c ∈ cs, ∀ k h, c = .start k h → h = 0#64) :
    ∀ {s s' : Ids} {n : Nat}, Reach n s → runs s cs = some s' → ∃ m, Reach m s' := by
  induction cs with
  | nil => intro s s' n h hr; cases hr; exact ⟨n, h⟩
  | cons c cs ih =>
    intro s s' n h hr
    simp only [runs] at hr
    cases he : idStep s c with
    | none => rw [he] at hr; cases hr
    | some s1 =>
      rw [he] at hr
      refine ih (fun d hd => hc d (by simp [hd])) (.step h ?_ he) hr
      cases c with
      | start k x => intro hx; exact absurd (hc _ (by simp) k x rfl) hx
      | bump k => trivial
      | test k => trivial
      | swap k => trivial

end WS.Thread
