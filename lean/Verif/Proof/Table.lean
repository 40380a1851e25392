import Verif.Model.Table
namespace WS
open Std
variable {κ : Type}

/-- What every reachable store satisfies. -/
structure StoreInv (cmp : Nat → κ → κ → Ordering) (s : Store κ) : Prop where
  sorted : ∀ t, (s.tables t).ents.Pairwise (fun a b => cmp t a.key b.key = .lt)
  count : ∀ t, (s.tables t).nEnts = (s.tables t).ents.length
  idSorted : s.byId.Pairwise (fun a b => a.id < b.id)
  idCount : s.nById = s.byId.length
  idRange : ∀ e ∈ s.byId, 0 < e.id ∧ e.id < idModulus
  mem : ∀ t e, e ∈ (s.tables t).ents ↔ e ∈ s.byId ∧ e.tbl = t
  ctr : s.counter < idModulus

theorem storeInv_init (cmp : Nat → κ → κ → Ordering) : StoreInv cmp {} := by
  constructor <;> simp [idModulus]

/-! ### by-ID splice -/

theorem idSplice_none (e : Ent κ) (l : List (Ent κ)) (hs : l.Pairwise (fun a b => a.id < b.id)) :
    idSplice e l = none ↔ ∃ i ∈ l, i.id = e.id := by
  induction l with
  | nil => simp [idSplice]
  | cons i rest ih =>
    rw [List.pairwise_cons] at hs
    rw [idSplice]
    split
    · rename_i h
      rw [Option.map_eq_none_iff, ih hs.2]
      simp; intro h'; omega
    · split
      · rename_i h; simp [h]
      · rename_i h1 h2
        simp only [reduceCtorEq, List.mem_cons, false_iff, not_exists, not_and]
        rintro j (rfl | hj)
        · exact h2
        · have := hs.1 j hj; omega

theorem idSplice_some (e : Ent κ) (l l' : List (Ent κ)) (hs : l.Pairwise (fun a b => a.id < b.id))
    (h : idSplice e l = some l') :
    l'.Pairwise (fun a b => a.id < b.id) ∧ (∀ x, x ∈ l' ↔ x = e ∨ x ∈ l) ∧
    l'.length = l.length + 1 ∧ (∀ i ∈ l, i.id ≠ e.id) ∧ l'.filter (fun i => i.id != e.id) = l := by
  have hn : ∀ i ∈ l, i.id ≠ e.id := by
    intro i hi he
    have := (idSplice_none e l hs).2 ⟨i, hi, he⟩
    rw [h] at this; cases this
  refine (fun (p : _ ∧ _ ∧ _ ∧ _) => ⟨p.1, p.2.1, p.2.2.1, hn, p.2.2.2⟩) ?_
  clear hn
  induction l generalizing l' with
  | nil => simp [idSplice] at h; subst h; simp
  | cons i rest ih =>
    rw [List.pairwise_cons] at hs
    rw [idSplice] at h
    split at h
    · rename_i hlt
      rw [Option.map_eq_some_iff] at h
      obtain ⟨l2, h2, rfl⟩ := h
      obtain ⟨p1, p2, p3, p4⟩ := ih l2 hs.2 h2
      refine ⟨?_, ?_, by simp [p3], ?_⟩
      · rw [List.pairwise_cons]
        refine ⟨fun x hx => ?_, p1⟩
        rcases (p2 x).1 hx with rfl | hx
        · exact hlt
        · exact hs.1 x hx
      · intro x; simp [p2]; constructor
        · rintro (h | h | h) <;> simp [h]
        · rintro (h | h | h) <;> simp [h]
      · rw [List.filter_cons, p4]; simp; omega
    · split at h
      · cases h
      · rename_i h1 h2
        simp only [Option.some.injEq] at h
        subst h
        have hgt : ∀ x ∈ i :: rest, e.id < x.id := by
          intro x hx
          rcases List.mem_cons.1 hx with rfl | hx
          · omega
          · have := hs.1 x hx; omega
        refine ⟨?_, by simp, by simp, ?_⟩
        · rw [List.pairwise_cons]
          exact ⟨hgt, List.pairwise_cons.2 hs⟩
        · rw [List.filter_cons]
          simp only [bne_self_eq_false, Bool.false_eq_true, if_false]
          apply List.filter_eq_self.2
          intro x hx
          have := hgt x hx
          simp; omega

/-! ### key splice -/

theorem keySplice_none (cmp : κ → κ → Ordering) [TransCmp cmp] (e : Ent κ) (l : List (Ent κ))
    (hs : l.Pairwise (fun a b => cmp a.key b.key = .lt)) :
    keySplice cmp e l = none ↔ ∃ i ∈ l, cmp i.key e.key = .eq := by
  induction l with
  | nil => simp [keySplice]
  | cons i rest ih =>
    rw [List.pairwise_cons] at hs
    rw [keySplice]
    cases hc : cmp i.key e.key with
    | lt =>
      simp only [Option.map_eq_none_iff, ih hs.2, List.mem_cons]
      constructor
      · rintro ⟨j, hj, h⟩; exact ⟨j, Or.inr hj, h⟩
      · rintro ⟨j, rfl | hj, h⟩
        · rw [hc] at h; cases h
        · exact ⟨j, hj, h⟩
    | eq => simp [hc]
    | gt =>
      simp only [reduceCtorEq, List.mem_cons, false_iff, not_exists, not_and]
      rintro j (rfl | hj)
      · simp [hc]
      · intro h
        have h1 := hs.1 j hj
        have : cmp e.key j.key = .eq := OrientedCmp.eq_symm h
        have : cmp i.key e.key = .lt := TransCmp.lt_of_lt_of_eq h1 h
        rw [hc] at this; cases this

theorem keySplice_some (cmp : κ → κ → Ordering) [TransCmp cmp] (e : Ent κ) (l l' : List (Ent κ))
    (hs : l.Pairwise (fun a b => cmp a.key b.key = .lt)) (h : keySplice cmp e l = some l') :
    l'.Pairwise (fun a b => cmp a.key b.key = .lt) ∧ (∀ x, x ∈ l' ↔ x = e ∨ x ∈ l) ∧
    l'.length = l.length + 1 := by
  induction l generalizing l' with
  | nil => simp [keySplice] at h; subst h; simp
  | cons i rest ih =>
    rw [List.pairwise_cons] at hs
    rw [keySplice] at h
    cases hc : cmp i.key e.key with
    | lt =>
      simp only [hc, Option.map_eq_some_iff] at h
      obtain ⟨l2, h2, rfl⟩ := h
      obtain ⟨p1, p2, p3⟩ := ih l2 hs.2 h2
      refine ⟨?_, ?_, by simp [p3]⟩
      · rw [List.pairwise_cons]
        refine ⟨fun x hx => ?_, p1⟩
        rcases (p2 x).1 hx with rfl | hx
        · exact hc
        · exact hs.1 x hx
      · intro x; simp [p2]; constructor
        · rintro (h | h | h) <;> simp [h]
        · rintro (h | h | h) <;> simp [h]
    | eq => simp [hc] at h
    | gt =>
      simp only [hc, Option.some.injEq] at h
      subst h
      have hgt : cmp e.key i.key = .lt := OrientedCmp.lt_of_gt hc
      refine ⟨?_, by simp, by simp⟩
      rw [List.pairwise_cons]
      refine ⟨fun x hx => ?_, List.pairwise_cons.2 hs⟩
      rcases List.mem_cons.1 hx with rfl | hx
      · exact hgt
      · exact TransCmp.lt_trans hgt (hs.1 x hx)

theorem getScan_ok (cmp : κ → κ → Ordering) [TransCmp cmp] (k : κ) (l : List (Ent κ))
    (hs : l.Pairwise (fun a b => cmp a.key b.key = .lt)) (e : Ent κ) :
    getScan cmp k l = .ok e ↔ e ∈ l ∧ cmp e.key k = .eq := by
  induction l with
  | nil => simp [getScan]
  | cons i rest ih =>
    rw [List.pairwise_cons] at hs
    rw [getScan]
    cases hc : cmp i.key k with
    | lt =>
      simp only [ih hs.2, List.mem_cons]
      constructor
      · rintro ⟨h1, h2⟩; exact ⟨Or.inr h1, h2⟩
      · rintro ⟨rfl | h1, h2⟩
        · rw [hc] at h2; cases h2
        · exact ⟨h1, h2⟩
    | eq =>
      simp only [Except.ok.injEq, List.mem_cons]
      constructor
      · rintro rfl; exact ⟨Or.inl rfl, hc⟩
      · rintro ⟨rfl | h1, h2⟩
        · rfl
        · have h := hs.1 e h1
          have : cmp i.key k = .lt := TransCmp.lt_of_lt_of_eq h h2
          rw [hc] at this; cases this
    | gt =>
      simp only [reduceCtorEq, List.mem_cons, false_iff, not_and]
      rintro (rfl | h1) h2
      · rw [hc] at h2; cases h2
      · have h := hs.1 e h1
        have : cmp i.key k = .lt := TransCmp.lt_of_lt_of_eq h h2
        rw [hc] at this; cases this

theorem getScan_err (cmp : κ → κ → Ordering) (k : κ) (l : List (Ent κ)) (x : Err)
    (h : getScan cmp k l = .error x) : x = .itemNotFound := by
  induction l with
  | nil => simp [getScan] at h; exact h.symm
  | cons i rest ih =>
    rw [getScan] at h
    split at h
    · exact ih h
    · cases h
    · simp at h; exact h.symm

theorem getByIdScan_ok (id : Nat) (l : List (Ent κ)) (hs : l.Pairwise (fun a b => a.id < b.id))
    (e : Ent κ) : getByIdScan id l = .ok e ↔ e ∈ l ∧ e.id = id := by
  induction l with
  | nil => simp [getByIdScan]
  | cons i rest ih =>
    rw [List.pairwise_cons] at hs
    rw [getByIdScan]
    split
    · rename_i h
      simp only [ih hs.2, List.mem_cons]
      constructor
      · rintro ⟨h1, h2⟩; exact ⟨Or.inr h1, h2⟩
      · rintro ⟨rfl | h1, h2⟩
        · omega
        · exact ⟨h1, h2⟩
    · split
      · rename_i h1 h2
        simp only [Except.ok.injEq, List.mem_cons]
        constructor
        · rintro rfl; exact ⟨Or.inl rfl, h2⟩
        · rintro ⟨rfl | h3, h4⟩
          · rfl
          · have := hs.1 e h3; omega
      · rename_i h1 h2
        simp only [reduceCtorEq, List.mem_cons, false_iff, not_and]
        rintro (rfl | h3) h4
        · exact h2 h4
        · have := hs.1 e h3; omega

theorem getByIdScan_err (id : Nat) (l : List (Ent κ)) (x : Err)
    (h : getByIdScan id l = .error x) : x = .itemNotFound := by
  induction l with
  | nil => simp [getByIdScan] at h; exact h.symm
  | cons i rest ih =>
    rw [getByIdScan] at h
    split at h
    · exact ih h
    · split at h
      · cases h
      · simp at h; exact h.symm

/-! ### ID allocation -/

theorem insertById_ok (s s' : Store κ) (e : Ent κ) (h : insertById s e = .ok s') :
    e.id ≠ 0 ∧ ∃ l, idSplice e s.byId = some l ∧ s' = { s with byId := l, nById := s.nById + 1 } := by
  unfold insertById at h
  split at h
  · cases h
  · rename_i h0
    refine ⟨h0, ?_⟩
    split at h
    · cases h
    · rename_i l hl
      simp at h
      exact ⟨l, hl, h.symm⟩

/-- Outcome of automatic allocation: the first free value above the counter, or, when there is
none before the wrap, `INVALID_ARG` with the counter back at 0. -/
theorem idAllocate_spec (s : Store κ) (t : Nat) (k : κ)
    (hs : s.byId.Pairwise (fun a b => a.id < b.id)) (hc : s.counter < idModulus) :
    ((idAllocate s t k).1 = .error .invalidArg ∧ (idAllocate s t k).2 = { s with counter := 0 } ∧
      ∀ j, s.counter < j → j < idModulus → ∃ i ∈ s.byId, i.id = j) ∨
    (∃ c, s.counter < c ∧ c < idModulus ∧ (∀ j, s.counter < j → j < c → ∃ i ∈ s.byId, i.id = j) ∧
      (idAllocate s t k).1 = .ok ⟨c, t, k⟩ ∧
      insertById { s with counter := c } ⟨c, t, k⟩ = .ok (idAllocate s t k).2) := by
  generalize hn : idModulus - s.counter = n
  induction n using Nat.strongRecOn generalizing s with
  | _ n ih =>
    rw [idAllocate]
    by_cases hw : s.counter + 1 < idModulus
    · have hm : (s.counter + 1) % idModulus = s.counter + 1 := Nat.mod_eq_of_lt hw
      simp only [hm]
      have hne : ¬ (s.counter + 1 = 0) := by omega
      cases hsp : idSplice ⟨s.counter + 1, t, k⟩ s.byId with
      | some l =>
        have hi : insertById { s with counter := s.counter + 1 } ⟨s.counter + 1, t, k⟩ =
            .ok { s with counter := s.counter + 1, byId := l, nById := s.nById + 1 } := by
          unfold insertById
          simp [hsp]
        simp only [hi]
        right
        refine ⟨s.counter + 1, by omega, hw, fun j h1 h2 => by omega, rfl, hi⟩
      | none =>
        have hi : insertById { s with counter := s.counter + 1 } ⟨s.counter + 1, t, k⟩ =
            .error .itemAlreadyPresent := by
          unfold insertById
          simp [hsp]
        simp only [hi, hw, if_true]
        have hpres := (idSplice_none _ _ hs).1 hsp
        have hrec := ih (idModulus - (s.counter + 1)) (by omega) { s with counter := s.counter + 1 } hs hw rfl
        have hall : ∀ j, s.counter < j → (s.counter + 1 < j → ∃ i ∈ s.byId, i.id = j) →
            ∃ i ∈ s.byId, i.id = j := by
          intro j h1 h2
          by_cases hj : j = s.counter + 1
          · subst hj; exact hpres
          · exact h2 (by omega)
        rcases hrec with ⟨h1, h2, h3⟩ | ⟨c, h1, h2, h3, h4, h5⟩
        · left
          exact ⟨h1, h2, fun j hj hj2 => hall j hj (fun h => h3 j h hj2)⟩
        · right
          exact ⟨c, Nat.lt_of_succ_lt h1, h2, fun j hj hj2 => hall j hj (fun h => h3 j h hj2), h4, h5⟩
    · have he : s.counter + 1 = idModulus := by omega
      have hi : insertById { s with counter := 0 } (⟨0, t, k⟩ : Ent κ) = .error .invalidArg := by
        unfold insertById; simp
      simp only [he, Nat.mod_self, hi]
      left
      exact ⟨trivial, trivial, fun j h1 h2 => by omega⟩

/-! ### The invariant is preserved -/

variable (cmp : Nat → κ → κ → Ordering)

theorem StoreInv.setCounter {s : Store κ} (h : StoreInv cmp s) (c : Nat) (hc : c < idModulus) :
    StoreInv cmp { s with counter := c } := by
  obtain ⟨a, b, c', d, e, f, g⟩ := h
  exact ⟨a, b, c', d, e, f, hc⟩

/-- Insertion of an object just entered in the by-ID list. -/
theorem tableInsert_spec [∀ t, TransCmp (cmp t)] {s s1 : Store κ} {e : Ent κ} (h : StoreInv cmp s)
    (hr : e.id < idModulus) (h1 : insertById s e = .ok s1) :
    ((tableInsert cmp s1 e).1 = .error .itemAlreadyPresent ∧
      (∃ i ∈ (s.tables e.tbl).ents, cmp e.tbl i.key e.key = .eq) ∧
      ∃ c, c < idModulus ∧ (tableInsert cmp s1 e).2 = { s with counter := c }) ∨
    ((tableInsert cmp s1 e).1 = .ok () ∧
      (∀ i ∈ (s.tables e.tbl).ents, cmp e.tbl i.key e.key ≠ .eq) ∧
      StoreInv cmp (tableInsert cmp s1 e).2 ∧
      (∀ x, x ∈ ((tableInsert cmp s1 e).2.tables e.tbl).ents ↔ x = e ∨ x ∈ (s.tables e.tbl).ents) ∧
      (∀ t, t ≠ e.tbl → (tableInsert cmp s1 e).2.tables t = s.tables t) ∧
      (∀ x, x ∈ (tableInsert cmp s1 e).2.byId ↔ x = e ∨ x ∈ s.byId)) := by
  obtain ⟨h0, l, hl, rfl⟩ := insertById_ok _ _ _ h1
  obtain ⟨q1, q2, q3, q4, q5⟩ := idSplice_some e _ _ h.idSorted hl
  unfold tableInsert
  simp only [h0, if_false]
  cases hk : keySplice (cmp e.tbl) e (s.tables e.tbl).ents with
  | none =>
    left
    refine ⟨rfl, (keySplice_none _ _ _ (h.sorted _)).1 hk, ?_⟩
    simp only [deleteById1, q5]
    refine ⟨_, ?_, rfl⟩
    split
    · exact Nat.mod_lt _ (by decide)
    · exact h.ctr
  | some l2 =>
    right
    obtain ⟨r1, r2, r3⟩ := keySplice_some _ _ _ _ (h.sorted _) hk
    refine ⟨rfl, ?_, ?_, ?_, ?_, q2⟩
    · intro i hi he
      have := (keySplice_none _ _ _ (h.sorted _)).2 ⟨i, hi, he⟩
      rw [hk] at this; cases this
    · constructor
      · intro t
        simp only [Store.setTable]
        by_cases ht : t = e.tbl
        · subst ht; simpa using r1
        · simpa [ht] using h.sorted t
      · intro t
        simp only [Store.setTable]
        by_cases ht : t = e.tbl
        · subst ht; simp [r3, h.count]
        · simpa [ht] using h.count t
      · exact q1
      · simp [Store.setTable, q3, h.idCount]
      · intro x hx
        rcases (q2 x).1 hx with rfl | hx
        · omega
        · exact h.idRange x hx
      · intro t x
        simp only [Store.setTable]
        by_cases ht : t = e.tbl
        · subst ht
          simp only [if_true, r2, q2, h.mem]
          constructor
          · rintro (rfl | ⟨h1, h2⟩)
            · exact ⟨Or.inl rfl, rfl⟩
            · exact ⟨Or.inr h1, h2⟩
          · rintro ⟨rfl | h1, h2⟩
            · exact Or.inl rfl
            · exact Or.inr ⟨h1, h2⟩
        · simp only [ht, if_false, h.mem, q2]
          constructor
          · rintro ⟨h1, h2⟩; exact ⟨Or.inr h1, h2⟩
          · rintro ⟨rfl | h1, h2⟩
            · exact absurd h2.symm ht
            · exact ⟨h1, h2⟩
      · exact h.ctr
    · intro x; simp [Store.setTable, r2]
    · intro t ht; simp [Store.setTable, ht]

theorem filter_id_length (l : List (Ent κ)) (hs : l.Pairwise (fun a b => a.id < b.id)) (e : Ent κ)
    (he : e ∈ l) : (l.filter (fun i => i.id != e.id)).length + 1 = l.length := by
  induction l with
  | nil => simp at he
  | cons i rest ih =>
    rw [List.pairwise_cons] at hs
    rcases List.mem_cons.1 he with rfl | he
    · rw [List.filter_cons]
      simp only [bne_self_eq_false, Bool.false_eq_true, if_false, List.length_cons]
      rw [List.filter_eq_self.2]
      intro x hx
      have := hs.1 x hx
      simp; omega
    · rw [List.filter_cons]
      have := hs.1 e he
      have hne : (i.id != e.id) = true := by simp; omega
      simp [hne, ih hs.2 he]

/-- IDs determine entries. -/
theorem StoreInv.id_inj {s : Store κ} (h : StoreInv cmp s) {a b : Ent κ} (ha : a ∈ s.byId)
    (hb : b ∈ s.byId) (hab : a.id = b.id) : a = b := by
  have hs := h.idSorted
  revert ha hb
  generalize s.byId = l at *
  intro ha hb
  induction l with
  | nil => simp at ha
  | cons i rest ih =>
    rw [List.pairwise_cons] at hs
    rcases List.mem_cons.1 ha with ha1 | ha1 <;> rcases List.mem_cons.1 hb with hb1 | hb1
    · rw [ha1, hb1]
    · have := hs.1 b hb1; rw [ha1] at hab; omega
    · have := hs.1 a ha1; rw [hb1] at hab; omega
    · exact ih hs.2 ha1 hb1

/-- Keys determine entries of one table. -/
theorem StoreInv.key_inj [∀ t, TransCmp (cmp t)] {s : Store κ} (h : StoreInv cmp s) {t : Nat} {a b : Ent κ}
    (ha : a ∈ (s.tables t).ents) (hb : b ∈ (s.tables t).ents) (hab : cmp t a.key b.key = .eq) : a = b := by
  have hs := h.sorted t
  revert ha hb
  generalize (s.tables t).ents = l at *
  intro ha hb
  induction l with
  | nil => simp at ha
  | cons i rest ih =>
    rw [List.pairwise_cons] at hs
    rcases List.mem_cons.1 ha with ha1 | ha1 <;> rcases List.mem_cons.1 hb with hb1 | hb1
    · rw [ha1, hb1]
    · have := hs.1 b hb1; rw [← ha1, hab] at this; cases this
    · have := hs.1 a ha1; rw [← hb1, OrientedCmp.eq_symm hab] at this; cases this
    · exact ih hs.2 ha1 hb1

theorem filter_id_mem {s : Store κ} (h : StoreInv cmp s) {e : Ent κ} (he : e ∈ s.byId) (x : Ent κ) :
    x ∈ s.byId.filter (fun i => i.id != e.id) ↔ x ∈ s.byId ∧ x ≠ e := by
  rw [List.mem_filter]
  constructor
  · rintro ⟨h1, h2⟩
    refine ⟨h1, ?_⟩
    rintro rfl
    simp at h2
  · rintro ⟨h1, h2⟩
    refine ⟨h1, ?_⟩
    simp only [bne_iff_ne, ne_eq]
    intro hid
    exact h2 (h.id_inj cmp h1 he hid)

/-- Removing one live object. -/
theorem tableDelete1_spec [∀ t, TransCmp (cmp t)] {s : Store κ} (h : StoreInv cmp s) {e : Ent κ} (he : e ∈ s.byId) :
    StoreInv cmp (tableDelete1 s e) ∧
    (∀ t x, x ∈ ((tableDelete1 s e).tables t).ents ↔ x ∈ (s.tables t).ents ∧ x ≠ e) ∧
    (∀ x, x ∈ (tableDelete1 s e).byId ↔ x ∈ s.byId ∧ x ≠ e) ∧
    (∀ t, t ≠ e.tbl → (tableDelete1 s e).tables t = s.tables t) := by
  have hmem : e ∈ (s.tables e.tbl).ents := (h.mem _ _).2 ⟨he, rfl⟩
  have hfm : ∀ x, x ∈ (s.tables e.tbl).ents.filter (fun i => i.id != e.id) ↔
      x ∈ (s.tables e.tbl).ents ∧ x ≠ e := by
    intro x
    rw [List.mem_filter]
    constructor
    · rintro ⟨h1, h2⟩
      refine ⟨h1, ?_⟩
      rintro rfl
      simp at h2
    · rintro ⟨h1, h2⟩
      refine ⟨h1, ?_⟩
      simp only [bne_iff_ne, ne_eq]
      intro hid
      exact h2 (h.id_inj cmp ((h.mem _ _).1 h1).1 he hid)
  have hT : ∀ t x, x ∈ ((tableDelete1 s e).tables t).ents ↔ x ∈ (s.tables t).ents ∧ x ≠ e := by
    intro t x
    simp only [tableDelete1, deleteById1, Store.setTable]
    by_cases ht : t = e.tbl
    · subst ht; simp only [if_true, unlink]; exact hfm x
    · simp only [ht, if_false]
      constructor
      · intro hx
        refine ⟨hx, ?_⟩
        rintro rfl
        exact ht (((h.mem _ _).1 hx).2).symm
      · exact fun hx => hx.1
  have hB : ∀ x, x ∈ (tableDelete1 s e).byId ↔ x ∈ s.byId ∧ x ≠ e := fun x => filter_id_mem cmp h he x
  refine ⟨?_, hT, hB, ?_⟩
  · constructor
    · intro t
      simp only [tableDelete1, deleteById1, Store.setTable]
      by_cases ht : t = e.tbl
      · subst ht; simp only [if_true, unlink]; exact (h.sorted _).filter _
      · simp only [ht, if_false]; exact h.sorted t
    · intro t
      simp only [tableDelete1, deleteById1, Store.setTable]
      by_cases ht : t = e.tbl
      · subst ht
        simp only [if_true, unlink]
        have hcount := h.count e.tbl
        have : ((s.tables e.tbl).ents.filter (fun i => i.id != e.id)).length + 1 =
            (s.tables e.tbl).ents.length := by
          -- exactly one entry carries the ID
          have huniq : ∀ x ∈ (s.tables e.tbl).ents, x.id = e.id → x = e := fun x hx hid =>
            h.id_inj cmp ((h.mem _ _).1 hx).1 he hid
          have hsorted := h.sorted e.tbl
          revert hmem huniq hsorted
          generalize (s.tables e.tbl).ents = l
          intro hmem huniq hsorted
          induction l with
          | nil => simp at hmem
          | cons i rest ih =>
            rw [List.pairwise_cons] at hsorted
            by_cases hi : i = e
            · subst hi
              rw [List.filter_cons]
              simp only [bne_self_eq_false, Bool.false_eq_true, if_false, List.length_cons]
              rw [List.filter_eq_self.2]
              intro x hx
              simp only [bne_iff_ne, ne_eq]
              intro hid
              have hxe := huniq x (List.mem_cons_of_mem _ hx) hid
              subst hxe
              have h1 := hsorted.1 x hx
              have h2 : cmp x.tbl x.key x.key = .eq := ReflCmp.compare_self
              rw [h2] at h1; cases h1
            · have hmem' : e ∈ rest := by
                rcases List.mem_cons.1 hmem with h | h
                · exact absurd h.symm hi
                · exact h
              rw [List.filter_cons]
              have hne : (i.id != e.id) = true := by
                simp only [bne_iff_ne, ne_eq]
                intro hid; exact hi (huniq i (List.mem_cons_self) hid)
              simp [hne, ih hmem' (fun x hx => huniq x (List.mem_cons_of_mem _ hx)) hsorted.2]
        omega
      · simp only [ht, if_false]; exact h.count t
    · exact h.idSorted.filter _
    · have := filter_id_length s.byId h.idSorted e he
      have := h.idCount
      simp only [tableDelete1, deleteById1, Store.setTable]
      omega
    · intro x hx; exact h.idRange x ((hB x).1 hx).1
    · intro t x
      rw [hT, hB, h.mem]
      constructor
      · rintro ⟨⟨a, b⟩, c⟩; exact ⟨⟨a, c⟩, b⟩
      · rintro ⟨⟨a, c⟩, b⟩; exact ⟨⟨a, b⟩, c⟩
    · show (if (e.id + 1) % idModulus = s.counter then (s.counter + (idModulus - 1)) % idModulus else s.counter) < idModulus
      by_cases hq : (e.id + 1) % idModulus = s.counter
      · rw [if_pos hq]; exact Nat.mod_lt _ (by decide)
      · rw [if_neg hq]; exact h.ctr
  · intro t ht
    simp [tableDelete1, deleteById1, Store.setTable, ht]


theorem tableDeleteById_eq (s : Store κ) (e : Ent κ) :
    (deleteById1 s e).setTable e.tbl (unlink ((deleteById1 s e).tables e.tbl) e) = tableDelete1 s e := rfl

theorem tableDeleteById_spec (s : Store κ) (id : Nat) :
    (∃ e, getById s id = .ok e ∧ tableDeleteById s id = (.ok e, tableDelete1 s e)) ∨
    (∃ x, getById s id = .error x ∧ tableDeleteById s id = (.error x, s)) := by
  unfold tableDeleteById
  cases h : getById s id with
  | ok e => left; exact ⟨e, rfl, rfl⟩
  | error x => right; exact ⟨x, rfl, rfl⟩

/-- Successive removal of distinct live objects. -/
theorem foldl_delete_spec [∀ t, TransCmp (cmp t)] (l : List (Ent κ)) (s : Store κ) (h : StoreInv cmp s)
    (hl : ∀ e ∈ l, e ∈ s.byId) (hn : l.Nodup) :
    StoreInv cmp (l.foldl tableDelete1 s) ∧
    (∀ t x, x ∈ ((l.foldl tableDelete1 s).tables t).ents ↔ x ∈ (s.tables t).ents ∧ x ∉ l) ∧
    (∀ x, x ∈ (l.foldl tableDelete1 s).byId ↔ x ∈ s.byId ∧ x ∉ l) := by
  induction l generalizing s with
  | nil => simp [h]
  | cons e rest ih =>
    rw [List.nodup_cons] at hn
    obtain ⟨i1, i2, i3, _⟩ := tableDelete1_spec cmp h (hl e List.mem_cons_self)
    obtain ⟨j1, j2, j3⟩ := ih (tableDelete1 s e) i1 (fun x hx => (i3 x).2
      ⟨hl x (List.mem_cons_of_mem _ hx), fun he => hn.1 (he ▸ hx)⟩) hn.2
    refine ⟨j1, ?_, ?_⟩
    · intro t x
      rw [List.foldl_cons, j2, i2]; simp [and_assoc]
    · intro x
      rw [List.foldl_cons, j3, i3]; simp [and_assoc]

theorem StoreInv.nodup [∀ t, TransCmp (cmp t)] {s : Store κ} (h : StoreInv cmp s) (t : Nat) :
    (s.tables t).ents.Nodup := by
  have := h.sorted t
  apply this.imp
  rintro a b hab rfl
  have h2 : cmp t a.key a.key = .eq := ReflCmp.compare_self
  rw [h2] at hab; cases hab

/-- Flushing is removing every entry and resetting the header. -/
theorem tableFlush_spec [∀ t, TransCmp (cmp t)] {s : Store κ} (h : StoreInv cmp s) (t : Nat) :
    StoreInv cmp (tableFlush s t) ∧ ((tableFlush s t).tables t).ents = [] ∧
    (∀ t', t' ≠ t → (tableFlush s t).tables t' = s.tables t') ∧
    (∀ x, x ∈ (tableFlush s t).byId ↔ x ∈ s.byId ∧ x.tbl ≠ t) := by
  have gen : ∀ (l : List (Ent κ)) (s : Store κ), s.byId.Pairwise (fun a b => a.id < b.id) →
      s.nById = s.byId.length → s.counter < idModulus → (∀ e ∈ l, e ∈ s.byId) → l.Nodup →
      (∀ t, (l.foldl deleteById1 s).tables t = s.tables t) ∧
      (l.foldl deleteById1 s).byId.Pairwise (fun a b => a.id < b.id) ∧
      (l.foldl deleteById1 s).nById = (l.foldl deleteById1 s).byId.length ∧
      (l.foldl deleteById1 s).counter < idModulus ∧
      (∀ x, x ∈ (l.foldl deleteById1 s).byId ↔ x ∈ s.byId ∧ x ∉ l) := by
    intro l
    induction l with
    | nil => intro s h1 h2 h3 _ _; simp [h1, h2, h3]
    | cons e rest ih =>
      intro s h1 h2 h3 h4 hn
      rw [List.nodup_cons] at hn
      have he := h4 e List.mem_cons_self
      have hinj : ∀ x ∈ s.byId, x.id = e.id → x = e := by
        clear ih h2 h4 hn h3
        revert he h1
        generalize s.byId = l
        intro h1 he x hx hid
        induction l with
        | nil => simp at hx
        | cons i l ih2 =>
          rw [List.pairwise_cons] at h1
          rcases List.mem_cons.1 hx with hx1 | hx1 <;> rcases List.mem_cons.1 he with he1 | he1
          · rw [hx1, he1]
          · have := h1.1 e he1; rw [hx1] at hid; omega
          · have := h1.1 x hx1; rw [he1] at hid; omega
          · exact ih2 h1.2 he1 hx1
      have hm : ∀ x, x ∈ (deleteById1 s e).byId ↔ x ∈ s.byId ∧ x ≠ e := by
        intro x
        simp only [deleteById1, List.mem_filter, bne_iff_ne, ne_eq]
        constructor
        · rintro ⟨a, b⟩; exact ⟨a, fun hc => b (hc ▸ rfl)⟩
        · rintro ⟨a, b⟩; exact ⟨a, fun hc => b (hinj x a hc)⟩
      have hlen := filter_id_length s.byId h1 e he
      obtain ⟨j0, j1, j2, j3, j4⟩ := ih (deleteById1 s e) (h1.filter _)
        (by simp only [deleteById1]; omega)
        (by
          simp only [deleteById1]
          by_cases hq : (e.id + 1) % idModulus = s.counter
          · rw [if_pos hq]; exact Nat.mod_lt _ (by decide)
          · rw [if_neg hq]; exact h3)
        (fun x hx => (hm x).2 ⟨h4 x (List.mem_cons_of_mem _ hx), fun hc => hn.1 (hc ▸ hx)⟩) hn.2
      rw [List.foldl_cons]
      refine ⟨fun t => by rw [j0]; rfl, j1, j2, j3, fun x => ?_⟩
      rw [j4, hm]; simp [and_assoc]
  obtain ⟨g0, g1, g2, g3, g4⟩ := gen (s.tables t).ents (s.setTable t {}) h.idSorted h.idCount h.ctr
    (fun e he => ((h.mem _ _).1 he).1) (h.nodup cmp t)
  have hT : ∀ t', t' ≠ t → (tableFlush s t).tables t' = s.tables t' := by
    intro t' ht; unfold tableFlush; rw [g0]; simp [Store.setTable, ht]
  have hT0 : (tableFlush s t).tables t = {} := by
    unfold tableFlush; rw [g0]; simp [Store.setTable]
  have hB : ∀ x, x ∈ (tableFlush s t).byId ↔ x ∈ s.byId ∧ x.tbl ≠ t := by
    intro x
    unfold tableFlush
    rw [g4]
    simp only [Store.setTable, h.mem]
    constructor
    · rintro ⟨a, b⟩; exact ⟨a, fun hc => b ⟨a, hc⟩⟩
    · rintro ⟨a, b⟩; exact ⟨a, fun hc => b hc.2⟩
  refine ⟨?_, by rw [hT0], hT, hB⟩
  constructor
  · intro t'
    by_cases ht : t' = t
    · subst ht; rw [hT0]; simp
    · rw [hT t' ht]; exact h.sorted t'
  · intro t'
    by_cases ht : t' = t
    · subst ht; rw [hT0]; rfl
    · rw [hT t' ht]; exact h.count t'
  · exact g1
  · exact g2
  · intro x hx; exact h.idRange x ((hB x).1 hx).1
  · intro t' x
    rw [hB]
    by_cases ht : t' = t
    · subst ht
      rw [hT0]
      constructor
      · intro hx; simp at hx
      · rintro ⟨⟨_, b⟩, c⟩; exact absurd c b
    · rw [hT t' ht, h.mem]
      constructor
      · rintro ⟨a, b⟩; exact ⟨⟨a, by rw [b]; exact ht⟩, b⟩
      · rintro ⟨⟨a, _⟩, b⟩; exact ⟨a, b⟩
  · exact g3

/-- Automatic-ID insertion, summed up. -/
theorem storeInsert_spec [∀ t, TransCmp (cmp t)] {s : Store κ} (h : StoreInv cmp s) (t : Nat) (k : κ) :
    ((storeInsert cmp s t k).1 = .error .invalidArg ∧
      (∀ j, s.counter < j → j < idModulus → ∃ i ∈ s.byId, i.id = j) ∧
      ∃ c, c < idModulus ∧ (storeInsert cmp s t k).2 = { s with counter := c }) ∨
    ((storeInsert cmp s t k).1 = .error .itemAlreadyPresent ∧
      (∃ i ∈ (s.tables t).ents, cmp t i.key k = .eq) ∧
      ∃ c, c < idModulus ∧ (storeInsert cmp s t k).2 = { s with counter := c }) ∨
    (∃ e, (storeInsert cmp s t k).1 = .ok e ∧ e.tbl = t ∧ e.key = k ∧ 0 < e.id ∧ e.id < idModulus ∧
      (∀ i ∈ s.byId, i.id ≠ e.id) ∧
      (∀ i ∈ (s.tables t).ents, cmp t i.key k ≠ .eq) ∧ StoreInv cmp (storeInsert cmp s t k).2 ∧
      (∀ x, x ∈ ((storeInsert cmp s t k).2.tables t).ents ↔ x = e ∨ x ∈ (s.tables t).ents) ∧
      (∀ t', t' ≠ t → (storeInsert cmp s t k).2.tables t' = s.tables t') ∧
      (∀ x, x ∈ (storeInsert cmp s t k).2.byId ↔ x = e ∨ x ∈ s.byId)) := by
  unfold storeInsert
  rcases idAllocate_spec s t k h.idSorted h.ctr with ⟨a1, a2, a3⟩ | ⟨c, c1, c2, c3, c4, c5⟩
  · rw [show idAllocate s t k = (.error .invalidArg, { s with counter := 0 }) from Prod.ext a1 a2]
    left
    exact ⟨rfl, a3, 0, by decide, rfl⟩
  · rw [show idAllocate s t k = (.ok ⟨c, t, k⟩, (idAllocate s t k).2) from Prod.ext c4 rfl]
    right
    simp only
    have hfresh : ∀ i ∈ s.byId, i.id ≠ c := by
      obtain ⟨_, l, hl, _⟩ := insertById_ok _ _ _ c5
      exact (idSplice_some _ _ _ h.idSorted hl).2.2.2.1
    rcases tableInsert_spec cmp (h.setCounter cmp c c2) c2 c5 with ⟨b1, b2, c', b3, b4⟩ | ⟨b1, b2, b3, b4, b5, b6⟩
    · left
      rw [show tableInsert cmp (idAllocate s t k).2 ⟨c, t, k⟩ = (.error .itemAlreadyPresent, (tableInsert cmp (idAllocate s t k).2 ⟨c, t, k⟩).2) from Prod.ext b1 rfl]
      exact ⟨rfl, b2, c', b3, b4⟩
    · right
      rw [show tableInsert cmp (idAllocate s t k).2 ⟨c, t, k⟩ = (.ok (), (tableInsert cmp (idAllocate s t k).2 ⟨c, t, k⟩).2) from Prod.ext b1 rfl]
      exact ⟨⟨c, t, k⟩, rfl, rfl, rfl, by show 0 < c; omega, c2, hfresh, b2, b3, b4, b5, b6⟩

/-- Given-ID insertion, summed up. -/
theorem storeInsertWithId_spec [∀ t, TransCmp (cmp t)] {s : Store κ} (h : StoreInv cmp s) (t : Nat) (k : κ) (id : Nat) :
    ((∃ x, (storeInsertWithId cmp s t k id).1 = .error x) ∧
      ∃ c, c < idModulus ∧ (storeInsertWithId cmp s t k id).2 = { s with counter := c }) ∨
    (∃ e, (storeInsertWithId cmp s t k id).1 = .ok e ∧ e.tbl = t ∧ e.key = k ∧ e.id = id % idModulus ∧
      e.id ≠ 0 ∧ (∀ i ∈ s.byId, i.id ≠ e.id) ∧ (∀ i ∈ (s.tables t).ents, cmp t i.key k ≠ .eq) ∧
      StoreInv cmp (storeInsertWithId cmp s t k id).2 ∧
      (∀ x, x ∈ ((storeInsertWithId cmp s t k id).2.tables t).ents ↔ x = e ∨ x ∈ (s.tables t).ents) ∧
      (∀ t', t' ≠ t → (storeInsertWithId cmp s t k id).2.tables t' = s.tables t') ∧
      (∀ x, x ∈ (storeInsertWithId cmp s t k id).2.byId ↔ x = e ∨ x ∈ s.byId)) := by
  unfold storeInsertWithId
  simp only
  cases hi : insertById s (⟨id % idModulus, t, k⟩ : Ent κ) with
  | error x => left; exact ⟨⟨x, rfl⟩, s.counter, h.ctr, rfl⟩
  | ok s1 =>
    simp only
    obtain ⟨h0, l, hl, _⟩ := insertById_ok _ _ _ hi
    have hfresh := (idSplice_some _ _ _ h.idSorted hl).2.2.2.1
    rcases tableInsert_spec cmp h (Nat.mod_lt _ (by decide)) hi with ⟨b1, b2, c', b3, b4⟩ | ⟨b1, b2, b3, b4, b5, b6⟩
    · left
      rw [show tableInsert cmp s1 ⟨id % idModulus, t, k⟩ = (.error .itemAlreadyPresent, (tableInsert cmp s1 ⟨id % idModulus, t, k⟩).2) from Prod.ext b1 rfl]
      exact ⟨⟨_, rfl⟩, c', b3, b4⟩
    · right
      rw [show tableInsert cmp s1 ⟨id % idModulus, t, k⟩ = (.ok (), (tableInsert cmp s1 ⟨id % idModulus, t, k⟩).2) from Prod.ext b1 rfl]
      exact ⟨⟨id % idModulus, t, k⟩, rfl, rfl, rfl, rfl, h0, hfresh, b2, b3, b4, b5, b6⟩

theorem storeStep_inv [∀ t, TransCmp (cmp t)] (s : Store κ) (h : StoreInv cmp s) (op : StoreOp κ) :
    StoreInv cmp (storeStep cmp s op) := by
  cases op with
  | insert t k =>
    rcases storeInsert_spec cmp h t k with ⟨_, _, c, hc, e⟩ | ⟨_, _, c, hc, e⟩ | ⟨e, _, _, _, _, _, _, _, hi, _⟩
    · simp only [storeStep, e]; exact h.setCounter cmp c hc
    · simp only [storeStep, e]; exact h.setCounter cmp c hc
    · exact hi
  | insertWithId t k id =>
    rcases storeInsertWithId_spec cmp h t k id with ⟨_, c, hc, e⟩ | ⟨e, _, _, _, _, _, _, _, hi, _⟩
    · simp only [storeStep, e]; exact h.setCounter cmp c hc
    · exact hi
  | delete t k =>
    simp only [storeStep, tableDelete, tableGet]
    cases hg : getScan (cmp t) k (s.tables t).ents with
    | error x => exact h
    | ok e =>
      have := (getScan_ok (cmp t) k _ (h.sorted t) e).1 hg
      exact (tableDelete1_spec cmp h ((h.mem _ _).1 this.1).1).1
  | deleteById id =>
    simp only [storeStep]
    rcases tableDeleteById_spec s id with ⟨e, hg, he⟩ | ⟨x, _, he⟩
    · rw [he]
      unfold getById at hg
      split at hg
      · cases hg
      · exact (tableDelete1_spec cmp h ((getByIdScan_ok id _ h.idSorted e).1 hg).1).1
    · rw [he]; exact h
  | flush t => exact (tableFlush_spec cmp h t).1
  | filter t keep =>
    simp only [storeStep, tableFilter]
    exact (foldl_delete_spec cmp _ s h (fun e he => ((h.mem _ _).1 (List.mem_filter.1 he).1).1)
      ((h.nodup cmp t).filter _)).1

theorem storeRun_inv [∀ t, TransCmp (cmp t)] (ops : List (StoreOp κ)) : StoreInv cmp (storeRun cmp ops) := by
  unfold storeRun
  suffices ∀ s, StoreInv cmp s → StoreInv cmp (ops.foldl (storeStep cmp) s) from this _ (storeInv_init cmp)
  induction ops with
  | nil => intro s h; exact h
  | cons op rest ih => intro s h; exact ih _ (storeStep_inv cmp s h op)

end WS
