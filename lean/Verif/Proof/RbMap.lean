import Verif.Proof.RbBal
namespace WS.Rb
variable {β : Type}

/-! ### sizes and heights -/

theorem size_toList (t : Tree β) : size t = (toList t).length := by
  induction t with
  | nil => rfl
  | node c l k v r ihl ihr => simp only [size, toList, ihl, ihr, List.length_append, List.length_cons]; omega

theorem Balanced.size_ge {t : Tree β} {n : Nat} (h : Balanced t n) : 2 ^ n ≤ size t + 1 := by
  induction h with
  | nil => simp [size]
  | red _ _ _ _ ih1 ih2 => simp only [size]; omega
  | black _ _ ih1 ih2 => simp only [size, Nat.pow_succ]; omega

theorem Balanced.height_le {t : Tree β} {n : Nat} (h : Balanced t n) :
    height t ≤ 2 * n + 1 ∧ (isRed t = false → height t ≤ 2 * n) := by
  induction h with
  | nil => exact ⟨by simp [height], fun _ => by simp [height]⟩
  | red _ _ h1 h2 ih1 ih2 =>
    refine ⟨?_, fun h => by cases h⟩
    have := ih1.2 h1; have := ih2.2 h2
    simp only [height]; omega
  | black _ _ ih1 ih2 =>
    have := ih1.1; have := ih2.1
    refine ⟨?_, fun _ => ?_⟩ <;> simp only [height] <;> omega

theorem stackSlots_ok {n : Nat} (h : n + 1 < 4294967296) : stackSlots n = some (2 * (n + 1).log2) := by
  unfold stackSlots
  rw [Nat.mod_eq_of_lt h, if_neg (by omega)]

theorem Balanced.le_slots {t : Tree β} {n : Nat} (h : Balanced t n) : 2 * n ≤ 2 * (size t + 1).log2 := by
  have := (Nat.le_log2 (n := size t + 1) (k := n) (by omega)).2 h.size_ge
  omega

/-! ### order -/

variable {cmp : Key → Key → Ordering}

/-- Keys strictly ascending. -/
def Asc (cmp : Key → Key → Ordering) (l : List (Key × β)) : Prop := l.Pairwise (fun a b => cmp a.1 b.1 = .lt)

theorem Asc.distinct [Std.TransCmp cmp] {l : List (Key × β)} (h : Asc cmp l) : l.Pairwise (fun a b => cmp a.1 b.1 ≠ .eq) :=
  h.imp (fun h => by rw [h]; exact fun hc => by cases hc)

theorem ne_eq_symm [Std.TransCmp cmp] {a b : Key} (h : cmp a b ≠ .eq) : cmp b a ≠ .eq := fun hc => h (Std.OrientedCmp.eq_symm hc)

theorem distinct_perm [Std.TransCmp cmp] {l l' : List (Key × β)} (hp : l.Perm l') (h : l.Pairwise (fun a b => cmp a.1 b.1 ≠ .eq)) :
    l'.Pairwise (fun a b => cmp a.1 b.1 ≠ .eq) :=
  (hp.pairwise_iff (fun h => ne_eq_symm h)).1 h

theorem absGet_none_of {l : List (Key × β)} {k : Key} (h : ∀ e ∈ l, cmp k e.1 ≠ .eq) : absGet cmp k l = none := by
  unfold absGet
  rw [List.find?_eq_none.2 (fun e he => by simpa using h e he)]
  rfl

theorem absGet_append {l l' : List (Key × β)} {k : Key} :
    absGet cmp k (l ++ l') = (absGet cmp k l).or (absGet cmp k l') := by
  unfold absGet
  rw [List.find?_append]
  cases List.find? (fun e : Key × β => cmp k e.1 == .eq) l <;> simp

/-- In a list with distinct keys, lookup is membership. -/
theorem absGet_iff [Std.TransCmp cmp] {l : List (Key × β)} {k : Key} {v : β} (hd : l.Pairwise (fun a b => cmp a.1 b.1 ≠ .eq)) :
    absGet cmp k l = some v ↔ ∃ k', cmp k k' = .eq ∧ (k', v) ∈ l := by
  unfold absGet
  constructor
  · intro h
    rw [Option.map_eq_some_iff] at h
    obtain ⟨⟨k', v'⟩, h1, h2⟩ := h
    subst h2
    exact ⟨k', by simpa using List.find?_some h1, List.mem_of_find?_eq_some h1⟩
  · rintro ⟨k', hk, hm⟩
    cases hf : l.find? (fun e => cmp k e.1 == .eq) with
    | none =>
      have := List.find?_eq_none.1 hf _ hm
      simp [hk] at this
    | some e =>
      have he : cmp k e.1 = .eq := by simpa using List.find?_some hf
      have hem := List.mem_of_find?_eq_some hf
      have : e = (k', v) := by
        refine Classical.byContradiction (fun hne => ?_)
        have heq : cmp e.1 k' = .eq := Std.TransCmp.eq_trans (Std.OrientedCmp.eq_symm he) hk
        have hforall : ∀ a ∈ l, ∀ b ∈ l, a ≠ b → cmp a.1 b.1 ≠ .eq := by
          clear hf hem hm
          induction l with
          | nil => intro a ha; cases ha
          | cons x xs ih =>
            obtain ⟨h1, h2⟩ := List.pairwise_cons.1 hd
            intro a ha b hb hab
            rcases List.mem_cons.1 ha with ha' | ha'
            · rcases List.mem_cons.1 hb with hb' | hb'
              · exact absurd (ha'.trans hb'.symm) hab
              · rw [ha']; exact h1 b hb'
            · rcases List.mem_cons.1 hb with hb' | hb'
              · rw [hb']; exact ne_eq_symm (h1 a ha')
              · exact ih h2 a ha' b hb' hab
        exact hforall e hem _ hm hne heq
      rw [this]; rfl

theorem absGet_perm [Std.TransCmp cmp] {l l' : List (Key × β)} (hp : l.Perm l') (hd : l.Pairwise (fun a b => cmp a.1 b.1 ≠ .eq)) (k : Key) :
    absGet cmp k l = absGet cmp k l' := by
  apply Option.ext
  intro v
  rw [absGet_iff hd, absGet_iff (distinct_perm hp hd)]
  constructor
  · rintro ⟨k', h1, h2⟩; exact ⟨k', h1, hp.mem_iff.1 h2⟩
  · rintro ⟨k', h1, h2⟩; exact ⟨k', h1, hp.mem_iff.2 h2⟩

/-- `get` on a tree in ascending order is lookup among its entries. -/
theorem get_eq [Std.TransCmp cmp] (k : Key) (t : Tree β) (h : Asc cmp (toList t)) : get cmp k t = absGet cmp k (toList t) := by
  induction t with
  | nil => rfl
  | node c l k' v r ihl ihr =>
    unfold Asc at h
    rw [toList, List.pairwise_append, List.pairwise_cons] at h
    obtain ⟨h1, ⟨h2, h3⟩, h4⟩ := h
    rw [get, toList, absGet_append]
    cases hc : cmp k k' with
    | lt =>
      dsimp only
      rw [ihl h1]
      have : absGet cmp k ((k', v) :: toList r) = none := absGet_none_of (fun e he => by
        rcases List.mem_cons.1 he with rfl | he
        · rw [hc]; exact fun h => by cases h
        · rw [Std.TransCmp.lt_trans hc (h2 e he)]; exact fun h => by cases h)
      rw [this, Option.or_none]
    | gt =>
      dsimp only
      have hl : absGet cmp k (toList l) = none := absGet_none_of (fun e he => by
        have h5 := h4 e he (k', v) (by simp)
        have h6 : cmp e.1 k = .lt := Std.TransCmp.lt_trans h5 (Std.OrientedCmp.gt_iff_lt.1 hc)
        rw [Std.OrientedCmp.gt_iff_lt.2 h6]; exact fun h => by cases h)
      rw [hl, Option.none_or, ihr h3]
      unfold absGet
      rw [List.find?_cons_of_neg (by simp [hc])]
    | eq =>
      have hl : absGet cmp k (toList l) = none := absGet_none_of (fun e he => by
        have h5 := h4 e he (k', v) (by simp)
        have h6 : cmp e.1 k = .lt := Std.TransCmp.lt_of_lt_of_eq h5 (Std.OrientedCmp.eq_symm hc)
        rw [Std.OrientedCmp.gt_iff_lt.2 h6]; exact fun h => by cases h)
      rw [hl, Option.none_or]
      unfold absGet
      rw [List.find?_cons_of_pos (by simp [hc])]; rfl

theorem Asc.split [Std.TransCmp cmp] {a b c : List (Key × β)} (h : Asc cmp (a ++ b ++ c)) : Asc cmp a ∧ Asc cmp b ∧ Asc cmp c ∧
    (∀ x ∈ a, ∀ y ∈ b, cmp x.1 y.1 = .lt) ∧ (∀ x ∈ a, ∀ y ∈ c, cmp x.1 y.1 = .lt) ∧ (∀ x ∈ b, ∀ y ∈ c, cmp x.1 y.1 = .lt) := by
  unfold Asc at *
  rw [List.pairwise_append, List.pairwise_append] at h
  obtain ⟨⟨h1, h2, h3⟩, h4, h5⟩ := h
  exact ⟨h1, h2, h4, h3, fun x hx y hy => h5 x (by simp [hx]) y hy, fun x hx y hy => h5 x (by simp [hx]) y hy⟩

/-- Where the descent ends. -/
theorem descend_order [Std.TransCmp cmp] (cap : Nat) (k : Key) : ∀ (t : Tree β) (p p' : List (Step β)) (t' : Tree β),
    descend cmp cap k p t = some (p', t') → Asc cmp (pre p ++ toList t ++ post p) →
    (∀ e ∈ pre p, cmp e.1 k = .lt) → (∀ e ∈ post p, cmp k e.1 = .lt) →
    (∀ e ∈ pre p', cmp e.1 k = .lt) ∧ (∀ e ∈ post p', cmp k e.1 = .lt) ∧
    (∀ c l k' v r, t' = .node c l k' v r → cmp k k' = .eq) := by
  intro t
  induction t with
  | nil =>
    intro p p' t' h hs h1 h2
    simp only [descend, Option.some.injEq, Prod.mk.injEq] at h
    obtain ⟨rfl, rfl⟩ := h
    exact ⟨h1, h2, fun _ _ _ _ _ h => by cases h⟩
  | node c l k' v r ihl ihr =>
    intro p p' t' h hs h1 h2
    obtain ⟨_, hst, _, _, _, _⟩ := hs.split
    have hst' := hst
    unfold Asc at hst'
    rw [toList, List.pairwise_append, List.pairwise_cons] at hst'
    obtain ⟨_, ⟨hr, _⟩, hl⟩ := hst'
    rw [descend] at h
    split at h
    · cases h
    · cases hc : cmp k k' with
      | lt =>
        rw [hc] at h
        refine ihl _ _ _ h ?_ ?_ ?_
        · simpa [pre, post, toList] using hs
        · simpa [pre] using h1
        · intro e he
          simp only [post, if_true, List.mem_append, List.mem_cons] at he
          rcases he with (rfl | he) | he
          · exact hc
          · exact Std.TransCmp.lt_trans hc (hr e he)
          · exact h2 e he
      | gt =>
        have hg := Std.OrientedCmp.gt_iff_lt.1 hc
        rw [hc] at h
        refine ihr _ _ _ h ?_ ?_ ?_
        · simpa [pre, post, toList] using hs
        · intro e he
          simp only [pre, Bool.false_eq_true, if_false, List.mem_append, List.mem_singleton] at he
          rcases he with he | he | rfl
          · exact h1 e he
          · exact Std.TransCmp.lt_trans (hl e he (k', v) (by simp)) hg
          · exact hg
        · simpa [post] using h2
      | eq =>
        rw [hc] at h
        simp only [Option.some.injEq, Prod.mk.injEq] at h
        obtain ⟨rfl, rfl⟩ := h
        refine ⟨h1, h2, ?_⟩
        intro _ _ _ _ _ he
        simp only [Tree.node.injEq] at he
        rw [← he.2.2.1]; exact hc

theorem has_perm {l l' : List (Key × β)} (hp : l.Perm l') (k : Key) : has cmp k l = has cmp k l' := by
  unfold has
  rw [Bool.eq_iff_iff, List.any_eq_true, List.any_eq_true]
  constructor
  · rintro ⟨e, h1, h2⟩; exact ⟨e, hp.mem_iff.1 h1, h2⟩
  · rintro ⟨e, h1, h2⟩; exact ⟨e, hp.mem_iff.2 h1, h2⟩

theorem ltgt_ne [Std.TransCmp cmp] {a b : Key} (h : cmp a b = .lt) : cmp b a ≠ .eq := by
  rw [Std.OrientedCmp.gt_iff_lt.2 h]; exact fun h => by cases h

theorem filter_erase [Std.TransCmp cmp] (k k' : Key) (v : β) (hk : cmp k k' = .eq) : ∀ (l : List (Key × β)),
    l.Pairwise (fun a b => cmp a.1 b.1 ≠ .eq) → (k', v) ∈ l →
    (l.filter (fun e => !(cmp k e.1 == .eq))).map (·.1) = (l.map (·.1)).erase k' := by
  intro l
  induction l with
  | nil => intro _ h; cases h
  | cons e l ih =>
    intro hd hm
    obtain ⟨h1, h2⟩ := List.pairwise_cons.1 hd
    by_cases he : e = (k', v)
    · subst he
      rw [List.filter_cons_of_neg (by simp [hk]), List.map_cons, List.erase_cons_head]
      congr 1
      apply List.filter_eq_self.2
      intro x hx
      have := h1 x hx
      have : cmp k x.1 ≠ .eq := fun hc => this (Std.TransCmp.eq_trans (Std.OrientedCmp.eq_symm hk) hc)
      simpa using this
    · have hm' : (k', v) ∈ l := by
        rcases List.mem_cons.1 hm with h | h
        · exact absurd h.symm he
        · exact h
      have hne := h1 _ hm'
      have hke : cmp k e.1 ≠ .eq := fun hc => hne (Std.TransCmp.eq_trans (Std.OrientedCmp.eq_symm hc) hk)
      have hkk : e.1 ≠ k' := by
        intro hc
        exact hke (by rw [hc]; exact hk)
      rw [List.filter_cons_of_pos (by simpa using hke), List.map_cons, List.map_cons, List.erase_cons_tail (by simpa using hkk), ih h2 hm']

/-! ### the invariant -/

/-- Dictionary `d` holds the entries `l` (in order of insertion). -/
structure Rep (cmp : Key → Key → Ordering) (d : Dict β) (l : List (Key × β)) : Prop where
  rb : RedBlack d.root
  asc : Asc cmp (toList d.root)
  perm : (toList d.root).Perm l
  size : d.size = l.length
  order : ∀ o, d.order = some o → o = l.map (·.1)

theorem Rep.distinct [Std.TransCmp cmp] {d : Dict β} {l : List (Key × β)} (h : Rep cmp d l) : l.Pairwise (fun a b => cmp a.1 b.1 ≠ .eq) :=
  distinct_perm h.perm h.asc.distinct

theorem Rep.treeSize {d : Dict β} {l : List (Key × β)} (h : Rep cmp d l) : Rb.size d.root = d.size := by
  rw [size_toList, h.perm.length_eq, h.size]

theorem Rep.slots {d : Dict β} {l : List (Key × β)} (h : Rep cmp d l) (hn : d.size + 1 < 4294967296) :
    ∃ N cap, Balanced d.root N ∧ stackSlots d.size = some cap ∧ 2 * N ≤ cap := by
  obtain ⟨⟨N, hN⟩, hr⟩ := h.rb
  refine ⟨N, _, hN, stackSlots_ok hn, ?_⟩
  have := hN.le_slots
  rw [h.treeSize] at this
  exact this

theorem rep_empty (ordered : Bool) : Rep cmp ({ order := if ordered then some [] else none } : Dict β) [] := by
  refine ⟨⟨⟨0, .nil⟩, rfl⟩, List.Pairwise.nil, List.Perm.nil, rfl, ?_⟩
  intro o ho
  cases ordered <;> simp at ho
  exact ho

theorem rep_descend [Std.TransCmp cmp] {d : Dict β} {l : List (Key × β)} (h : Rep cmp d l) {N cap : Nat} (hN : Balanced d.root N) (hcap : 2 * N ≤ cap)
    (k : Key) : ∃ p t m, descend cmp cap k [] d.root = some (p, t) ∧ PathBal p m N ∧ Balanced t m ∧
      (isRed t = true → headRed p = false ∧ p ≠ []) ∧ toList d.root = pre p ++ toList t ++ post p ∧
      (∀ e ∈ pre p, cmp e.1 k = .lt) ∧ (∀ e ∈ post p, cmp k e.1 = .lt) ∧
      (∀ c l k' v r, t = .node c l k' v r → cmp k k' = .eq) := by
  obtain ⟨p, t, m, h1, h2, h3, h4, h5⟩ := descend_spec cmp cap k d.root [] (.nil (N := N)) hN
    (fun hr => by rw [h.rb.2] at hr; cases hr) hcap
  have h6 : toList d.root = pre p ++ toList t ++ post p := by rw [← toList_zip, h5]; rfl
  obtain ⟨h7, h8, h9⟩ := descend_order cap k d.root [] p t h1 (by simpa [pre, post] using h.asc)
    (fun e he => by cases he) (fun e he => by cases he)
  exact ⟨p, t, m, h1, h2, h3, h4, h6, h7, h8, h9⟩

/-- Get-or-add. -/
theorem getOrAdd_rep [Std.TransCmp cmp] {d : Dict β} {l : List (Key × β)} (h : Rep cmp d l) (hn : d.size + 1 < 4294967296) (new : β)
    (alloc : Bool) (k : Key) :
    ∃ d' res, getOrAdd cmp new alloc k d = some (d', res) ∧ Rep cmp d' (absStep cmp new l (.add k alloc)) ∧
      (∀ v, res = .existing v ↔ absGet cmp k l = some v) ∧ (res = .fresh ↔ absGet cmp k l = none ∧ alloc = true) ∧
      (d'.order.isSome = d.order.isSome) := by
  obtain ⟨N, cap, hN, hslots, hcap⟩ := h.slots hn
  obtain ⟨p, t, m, h1, h2, h3, h4, h6, h7, h8, h9⟩ := rep_descend h hN (cap := cap + 1) (by omega) k
  unfold getOrAdd
  rw [hslots]
  dsimp only
  rw [h1]
  have hget : absGet cmp k l = absGet cmp k (toList d.root) := (absGet_perm h.perm h.asc.distinct k).symm
  cases t with
  | node c tl k' v tr =>
    have heq := h9 _ _ _ _ _ rfl
    have hmem : (k', v) ∈ toList d.root := by rw [h6]; simp [toList]
    have hg : absGet cmp k l = some v := by rw [hget]; exact (absGet_iff h.asc.distinct).2 ⟨k', heq, hmem⟩
    have hhas : has cmp k l = true := by
      rw [← has_perm h.perm]; unfold has
      rw [List.any_eq_true]
      exact ⟨_, hmem, by simp [heq]⟩
    refine ⟨d, _, rfl, ?_, ?_, ?_, rfl⟩
    · simp only [absStep, hhas, Bool.true_or, if_true]; exact h
    · intro w; rw [hg]; constructor
      · intro he; cases he; rfl
      · intro he; cases he; rfl
    · rw [hg]; constructor
      · intro he; cases he
      · intro he; cases he.1
  | nil =>
    have hnone : ∀ e ∈ toList d.root, cmp k e.1 ≠ .eq := by
      intro e he
      rw [h6] at he
      simp only [toList, List.append_nil, List.mem_append] at he
      rcases he with he | he
      · exact ltgt_ne (h7 e he)
      · rw [h8 e he]; exact fun h => by cases h
    have hg : absGet cmp k l = none := by rw [hget]; exact absGet_none_of hnone
    have hhas : has cmp k l = false := by
      rw [← has_perm h.perm]; unfold has
      rw [Bool.eq_false_iff]
      intro hc
      rw [List.any_eq_true] at hc
      obtain ⟨e, he1, he2⟩ := hc
      exact hnone e he1 (by simpa using he2)
    cases alloc with
    | false =>
      refine ⟨d, .null, rfl, ?_, ?_, ?_, rfl⟩
      · simp only [absStep, Bool.not_false, Bool.or_true, if_true]; exact h
      · intro v; rw [hg]; constructor <;> intro he <;> cases he
      · constructor
        · intro he; cases he
        · rintro ⟨_, he⟩; cases he
    | true =>
      dsimp only
      rw [if_pos rfl]
      cases h3
      have hlen := h2.len.1
      rw [if_neg (by omega)]
      obtain ⟨u, hu1, hu2⟩ := fixInsert_bal p (k := k) (v := new) h2 .nil .nil rfl rfl
      rw [hu1]
      have hul := fixInsert_toList _ _ _ hu1
      refine ⟨_, _, rfl, ?_, ?_, ?_, by cases d.order <;> rfl⟩
      · simp only [absStep, hhas, Bool.not_true, Bool.or_false, Bool.false_eq_true, if_false]
        refine ⟨hu2, ?_, ?_, ?_, ?_⟩
        · show Asc cmp (toList u)
          rw [hul]
          have hs := h.asc
          rw [h6] at hs
          obtain ⟨a1, _, a3, _, a5, _⟩ := hs.split
          unfold Asc at *
          simp only [toList, List.nil_append, List.append_assoc, List.cons_append]
          rw [List.pairwise_append, List.pairwise_cons]
          refine ⟨a1, ⟨fun e he => h8 e he, a3⟩, fun a ha b hb => ?_⟩
          rcases List.mem_cons.1 hb with rfl | hb
          · exact h7 a ha
          · exact a5 a ha b hb
        · show (toList u).Perm _
          rw [hul]
          have hp := h.perm
          rw [h6] at hp
          simp only [toList, List.append_nil, List.nil_append] at hp ⊢
          refine List.Perm.trans ?_ (hp.append_right _)
          rw [List.append_assoc, List.append_assoc]
          exact List.Perm.append_left _ List.perm_append_comm
        · show d.size + 1 = _
          rw [List.length_append, h.size]; rfl
        · intro o ho
          dsimp only at ho
          rw [Option.map_eq_some_iff] at ho
          obtain ⟨o', ho', rfl⟩ := ho
          rw [h.order _ ho', List.map_append]; rfl
      · intro v; rw [hg]; constructor <;> intro he <;> cases he
      · exact ⟨fun _ => ⟨hg, rfl⟩, fun _ => rfl⟩

/-- Removal. -/
theorem remove_rep [Std.TransCmp cmp] {d : Dict β} {l : List (Key × β)} (h : Rep cmp d l) (hn : d.size + 1 < 4294967296) (new : β) (k : Key) :
    ∃ d' res, remove cmp k d = some (d', res) ∧ Rep cmp d' (absStep cmp new l (.remove k)) ∧
      (res = true ↔ ∃ v, absGet cmp k l = some v) ∧ (d'.order.isSome = d.order.isSome) := by
  have hget : absGet cmp k l = absGet cmp k (toList d.root) := (absGet_perm h.perm h.asc.distinct k).symm
  unfold remove
  have hfalse : (∀ e ∈ toList d.root, cmp k e.1 ≠ .eq) → ∃ d' res, some (d, false) = some (d', res) ∧
      Rep cmp d' (absStep cmp new l (.remove k)) ∧ (res = true ↔ ∃ v, absGet cmp k l = some v) ∧ (d'.order.isSome = d.order.isSome) := by
    intro hnone
    refine ⟨d, false, rfl, ?_, ?_, rfl⟩
    · have : absStep cmp new l (.remove k) = l := by
        apply List.filter_eq_self.2
        intro e he
        simpa using hnone e (h.perm.mem_iff.2 he)
      rw [this]; exact h
    · rw [hget, absGet_none_of hnone]
      constructor
      · intro hc; cases hc
      · rintro ⟨v, hv⟩; cases hv
  by_cases hnil : d.root.isNil = true
  · rw [if_pos hnil]
    have : d.root = .nil := by
      cases hr : d.root with
      | nil => rfl
      | node => rw [hr] at hnil; cases hnil
    exact hfalse (fun e he => by rw [this] at he; cases he)
  · rw [if_neg hnil]
    obtain ⟨N, cap, hN, hslots, hcap⟩ := h.slots hn
    obtain ⟨p, t, m, h1, h2, h3, h4, h6, h7, h8, h9⟩ := rep_descend h hN hcap k
    rw [hslots]
    dsimp only
    rw [h1]
    cases t with
    | nil =>
      dsimp only
      apply hfalse
      intro e he
      rw [h6] at he
      simp only [toList, List.append_nil, List.mem_append] at he
      rcases he with he | he
      · exact ltgt_ne (h7 e he)
      · rw [h8 e he]; exact fun h => by cases h
    | node c tl k' v tr =>
      have heq := h9 _ _ _ _ _ rfl
      have hmem : (k', v) ∈ toList d.root := by rw [h6]; simp [toList]
      have hg : absGet cmp k l = some v := by rw [hget]; exact (absGet_iff h.asc.distinct).2 ⟨k', heq, hmem⟩
      obtain ⟨p', child, col, m', hd1, hd2, hd3, hd4⟩ := disconnect_spec cap h2 h3 (fun hc => h4 ((isRed_node ..).2 hc)) hcap
      have hdl := disconnect_toList hd1
      dsimp only
      rw [hd1]
      dsimp only
      have hroot : ∃ u, (if col = .black then fixRemove cap p' child else some (zip p' child)) = some u ∧ RedBlack u ∧
          toList u = pre p ++ (toList tl ++ toList tr) ++ post p := by
        by_cases hc : col = .black
        · rw [if_pos hc]
          obtain ⟨u, hu1, hu2⟩ := fixRemove_bal cap _ p' child (Nat.le_refl _) (hd3 hc) hd2 hcap
          exact ⟨u, hu1, hu2, by rw [fixRemove_toList cap _ _ _ _ (Nat.le_refl _) hu1, hdl]⟩
        · rw [if_neg hc]
          have hc' : col = .red := by cases col with
            | red => rfl
            | black => exact absurd rfl hc
          obtain ⟨hp', hcb⟩ := hd4 hc'
          exact ⟨_, rfl, redBlack_zip hp' hd2 hcb, by rw [toList_zip, hdl]⟩
      obtain ⟨u, hu1, hu2, hu3⟩ := hroot
      rw [hu1]
      have hfilter : (toList d.root).filter (fun e => !(cmp k e.1 == .eq)) = toList u := by
        have hs := h.asc.distinct
        rw [h6] at hs ⊢
        rw [hu3]
        simp only [toList, List.append_assoc, List.cons_append] at hs ⊢
        rw [List.pairwise_append, List.pairwise_append, List.pairwise_cons] at hs
        obtain ⟨_, ⟨_, ⟨hs1, _⟩, hs2⟩, _⟩ := hs
        have keep : ∀ (x : List (Key × β)), (∀ e ∈ x, cmp k e.1 ≠ .eq) → x.filter (fun e => !(cmp k e.1 == .eq)) = x := by
          intro x hx
          exact List.filter_eq_self.2 (fun e he => by simpa using hx e he)
        rw [List.filter_append, List.filter_append, List.filter_cons_of_neg (by simp [heq]), List.filter_append]
        rw [keep (pre p) (fun e he => ltgt_ne (h7 e he)), keep (post p) (fun e he => by rw [h8 e he]; exact fun h => by cases h)]
        rw [keep (toList tl) (fun e he hc => hs2 e he (k', v) (by simp) (Std.TransCmp.eq_trans (Std.OrientedCmp.eq_symm hc) heq))]
        rw [keep (toList tr) (fun e he hc => hs1 e (by simp [he]) (Std.TransCmp.eq_trans (Std.OrientedCmp.eq_symm heq) hc))]
      have hlen : (toList u).length + 1 = (toList d.root).length := by
        rw [hu3, h6]; simp only [toList, List.length_append, List.length_cons]; omega
      have hperm : (toList u).Perm (absStep cmp new l (.remove k)) := by
        rw [← hfilter]
        exact h.perm.filter _
      refine ⟨_, _, rfl, ⟨hu2, ?_, hperm, ?_, ?_⟩, ?_, by cases d.order <;> rfl⟩
      · show Asc cmp (toList u)
        rw [← hfilter]
        exact List.Pairwise.filter _ h.asc
      · show d.size - 1 = _
        rw [← hperm.length_eq, h.size, ← h.perm.length_eq]
        omega
      · intro o ho
        dsimp only at ho
        rw [Option.map_eq_some_iff] at ho
        obtain ⟨o', ho', rfl⟩ := ho
        rw [h.order _ ho']
        exact (filter_erase k k' v heq l h.distinct (h.perm.mem_iff.1 hmem)).symm
      · rw [hg]
        exact ⟨fun _ => ⟨v, rfl⟩, fun _ => rfl⟩

theorem update_spec [Std.TransCmp cmp] (k : Key) (v : β) (t : Tree β) (h : Asc cmp (toList t)) :
    toList (update cmp k v t) = (toList t).map (fun e => if cmp k e.1 == .eq then (e.1, v) else e) ∧
    (∀ n, Balanced t n → Balanced (update cmp k v t) n) ∧ isRed (update cmp k v t) = isRed t := by
  induction t with
  | nil => exact ⟨rfl, fun n h => h, rfl⟩
  | node c l k' v' r ihl ihr =>
    unfold Asc at h
    rw [toList, List.pairwise_append, List.pairwise_cons] at h
    obtain ⟨h1, ⟨h2, h3⟩, h4⟩ := h
    have hgt : ∀ e ∈ toList l, cmp e.1 k' = .lt := fun e he => h4 e he (k', v') (by simp)
    have keep : ∀ (x : List (Key × β)), (∀ e ∈ x, cmp k e.1 ≠ .eq) → x.map (fun e => if cmp k e.1 == .eq then (e.1, v) else e) = x := by
      intro x hx
      conv => rhs; rw [← List.map_id x]
      apply List.map_congr_left
      intro e he
      simp [hx e he]
    have bal : ∀ (l' r' : Tree β), (∀ n, Balanced l n → Balanced l' n) → (∀ n, Balanced r n → Balanced r' n) → isRed l' = isRed l → isRed r' = isRed r →
        ∀ (w : β) (n : Nat), Balanced (.node c l k' v' r) n → Balanced (.node c l' k' w r') n := by
      intro l' r' hl hr hlr hrr w n hb
      cases hb with
      | red a b c d => exact .red (hl _ a) (hr _ b) (hlr ▸ c) (hrr ▸ d)
      | black a b => exact .black (hl _ a) (hr _ b)
    rw [update, toList, List.map_append, List.map_cons]
    cases hc : cmp k k' with
    | lt =>
      obtain ⟨i1, i2, i3⟩ := ihl h1
      refine ⟨?_, bal _ _ i2 (fun _ h => h) i3 rfl _, by cases c <;> rfl⟩
      dsimp only
      rw [toList, i1, keep (toList r) (fun e he => by rw [Std.TransCmp.lt_trans hc (h2 e he)]; exact fun h => by cases h)]
      simp
    | gt =>
      have hg := Std.OrientedCmp.gt_iff_lt.1 hc
      obtain ⟨i1, i2, i3⟩ := ihr h3
      refine ⟨?_, bal _ _ (fun _ h => h) i2 rfl i3 _, by cases c <;> rfl⟩
      dsimp only
      rw [toList, i1, keep (toList l) (fun e he => ltgt_ne (Std.TransCmp.lt_trans (hgt e he) hg))]
      simp
    | eq =>
      refine ⟨?_, bal _ _ (fun _ h => h) (fun _ h => h) rfl rfl _, by cases c <;> rfl⟩
      dsimp only
      rw [toList, keep (toList l) (fun e he => ltgt_ne (Std.TransCmp.lt_of_lt_of_eq (hgt e he) (Std.OrientedCmp.eq_symm hc))),
        keep (toList r) (fun e he => by rw [Std.TransCmp.lt_of_eq_of_lt hc (h2 e he)]; exact fun h => by cases h)]
      simp

theorem update_rep [Std.TransCmp cmp] {d : Dict β} {l : List (Key × β)} (h : Rep cmp d l) (new : β) (k : Key) (v : β) :
    Rep cmp { d with root := update cmp k v d.root } (absStep cmp new l (.set k v)) := by
  obtain ⟨h1, h2, h3⟩ := update_spec k v d.root h.asc
  have hfst : ∀ x : List (Key × β), (x.map (fun e => if cmp k e.1 == .eq then (e.1, v) else e)).map (·.1) = x.map (·.1) := by
    intro x
    rw [List.map_map]
    apply List.map_congr_left
    intro e _
    simp only [Function.comp]
    split <;> rfl
  refine ⟨⟨h.rb.1.imp (fun n hn => h2 n hn), by rw [h3]; exact h.rb.2⟩, ?_, ?_, ?_, ?_⟩
  · show Asc cmp (toList (update cmp k v d.root))
    rw [h1]
    unfold Asc
    rw [List.pairwise_map]
    refine h.asc.imp ?_
    intro a b hab
    have e1 : ∀ e : Key × β, (if cmp k e.1 == .eq then (e.1, v) else e).1 = e.1 := fun e => by split <;> rfl
    rw [e1, e1]; exact hab
  · show (toList (update cmp k v d.root)).Perm _
    rw [h1]
    exact h.perm.map _
  · show d.size = _
    rw [h.size]; simp [absStep]
  · intro o ho
    rw [h.order o ho]
    exact (hfst l).symm

/-! ### walking -/

def stackList : List (Frame β) → List (Key × β)
  | [] => []
  | f :: st => (f.1, f.2.1) :: (toList f.2.2 ++ stackList st)

def StackOK (H : Nat) : List (Frame β) → Prop
  | [] => True
  | f :: st => st.length + 1 + height f.2.2 ≤ H ∧ StackOK H st

theorem leftPath_spec {H cap : Nat} (hcap : H ≤ cap) (t : Tree β) : ∀ st : List (Frame β), StackOK H st → st.length + height t ≤ H →
    ∃ st', leftPath cap st t = some st' ∧ StackOK H st' ∧ stackList st' = toList t ++ stackList st := by
  induction t with
  | nil => intro st h _; exact ⟨st, rfl, h, rfl⟩
  | node c l k v r ihl _ =>
    intro st hok hlen
    simp only [height] at hlen
    rw [leftPath, if_neg (by omega)]
    have hm := Nat.le_max_left (height l) (height r)
    have hm' := Nat.le_max_right (height l) (height r)
    obtain ⟨st', h1, h2, h3⟩ := ihl ((k, v, r) :: st) ⟨by dsimp only; omega, hok⟩ (by simp only [List.length_cons]; omega)
    refine ⟨st', h1, h2, ?_⟩
    rw [h3]
    simp [stackList, toList]

theorem walkLoop_spec {σ : Type} {H cap : Nat} (hcap : H ≤ cap) (visit : σ → Key → β → Except Int σ) : ∀ (n : Nat) (st : List (Frame β)) (acc : σ),
    stackSize st ≤ n → StackOK H st → walkLoop cap visit st acc = some ((stackList st).foldlM (fun a e => visit a e.1 e.2) acc) := by
  intro n
  induction n with
  | zero =>
    intro st acc hn hok
    cases st with
    | nil => rw [walkLoop]; rfl
    | cons f st => simp only [stackSize] at hn; omega
  | succ n ih =>
    intro st acc hn hok
    cases st with
    | nil => rw [walkLoop]; rfl
    | cons f st =>
      obtain ⟨k, v, r⟩ := f
      rw [walkLoop]
      simp only [stackList, List.foldlM_cons]
      cases hv : visit acc k v with
      | error e => rfl
      | ok acc' =>
        obtain ⟨hb, hok'⟩ := hok
        obtain ⟨st', h1, h2, h3⟩ := leftPath_spec hcap r st hok' (by dsimp only at hb; omega)
        dsimp only
        have hsz := leftPath_size cap r st st' h1
        simp only [stackSize] at hn
        split
        · rename_i hx; rw [h1] at hx; cases hx
        · rename_i st2 hx
          rw [h1] at hx
          cases hx
          rw [ih st' acc' (by omega) h2, h3]
          rfl

theorem keysLoop_spec {H cap : Nat} (hcap : H ≤ cap) : ∀ (room : Nat) (st : List (Frame β)),
    StackOK H st → keysLoop cap room st = some (((stackList st).map (·.1)).take room) := by
  intro room
  induction room with
  | zero => intro st _; rw [keysLoop]; simp
  | succ room ih =>
    intro st hok
    cases st with
    | nil => rw [keysLoop] <;> simp [stackList]
    | cons f st =>
      obtain ⟨k, v, r⟩ := f
      obtain ⟨hb, hok'⟩ := hok
      obtain ⟨st', h1, h2, h3⟩ := leftPath_spec hcap r st hok' (by dsimp only at hb; omega)
      rw [keysLoop, h1]
      dsimp only
      rw [ih st' h2, h3]
      simp [stackList]

end WS.Rb
