import Verif.Proof.DomDump2
/-
Writing values, part 3: arrays and dictionaries.
-/
namespace WS.Dom
open WS WS.Sax WS.Spec.Json WS.Spec.Dom WS.JNum WS.Props

variable {print : BitVec 64 → List Byte} {conv : List Byte → BitVec 64} {p : Params} {pol : DupKey} {o : Bool}

theorem first_out' (p : Params) (first : Bool) (level : Nat) : ∃ ind ps, ps.flatten = ind ∧ Spec.Json.WS ind ∧ (first = false → ind = []) ∧
    ∀ {σ : Type} (w : Write σ), Emits w (if first then dumpIndent w p level else nop) ps := by
  cases first
  · exact ⟨[], [], rfl, ws_nil, fun _ => rfl, fun w => by simp only [Bool.false_eq_true, if_false]; exact emits_nop⟩
  · obtain ⟨i, ps, h1, h2, h3⟩ := indent_out p level
    exact ⟨i, ps, h1, h2, fun h => (by cases h), fun w => by simp only [if_true]; exact h3 w⟩

theorem back_elements : ∀ xs : List V, (∀ v ∈ xs, Back print conv p pol o v) →
    ∃ ts vs, ReadsAll (toDouble conv) pol o ts vs ∧ SameAll p.preferOrder o xs vs ∧ allTame ts ∧ (xs = [] → ts = []) ∧
      ∀ level, ∃ ps, (xs = [] → ps = []) ∧
        (∀ {σ : Type} (w : Write σ), Emits w (dumpElements w p (dumpAll (dumpDouble print) w p level xs)) ps) ∧
        (xs ≠ [] → ∀ w1 w2, Spec.Json.WS w1 → Spec.Json.WS w2 → ∀ cfg d, Fits cfg d ps.flatten.length →
          Elements cfg d (w1 ++ ps.flatten ++ w2) (Spec.Dom.elements ts))
  | [], _ => ⟨[], [], .nil, .nil, trivial, fun _ => rfl, fun level => ⟨[], fun _ => rfl, fun w => emits_nop, fun h => absurd rfl h⟩⟩
  | v :: rest, h => by
    obtain ⟨t, v', hw, ht, hr, hs⟩ := h v List.mem_cons_self
    obtain ⟨ts, vs, ih1, ih2, ih3, ih4, ih5⟩ := back_elements rest (fun x hx => h x (List.mem_cons_of_mem _ hx))
    obtain ⟨nl, psn, n1, n2, n3⟩ := newline_out p
    refine ⟨t :: ts, v' :: vs, .cons hr ih1, .cons hs ih2, ⟨ht, ih3⟩, fun h => (by cases h), fun level => ?_⟩
    obtain ⟨ws, text, ps, g1, g2, _, g3, g4⟩ := hw true level
    obtain ⟨psr, r0, r1, r2⟩ := ih5 level
    cases rest with
    | nil =>
      refine ⟨ps ++ psn, fun h => (by cases h), fun w => ?_, fun _ w1 w2 hw1 hw2 cfg d hf => ?_⟩
      · simp only [dumpAll, dumpElements]
        exact emits_seq (g4 w) (n3 w)
      · rw [List.flatten_append, g1, n1] at hf ⊢
        have e1 : w1 ++ (ws ++ text ++ nl) ++ w2 = (w1 ++ ws) ++ text ++ (nl ++ w2) := by simp only [List.append_assoc]
        rw [e1, ih4 rfl]
        simp only [Spec.Dom.elements, List.append_nil]
        exact .one (ws_append hw1 g2) (g3 cfg d (fits_le hf (by simp; omega) (by simp; omega))) (ws_append n2 hw2)
    | cons y ys =>
      refine ⟨ps ++ ([[0x2c#8]] ++ (psn ++ psr)), fun h => (by cases h), fun w => ?_, fun _ w1 w2 hw1 hw2 cfg d hf => ?_⟩
      · have := r1 w
        simp only [dumpAll] at this ⊢
        rw [dumpElements]
        · exact emits_seq (g4 w) (emits_seq (emits_write _) (emits_seq (n3 w) this))
        · intro h; cases h
      · have e0 : (ps ++ ([[0x2c#8]] ++ (psn ++ psr))).flatten = ws ++ text ++ ([ch ','] ++ (nl ++ psr.flatten)) := by
          rw [List.flatten_append, List.flatten_append, List.flatten_append, g1, n1]; rfl
        rw [e0] at hf ⊢
        have e1 : w1 ++ (ws ++ text ++ ([ch ','] ++ (nl ++ psr.flatten))) ++ w2 =
            (w1 ++ ws) ++ text ++ [] ++ [ch ','] ++ (nl ++ psr.flatten ++ w2) := by simp only [List.append_assoc, List.append_nil, List.nil_append]
        rw [e1, Spec.Dom.elements]
        refine elements_cons (ws_append hw1 g2) (g3 cfg d (fits_le hf (by simp; omega) (by simp; omega))) ws_nil ?_
        exact r2 (by simp) nl w2 n2 hw2 cfg d (fits_le hf (by simp; omega) (by simp; omega))

theorem back_array {xs : List V} (h : ∀ v ∈ xs, Back print conv p pol o v) : Back print conv p pol o (.array xs) := by
  obtain ⟨ts, vs, h1, h2, h3, h4, h5⟩ := back_elements xs h
  refine ⟨.arr ts, .array vs, fun first level => ?_, h3, .arr h1, .array h2⟩
  obtain ⟨ws, psf, f1, f2, f3, f4⟩ := first_out' p first level
  obtain ⟨nl, psn, n1, n2, n3⟩ := newline_out p
  obtain ⟨ind, psi, i1, i2, i3⟩ := indent_out p level
  obtain ⟨ps, e0, e1, e2⟩ := h5 (level + 1)
  refine ⟨ws, ch '[' :: (nl ++ ps.flatten ++ ind) ++ [ch ']'], psf ++ ([[0x5b#8]] ++ (psn ++ (ps ++ (psi ++ [[0x5d#8]])))), ?_, f2, f3, fun cfg d hf => ?_, fun w => ?_⟩
  · simp only [List.flatten_append, f1, n1, i1, List.flatten_cons, List.flatten_nil, List.append_assoc, List.cons_append, List.nil_append]
    rfl
  · have hn : Within cfg.maxNesting (d + 1) := within_le hf.2.2.2 (by simp)
    by_cases hx : xs = []
    · rw [e0 hx, h4 hx]
      simp only [List.flatten_nil, List.append_nil]
      exact .emptyArray hn (ws_append n2 i2)
    · simp only [T.events]
      exact .array hn (e2 hx nl ind n2 i2 cfg (d + 1) (fits_le hf (by simp; omega) (by simp; omega)))
  · rw [dump]
    exact emits_seq (f4 w) (emits_seq (emits_write _) (emits_seq (n3 w) (emits_seq (e1 w) (emits_seq (i3 w) (emits_write _)))))

/-! ### Dictionaries -/

theorem dumpValues_map {σ : Type} (fmt : BitVec 64 → Option (List Byte)) (w : Write σ) (level : Nat) : ∀ es : List (List Byte × V),
    dumpValues fmt w p level es = es.map fun e => (e.1, dump fmt w p false level e.2)
  | [] => rfl
  | (k, v) :: es => by rw [dumpValues, dumpValues_map fmt w level es]; rfl

theorem insertSorted_map {β γ : Type} (f : β → γ) (e : List Byte × β) : ∀ l : List (List Byte × β),
    insertSorted (e.1, f e.2) (l.map fun x => (x.1, f x.2)) = (insertSorted e l).map fun x => (x.1, f x.2)
  | [] => rfl
  | x :: l => by
    simp only [List.map_cons, insertSorted]
    split
    · rfl
    · rw [List.map_cons, insertSorted_map f e l]

theorem sortEntries_map {β γ : Type} (f : β → γ) : ∀ l : List (List Byte × β),
    sortEntries (l.map fun x => (x.1, f x.2)) = (sortEntries l).map fun x => (x.1, f x.2)
  | [] => rfl
  | x :: l => by
    have := sortEntries_map f l
    simp only [sortEntries] at this
    simp only [sortEntries, List.map_cons, List.foldr_cons, this]
    exact insertSorted_map f x _

theorem insertSorted_perm {β : Type} (e : List Byte × β) : ∀ l : List (List Byte × β), (insertSorted e l).Perm (e :: l)
  | [] => List.Perm.refl _
  | x :: l => by
    rw [insertSorted]
    split
    · exact List.Perm.refl _
    · exact ((insertSorted_perm e l).cons x).trans (List.Perm.swap e x l)

theorem sortEntries_perm {β : Type} : ∀ l : List (List Byte × β), (sortEntries l).Perm l
  | [] => List.Perm.refl _
  | x :: l => (insertSorted_perm x _).trans ((sortEntries_perm l).cons x)

theorem less_of_not {a b : List Byte} (h : ¬ Rb.defaultCmp a b = .lt) (hne : a ≠ b) : b.map (·.toNat) < a.map (·.toNat) := by
  have h1 : Rb.defaultCmp a b = .gt := by
    rcases hc : Rb.defaultCmp a b with _ | _ | _
    · exact absurd hc h
    · exact absurd ((C50_default_keys_equal a b).1 hc) hne
    · rfl
  refine (C50_default_order b a).1 ?_
  have := Std.OrientedCmp.eq_swap (cmp := Rb.defaultCmp) (a := b) (b := a)
  rw [h1] at this
  exact this

theorem insertSorted_asc {β : Type} (e : List Byte × β) : ∀ l : List (List Byte × β), Ascending l → e.1 ∉ l.map (·.1) → Ascending (insertSorted e l)
  | [], _, _ => List.pairwise_singleton _ _
  | x :: l, h, hn => by
    have hx := List.pairwise_cons.1 h
    rw [insertSorted]
    split
    · rename_i hlt
      have hlt' := (C50_default_order e.1 x.1).1 hlt
      refine List.pairwise_cons.2 ⟨fun y hy => ?_, h⟩
      rcases List.mem_cons.1 hy with rfl | hy
      · exact hlt'
      · exact List.lt_trans hlt' (hx.1 y hy)
    · rename_i hlt
      refine List.pairwise_cons.2 ⟨fun y hy => ?_, insertSorted_asc e l hx.2 (fun h => hn (by rw [List.map_cons]; exact List.mem_cons_of_mem _ h))⟩
      rcases List.mem_cons.1 ((insertSorted_perm e l).mem_iff.1 hy) with rfl | hy
      · exact less_of_not hlt (fun hc => hn (by rw [List.map_cons, hc]; exact List.mem_cons_self))
      · exact hx.1 y hy

theorem sortEntries_asc {β : Type} : ∀ l : List (List Byte × β), (l.map (·.1)).Nodup → Ascending (sortEntries l)
  | [], _ => List.Pairwise.nil
  | x :: l, h => by
    rw [List.map_cons, List.nodup_cons] at h
    refine insertSorted_asc x _ (sortEntries_asc l h.2) (fun hc => h.1 ?_)
    exact ((sortEntries_perm l).map _).mem_iff.1 hc

/-- Members with different keys have the same value under every policy. -/
theorem reads_nodup {S : List Byte → Option (BitVec 64)} {ms : List (List Byte × T)} {es : List (List Byte × V)} (hn : (ms.map (·.1)).Nodup)
    (h : ReadsMembers S pol o ms es) : Reads S pol o (.obj ms) (.dict o es) := by
  have hf : ∀ {β : Type} (l : List (List Byte × β)), (l.map (·.1)).Nodup → firsts l = l := by
    intro β l
    induction l with
    | nil => intro _; rfl
    | cons e l ih =>
      intro h
      rw [List.map_cons, List.nodup_cons] at h
      rw [firsts, ih h.2]
      congr 1
      rw [List.filter_eq_self]
      intro x hx
      simp only [ne_eq, decide_not, Bool.not_eq_true', decide_eq_false_iff_not]
      intro hc
      exact h.1 (List.mem_map.2 ⟨x, hx, hc⟩)
  rcases hp : pol with _ | _ | _
  · subst hp; exact .distinct rfl hn h
  · subst hp; exact .first rfl (by rw [hf ms hn]; exact h)
  · subst hp
    refine .last rfl h ⟨?_, ?_⟩
    · rw [hf es (by rw [readsMembers_keys h]; exact hn)]
    · have hn' : (es.map (·.1)).Nodup := by rw [readsMembers_keys h]; exact hn
      clear h hn
      induction es with
      | nil => intro e he; cases he
      | cons x es ih =>
        rw [List.map_cons, List.nodup_cons] at hn'
        intro e he
        rw [lastOf_cons]
        rcases List.mem_cons.1 he with rfl | he
        · have : lastOf e.1 es = none := by
            rw [lastOf, List.getLast?_eq_none_iff, List.map_eq_nil_iff, List.filter_eq_nil_iff]
            intro y hy
            simp only [decide_eq_true_eq]
            intro hc
            exact hn'.1 (List.mem_map.2 ⟨y, hy, hc⟩)
          simp [this]
        · simp [ih hn'.2 e he]

theorem repeatsPlain_nodup : ∀ ms : List (List Byte × T), (ms.map (·.1)).Nodup → RepeatsPlain ms
  | [], _ => trivial
  | (k, t) :: ms, h => by
    rw [List.map_cons, List.nodup_cons] at h
    refine ⟨fun e he hk => absurd ?_ h.1, repeatsPlain_nodup ms h.2⟩
    exact List.mem_map.2 ⟨e, he, hk⟩

theorem back_members : ∀ es : List (List Byte × V), (∀ e ∈ es, Utf8 e.1 ∧ Back print conv p pol o e.2) →
    ∃ ms vs, ReadsMembers (toDouble conv) pol o ms vs ∧ SameMembers p.preferOrder o es vs ∧ membersTame ms ∧ ms.map (·.1) = es.map (·.1) ∧
      ∀ level, ∃ ps, (es = [] → ps = []) ∧
        (∀ {σ : Type} (w : Write σ), Emits w (dumpElements w p ((es.map fun e => (e.1, dump (dumpDouble print) w p false level e.2)).map (dumpMember w p level))) ps) ∧
        (es ≠ [] → ∀ w1 w2, Spec.Json.WS w1 → Spec.Json.WS w2 → ∀ cfg d, Fits cfg d ps.flatten.length →
          Members cfg d (w1 ++ ps.flatten ++ w2) (Spec.Dom.members ms))
  | [], _ => ⟨[], [], .nil, .nil, trivial, rfl, fun level => ⟨[], fun _ => rfl, fun w => emits_nop, fun h => absurd rfl h⟩⟩
  | (k, v) :: rest, h => by
    obtain ⟨⟨s, hs1, hs2⟩, t, v', hw, ht, hr, hs⟩ := h (k, v) List.mem_cons_self
    simp only at hs2 hw hr hs
    subst hs2
    obtain ⟨ms, vs, ih1, ih2, ih3, ih4, ih5⟩ := back_members rest (fun x hx => h x (List.mem_cons_of_mem _ hx))
    obtain ⟨nl, psn, n1, n2, n3⟩ := newline_out p
    obtain ⟨b, psk, k1, _, k3, k4⟩ := C53_written_as_json_string s hs1
    refine ⟨(utf8s s, t) :: ms, (utf8s s, v') :: vs, .cons hr ih1, .cons hs ih2, ⟨ht, ih3⟩, by simp only [List.map_cons, ih4], fun level => ?_⟩
    obtain ⟨ind, psi, i1, i2, i3⟩ := indent_out p level
    obtain ⟨ws, text, ps, g1, g2, g0, g3, g4⟩ := hw false level
    have hws := g0 rfl
    subst hws
    rw [List.nil_append] at g1
    obtain ⟨psr, r0, r1, r2⟩ := ih5 level
    -- the member itself
    obtain ⟨sep, hsep⟩ : ∃ sep : List Byte, sep = if p.minimize then [] else [ch ' '] := ⟨_, rfl⟩
    have hsepws : Spec.Json.WS sep := by
      rw [hsep]; split
      · exact ws_nil
      · intro c hc; exact Or.inl (List.mem_singleton.1 hc)
    have hcolon : (if p.minimize then [0x3a#8] else [0x3a#8, 0x20#8]) = ch ':' :: sep := by
      rw [hsep]; split <;> rfl
    have hmem : ∀ {σ : Type} (w : Write σ), Emits w (dumpMember w p level (utf8s s, dump (dumpDouble print) w p false level v))
        ((psi ++ psk) ++ ([ch ':' :: sep] ++ ps)) := by
      intro σ w
      unfold dumpMember
      simp only [hcolon]
      exact emits_seq (emits_seq (i3 w) (emits_all (k4 w))) (emits_seq (emits_write _) (g4 w))
    have hflat : ((psi ++ psk) ++ ([ch ':' :: sep] ++ ps)).flatten = ind ++ (ch '"' :: b ++ [ch '"']) ++ (ch ':' :: sep) ++ text := by
      simp only [List.flatten_append, i1, k3, g1, List.flatten_cons, List.flatten_nil, List.append_nil, List.append_assoc]
    have hM : ∀ w1 w2 : List Byte, Spec.Json.WS w1 → Spec.Json.WS w2 → ∀ cfg d,
        Fits cfg d (ind ++ (ch '"' :: b ++ [ch '"']) ++ (ch ':' :: sep) ++ text).length →
        Member cfg d (w1 ++ (ind ++ (ch '"' :: b ++ [ch '"']) ++ (ch ':' :: sep) ++ text) ++ w2) (⟨.key, utf8s s⟩ :: t.events) := by
      intro w1 w2 hw1 hw2 cfg d hf
      have e1 : w1 ++ (ind ++ (ch '"' :: b ++ [ch '"']) ++ (ch ':' :: sep) ++ text) ++ w2 =
          (w1 ++ ind) ++ (ch '"' :: b ++ [ch '"']) ++ [] ++ [ch ':'] ++ sep ++ text ++ w2 := by
        simp only [List.append_assoc, List.cons_append, List.nil_append]
      rw [e1]
      exact .mk (ws_append hw1 i2) k1 (within_le hf.2.2.1 (by simp; omega)) ws_nil hsepws
        (g3 cfg d (fits_le hf (by simp; omega) (by simp; omega))) hw2
    cases rest with
    | nil =>
      refine ⟨((psi ++ psk) ++ ([ch ':' :: sep] ++ ps)) ++ psn, fun h => (by cases h), fun w => ?_, fun _ w1 w2 hw1 hw2 cfg d hf => ?_⟩
      · simp only [List.map_cons, List.map_nil, dumpElements]
        exact emits_seq (hmem w) (n3 w)
      · rw [List.flatten_append, hflat, n1] at hf ⊢
        have hms : ms = [] := by
          rw [List.map_nil, List.map_eq_nil_iff] at ih4; exact ih4
        subst hms
        have e1 : w1 ++ (ind ++ (ch '"' :: b ++ [ch '"']) ++ (ch ':' :: sep) ++ text ++ nl) ++ w2 =
            w1 ++ (ind ++ (ch '"' :: b ++ [ch '"']) ++ (ch ':' :: sep) ++ text) ++ (nl ++ w2) := by simp only [List.append_assoc]
        rw [e1]
        simp only [Spec.Dom.members, List.append_nil]
        exact .one (hM w1 (nl ++ w2) hw1 (ws_append n2 hw2) cfg d (fits_le hf (by simp) (by simp)))
    | cons y ys =>
      refine ⟨((psi ++ psk) ++ ([ch ':' :: sep] ++ ps)) ++ ([[0x2c#8]] ++ (psn ++ psr)), fun h => (by cases h), fun w => ?_, fun _ w1 w2 hw1 hw2 cfg d hf => ?_⟩
      · have := r1 w
        simp only [List.map_cons] at this ⊢
        rw [dumpElements]
        · exact emits_seq (hmem w) (emits_seq (emits_write _) (emits_seq (n3 w) this))
        · intro h; cases h
      · have e0 : (((psi ++ psk) ++ ([ch ':' :: sep] ++ ps)) ++ ([[0x2c#8]] ++ (psn ++ psr))).flatten =
            (ind ++ (ch '"' :: b ++ [ch '"']) ++ (ch ':' :: sep) ++ text) ++ ([ch ','] ++ (nl ++ psr.flatten)) := by
          rw [List.flatten_append, hflat, List.flatten_append, List.flatten_append, n1]; rfl
        rw [e0] at hf ⊢
        have e1 : w1 ++ (ind ++ (ch '"' :: b ++ [ch '"']) ++ (ch ':' :: sep) ++ text ++ ([ch ','] ++ (nl ++ psr.flatten))) ++ w2 =
            w1 ++ (ind ++ (ch '"' :: b ++ [ch '"']) ++ (ch ':' :: sep) ++ text) ++ [] ++ [ch ','] ++ (nl ++ psr.flatten ++ w2) := by
          simp only [List.append_assoc, List.append_nil, List.nil_append]
        rw [e1, Spec.Dom.members, ← List.cons_append]
        exact members_cons (hM w1 [] hw1 ws_nil cfg d (fits_le hf (by simp) (by simp)))
          (r2 (by simp) nl w2 n2 hw2 cfg d (fits_le hf (by simp; omega) (by simp; omega)))

theorem back_dict {od : Bool} {es : List (List Byte × V)} (hn : (es.map (·.1)).Nodup)
    (h : ∀ e ∈ es, Utf8 e.1 ∧ Back print conv p pol o e.2) : Back print conv p pol o (.dict od es) := by
  obtain ⟨l, hl⟩ : ∃ l, l = if p.preferOrder ∧ od then es else sortEntries es := ⟨_, rfl⟩
  have hperm : l.Perm es := by
    rw [hl]; split
    · exact List.Perm.refl _
    · exact sortEntries_perm es
  have hnl : (l.map (·.1)).Nodup := ((hperm.map _).nodup_iff).2 hn
  obtain ⟨ms, vs, h1, h2, h3, h4, h5⟩ := back_members (print := print) (conv := conv) (p := p) (pol := pol) (o := o) l
    (fun e he => h e (hperm.mem_iff.1 he))
  have hnm : (ms.map (·.1)).Nodup := by rw [h4]; exact hnl
  refine ⟨.obj ms, .dict o vs, fun first level => ?_, ⟨repeatsPlain_nodup ms hnm, h3⟩, reads_nodup hnm h1, .dict (l := l) ?_ h2⟩
  rotate_left
  · rw [hl]
    split
    · rfl
    · exact ⟨sortEntries_perm es, sortEntries_asc es hn⟩
  obtain ⟨ws, psf, f1, f2, f3, f4⟩ := first_out' p first level
  obtain ⟨nl, psn, n1, n2, n3⟩ := newline_out p
  obtain ⟨ind, psi, i1, i2, i3⟩ := indent_out p level
  obtain ⟨ps, e0, e1, e2⟩ := h5 (level + 1)
  refine ⟨ws, ch '{' :: (nl ++ ps.flatten ++ ind) ++ [ch '}'], psf ++ ([[0x7b#8]] ++ (psn ++ (ps ++ (psi ++ [[0x7d#8]])))), ?_, f2, f3, fun cfg d hf => ?_, fun w => ?_⟩
  · simp only [List.flatten_append, f1, n1, i1, List.flatten_cons, List.flatten_nil, List.append_assoc, List.cons_append, List.nil_append]
    rfl
  · have hn : Within cfg.maxNesting (d + 1) := within_le hf.2.2.2 (by simp)
    by_cases hx : l = []
    · have hms : ms = [] := by rw [hx, List.map_nil, List.map_eq_nil_iff] at h4; exact h4
      rw [e0 hx, hms]
      simp only [List.flatten_nil, List.append_nil]
      exact .emptyObject hn (ws_append n2 i2)
    · simp only [T.events]
      exact .object hn (e2 hx nl ind n2 i2 cfg (d + 1) (fits_le hf (by simp; omega) (by simp; omega)))
  · rw [dump]
    have hlist : (if p.preferOrder ∧ od then dumpValues (dumpDouble print) w p (level + 1) es
        else sortEntries (dumpValues (dumpDouble print) w p (level + 1) es)) =
        l.map fun e => (e.1, dump (dumpDouble print) w p false (level + 1) e.2) := by
      rw [dumpValues_map, hl]
      split
      · rfl
      · exact sortEntries_map _ es
    rw [hlist]
    exact emits_seq (f4 w) (emits_seq (emits_write _) (emits_seq (n3 w) (emits_seq (e1 w) (emits_seq (i3 w) (emits_write _)))))

mutual
theorem back_value : ∀ v : V, Writable print conv v → Back print conv p pol o v
  | .null, _ => ⟨.null, .null, writes_null print p, trivial, .null, .null⟩
  | .bool b, _ => ⟨.bool b, .bool b, writes_bool print p b, trivial, .bool b, .bool b⟩
  | .int32 i, h => back_signed (i := i) rfl (by have := h.1; omega) (by have := h.2; omega) (fun w f l => by simp only [dump])
  | .uint32 n, h => back_unsigned (n := n) rfl (by have : n < 2 ^ 32 := h; omega) (fun w f l => by simp only [dump])
  | .int64 i, h => back_signed (i := i) rfl h.1 h.2 (fun w f l => by simp only [dump])
  | .uint64 n, h => back_unsigned (n := n) rfl h (fun w f l => by simp only [dump])
  | .double d, h => back_double h
  | .string s, h => ⟨.str s, .string s, writes_string print p h, trivial, .str s, .string s⟩
  | .array xs, h => back_array (back_all xs h)
  | .dict od es, h => back_dict h.1 (back_entries es h.2)
theorem back_all : ∀ xs : List V, allWritable print conv xs → ∀ v ∈ xs, Back print conv p pol o v
  | [], _, _, hv => by cases hv
  | x :: xs, h, v, hv => (List.mem_cons.1 hv).elim (fun e => e ▸ back_value x h.1) (back_all xs h.2 v)
theorem back_entries : ∀ es : List (List Byte × V), membersWritable print conv es → ∀ e ∈ es, Utf8 e.1 ∧ Back print conv p pol o e.2
  | [], _, _, hv => by cases hv
  | (k, v) :: es, h, e, he => (List.mem_cons.1 he).elim (fun e => e ▸ ⟨h.1, back_value v h.2.1⟩) (back_entries es h.2.2 e)
end

end WS.Dom
