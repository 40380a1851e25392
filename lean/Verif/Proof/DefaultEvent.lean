import Verif.Spec.DefaultEvent
namespace WS.DE
open WS Spec.DE

def inTab (s : S) (e : Nat) : Nat := if e ∈ s.table.map (·.2) then 1 else 0
def isDef (s : S) (e : Nat) : Nat := if s.default = some e then 1 else 0

/-- Where references come from. -/
structure Inv (s : S) : Prop where
  labels : (s.table.map (·.1)).Nodup
  objs : (s.table.map (·.2)).Nodup
  stored : ∀ p ∈ s.table, s.label p.2 = p.1 ∧ p.2 < s.next
  count : ∀ e, s.rc e = inTab s e + isDef s e + s.held e
  fresh : ∀ e, s.next ≤ e → s.held e = 0 ∧ s.default ≠ some e

theorem get_some {s : S} {l : Label} {e : Nat} (h : s.get l = some e) : (l, e) ∈ s.table := by
  unfold S.get at h
  cases hf : s.table.find? (fun p => p.1 == l) with
  | none => rw [hf] at h; cases h
  | some p =>
    rw [hf] at h
    have h1 := List.find?_some hf
    have h2 := List.mem_of_find?_eq_some hf
    simp at h h1
    obtain ⟨a, b⟩ := p
    simp at h h1
    subst h; subst h1; exact h2

theorem get_none {s : S} {l : Label} : s.get l = none ↔ l ∉ s.table.map (·.1) := by
  unfold S.get
  simp only [Option.map_eq_none_iff, List.find?_eq_none, List.mem_map, not_exists, not_and, beq_iff_eq]

theorem get_of_mem {s : S} (hi : Inv s) {l : Label} {e : Nat} (h : (l, e) ∈ s.table) : s.get l = some e := by
  cases hg : s.get l with
  | none =>
    rw [get_none] at hg
    exact absurd (List.mem_map.2 ⟨_, h, rfl⟩) hg
  | some e' =>
    have h2 := get_some hg
    have hn : s.label e = l := (hi.stored _ h).1
    have hn' : s.label e' = l := (hi.stored _ h2).1
    -- labels are distinct, so the two entries are the same
    have := hi.labels
    have key : ∀ (t : List (Label × Nat)), (t.map (·.1)).Nodup → (l, e) ∈ t → (l, e') ∈ t → e = e' := by
      intro t
      induction t with
      | nil => intro _ h; cases h
      | cons p ps ih =>
        intro hnd h1 h2
        simp only [List.map_cons, List.nodup_cons] at hnd
        rcases List.mem_cons.1 h1 with r1 | r1
        · rcases List.mem_cons.1 h2 with r2 | r2
          · rw [← r1] at r2; exact (Prod.mk.inj r2).2.symm
          · exact absurd (List.mem_map.2 ⟨_, r2, by rw [← r1]⟩) hnd.1
        · rcases List.mem_cons.1 h2 with r2 | r2
          · exact absurd (List.mem_map.2 ⟨_, r1, by rw [← r2]⟩) hnd.1
          · exact ih hnd.2 r1 r2
    rw [key s.table this h h2]

theorem inv_init : Inv {} :=
  ⟨List.nodup_nil, List.nodup_nil, (fun _ h => by cases h), (fun _ => rfl), (fun _ _ => ⟨rfl, by simp⟩)⟩

theorem create_inv {s : S} (h : Inv s) (l : Label) : Inv (create s l).2 := by
  unfold create
  split
  · exact h
  · rename_i hg
    have hn : s.next ∉ s.table.map (·.2) := by
      intro hm
      obtain ⟨p, hp, e⟩ := List.mem_map.1 hm
      have := (h.stored p hp).2
      rw [e] at this; omega
    refine ⟨?_, ?_, ?_, ?_, ?_⟩
    · simp only [List.map_cons, List.nodup_cons]; exact ⟨get_none.1 hg, h.labels⟩
    · simp only [List.map_cons, List.nodup_cons]; exact ⟨hn, h.objs⟩
    · intro p hp
      rcases List.mem_cons.1 hp with rfl | hp
      · simp [upd]
      · have := h.stored p hp
        refine ⟨?_, by dsimp only; omega⟩
        simp only [upd]
        rw [if_neg (by omega)]; exact this.1
    · intro e
      have hc := h.count e
      simp only [inTab, isDef, upd, List.map_cons, List.mem_cons] at *
      by_cases he : e = s.next
      · subst he
        have := h.fresh s.next (Nat.le_refl _)
        simp [this.1, this.2]
      · simp only [he, if_false, false_or]
        exact hc
    · intro e he
      exact h.fresh e (by dsimp only at he; omega)

theorem drop_ok {s : S} {e : Nat} (h : s.rc e ≠ 0) : drop s e = (.ok (), { s with rc := upd s.rc e (s.rc e - 1) }) := by
  unfold drop; rw [if_neg h]

theorem delete_inv {s : S} (h : Inv s) (l : Label) : Inv (delete s l).2 ∧ ((delete s l).1 = .ok () ↔ l ∈ s.table.map (·.1)) ∧
    (l ∉ s.table.map (·.1) → (delete s l) = (.error .itemNotFound, s)) := by
  unfold delete
  cases hg : s.get l with
  | none =>
    have := get_none.1 hg
    exact ⟨h, by simp only [reduceCtorEq, false_iff]; exact this, fun _ => rfl⟩
  | some e =>
    have hm := get_some hg
    have hmem : l ∈ s.table.map (·.1) := List.mem_map.2 ⟨_, hm, rfl⟩
    have hin : e ∈ s.table.map (·.2) := List.mem_map.2 ⟨_, hm, rfl⟩
    have hrc : s.rc e ≠ 0 := by
      have := h.count e
      unfold inTab at this; rw [if_pos hin] at this; omega
    dsimp only
    rw [drop_ok (by exact hrc)]
    refine ⟨⟨?_, ?_, ?_, ?_, ?_⟩, by simp [hmem], fun hx => absurd hmem hx⟩
    · exact (List.filter_sublist.map _).nodup h.labels
    · exact (List.filter_sublist.map _).nodup h.objs
    · intro p hp; exact h.stored p (List.mem_filter.1 hp).1
    · intro x
      have hc := h.count x
      have hx : x ∈ (s.table.filter (fun p => p.1 != l)).map (·.2) ↔ x ∈ s.table.map (·.2) ∧ x ≠ e := by
        simp only [List.mem_map, List.mem_filter]
        constructor
        · rintro ⟨p, ⟨hp, hl⟩, rfl⟩
          refine ⟨⟨p, hp, rfl⟩, ?_⟩
          intro he
          have h1 := (h.stored p hp).1
          rw [he, (h.stored _ hm).1] at h1
          simp only [bne_iff_ne, ne_eq] at hl
          exact hl h1.symm
        · rintro ⟨⟨p, hp, rfl⟩, hne⟩
          refine ⟨p, ⟨hp, ?_⟩, rfl⟩
          simp only [bne_iff_ne, ne_eq]
          intro hl
          apply hne
          have := get_of_mem h (l := p.1) (e := p.2) hp
          rw [hl, hg] at this
          exact (Option.some.inj this).symm
      simp only [inTab, isDef, upd, hx] at *
      by_cases he : x = e
      · subst he
        simp only [hin, if_true] at hc ⊢
        simp only [ne_eq, not_true_eq_false, and_false, if_false]; omega
      · simp only [he, if_false, ne_eq, not_false_eq_true, and_true]; exact hc
    · exact h.fresh

theorem flush_loop : ∀ (ps : List (Label × Nat)) (s : S), (ps.map (·.2)).Nodup → (∀ p ∈ ps, s.rc p.2 ≠ 0) →
    let s' := ps.foldl (fun s p => (drop s p.2).2) s
    s'.table = s.table ∧ s'.next = s.next ∧ s'.label = s.label ∧ s'.held = s.held ∧ s'.default = s.default ∧
    ∀ e, s'.rc e = s.rc e - (if e ∈ ps.map (·.2) then 1 else 0)
  | [], s, _, _ => by simp
  | p :: ps, s, hnd, hrc => by
    simp only [List.map_cons, List.nodup_cons] at hnd
    have h1 := hrc p (List.mem_cons_self ..)
    have hs : (drop s p.2).2 = { s with rc := upd s.rc p.2 (s.rc p.2 - 1) } := by rw [drop_ok h1]
    have ih := flush_loop ps { s with rc := upd s.rc p.2 (s.rc p.2 - 1) } hnd.2 (by
      intro q hq
      have h2 := hrc q (List.mem_cons_of_mem _ hq)
      simp only [upd]
      rw [if_neg ?_]
      · exact h2
      · intro he
        exact hnd.1 (List.mem_map.2 ⟨q, hq, he⟩))
    simp only [List.foldl_cons, hs]
    obtain ⟨a, b, c, d, f, g⟩ := ih
    refine ⟨a, b, c, d, f, ?_⟩
    intro e
    rw [g e]
    simp only [upd, List.map_cons, List.mem_cons]
    by_cases he : e = p.2
    · subst he
      have : p.2 ∉ ps.map (·.2) := hnd.1
      simp only [if_true, true_or, this, if_false]; rfl
    · simp only [he, if_false, false_or]

theorem flush_inv {s : S} (h : Inv s) : Inv (flush s).2 ∧ (flush s).2.table = [] ∧ (flush s).2.default = s.default ∧ (flush s).2.label = s.label ∧ (flush s).2.next = s.next := by
  have key := flush_loop s.table { s with table := [] } h.objs (by
    intro p hp
    have := h.count p.2
    have hin : p.2 ∈ s.table.map (·.2) := List.mem_map.2 ⟨_, hp, rfl⟩
    unfold inTab at this; rw [if_pos hin] at this
    show s.rc p.2 ≠ 0
    omega)
  obtain ⟨a, b, c, d, f, g⟩ := key
  unfold flush
  dsimp only
  refine ⟨⟨?_, ?_, ?_, ?_, ?_⟩, a, f, c, b⟩
  · rw [a]; exact List.nodup_nil
  · rw [a]; exact List.nodup_nil
  · intro p hp; rw [a] at hp; cases hp
  · intro e
    have hc := h.count e
    rw [g e]
    unfold inTab isDef at *
    rw [a, f, d]
    simp only [List.map_nil, List.not_mem_nil, if_false] at *
    omega
  · intro e he
    rw [b] at he; rw [d, f]; exact h.fresh e he

theorem upref_cases (s : S) (e : Nat) :
    (s.rc e = 4294967295 ∧ upref s e = (.error .overflowAverted, s)) ∨
    (s.rc e ≠ 4294967295 ∧ upref s e = (.ok (), { s with rc := upd s.rc e (s.rc e + 1) })) := by
  unfold upref RC.refInc RC.maxRef
  by_cases h : s.rc e = 4294967295
  · left; rw [if_pos h]; exact ⟨h, rfl⟩
  · right; rw [if_neg h]; exact ⟨h, rfl⟩

theorem getReference_cases (s : S) (l : Label) :
    (s.get l = none ∧ getReference s l = (.error .itemNotFound, s)) ∨
    (∃ e, s.get l = some e ∧ s.rc e = 4294967295 ∧ getReference s l = (.error .overflowAverted, s)) ∨
    (∃ e, s.get l = some e ∧ s.rc e ≠ 4294967295 ∧ getReference s l = (.ok e, { s with rc := upd s.rc e (s.rc e + 1) })) := by
  unfold getReference
  cases hg : s.get l with
  | none => left; exact ⟨rfl, rfl⟩
  | some e =>
    rcases upref_cases s e with ⟨h1, h2⟩ | ⟨h1, h2⟩
    · right; left; exact ⟨e, rfl, h1, by simp only [h2]⟩
    · right; right; exact ⟨e, rfl, h1, by simp only [h2]⟩

theorem take_inv {s : S} (h : Inv s) (l : Label) : Inv (take s l).2 ∧ (take s l).2.table = s.table ∧ (take s l).2.default = s.default ∧ (take s l).2.label = s.label := by
  unfold take
  rcases getReference_cases s l with ⟨_, h2⟩ | ⟨e, _, _, h2⟩ | ⟨e, hg, _, h2⟩
  · rw [h2]; exact ⟨h, rfl, rfl, rfl⟩
  · rw [h2]; exact ⟨h, rfl, rfl, rfl⟩
  · rw [h2]
    have hm := get_some hg
    refine ⟨⟨h.labels, h.objs, h.stored, ?_, ?_⟩, rfl, rfl, rfl⟩
    · intro x
      have hc := h.count x
      simp only [inTab, isDef, upd] at *
      by_cases hx : x = e
      · subst hx; simp only [if_true]; omega
      · simp only [hx, if_false]; exact hc
    · intro x hx
      have := (h.stored _ hm).2
      have hf := h.fresh x hx
      simp only [upd]
      rw [if_neg (by dsimp only at hx this; omega)]; exact hf

theorem release_inv {s : S} (h : Inv s) (e : Nat) : Inv (release s e).2 ∧ (release s e).1 = .ok () ∧
    (release s e).2.table = s.table ∧ (release s e).2.default = s.default ∧ (release s e).2.label = s.label := by
  unfold release
  split
  · exact ⟨h, rfl, rfl, rfl, rfl⟩
  · rename_i hh
    have hrc : s.rc e ≠ 0 := by have := h.count e; omega
    rw [drop_ok (by exact hrc)]
    refine ⟨⟨h.labels, h.objs, h.stored, ?_, ?_⟩, rfl, rfl, rfl, rfl⟩
    · intro x
      have hc := h.count x
      simp only [inTab, isDef, upd] at *
      by_cases hx : x = e
      · subst hx; simp only [if_true]; omega
      · simp only [hx, if_false]; exact hc
    · intro x hx
      have hf := h.fresh x hx
      simp only [upd]
      by_cases he : x = e
      · subst he; omega
      · rw [if_neg he]; exact hf

/-- The counts after the default event has been given up. -/
def rcCleared (s : S) : Nat → Nat :=
  match s.default with
  | none => s.rc
  | some e => upd s.rc e (s.rc e - 1)

theorem clear_general {s : S} (hrc : ∀ e, s.default = some e → s.rc e ≠ 0) :
    clearDefault s = (.ok (), { s with default := none, rc := rcCleared s }) := by
  unfold clearDefault rcCleared
  cases hs : s.default with
  | none =>
    cases s; simp at hs; subst hs; rfl
  | some e =>
    dsimp only
    rw [drop_ok (hrc e hs)]

theorem clear_inv {s : S} (h : Inv s) : Inv (clearDefault s).2 ∧ (clearDefault s).1 = .ok () ∧ (clearDefault s).2.default = none ∧
    (clearDefault s).2.table = s.table ∧ (clearDefault s).2.label = s.label ∧ (clearDefault s).2.held = s.held := by
  rw [clear_general (by
    intro e he
    have := h.count e
    unfold isDef at this; rw [if_pos he] at this; omega)]
  refine ⟨⟨h.labels, h.objs, h.stored, ?_, fun e he => ⟨(h.fresh e he).1, by simp⟩⟩, rfl, rfl, rfl, rfl, rfl⟩
  intro x
  have hc := h.count x
  simp only [inTab, isDef, rcCleared] at *
  simp only [reduceCtorEq, if_false]
  cases hs : s.default with
  | none => rw [hs] at hc; simp only [reduceCtorEq, if_false] at hc; exact hc
  | some e =>
    rw [hs] at hc
    simp only [upd]
    by_cases hx : x = e
    · subst hx; simp only [if_true] at hc ⊢; omega
    · simp only [hx, if_false]
      have : ¬ (some e = some x) := by intro he; cases he; exact hx rfl
      rw [if_neg this] at hc
      exact hc

theorem set_cases {s : S} (h : Inv s) (l : Label) :
    (s.get l = none ∧ setDefault s l = (.error .itemNotFound, s)) ∨
    (∃ e, s.get l = some e ∧ s.rc e = 4294967295 ∧ setDefault s l = (.error .overflowAverted, s)) ∨
    (∃ e s', s.get l = some e ∧ s.rc e ≠ 4294967295 ∧ setDefault s l = (.ok (), s') ∧ Inv s' ∧ s'.default = some e ∧ s'.table = s.table ∧
      s'.label = s.label ∧ s'.held = s.held) := by
  unfold setDefault
  rcases getReference_cases s l with ⟨h1, h2⟩ | ⟨e, h1, h3, h2⟩ | ⟨e, hg, h3, h2⟩
  · left; rw [h2]; exact ⟨h1, rfl⟩
  · right; left; rw [h2]; exact ⟨e, h1, h3, rfl⟩
  · right; right
    rw [h2]
    dsimp only
    have hm := get_some hg
    have hlt := (h.stored _ hm).2
    have hd : ∀ e', s.default = some e' → s.rc e' ≠ 0 := by
      intro e' he
      have := h.count e'
      unfold isDef at this; rw [if_pos he] at this; omega
    have hcl := clear_general (s := { s with rc := upd s.rc e (s.rc e + 1) }) (by
      intro e' he
      have := hd e' he
      simp only [upd]
      split <;> omega)
    rw [hcl]
    refine ⟨e, _, hg, h3, rfl, ⟨h.labels, h.objs, h.stored, ?_, ?_⟩, rfl, rfl, rfl, rfl⟩
    · intro x
      have hc := h.count x
      simp only [inTab, isDef, rcCleared] at *
      cases hs : s.default with
      | none =>
        rw [hs] at hc
        simp only [reduceCtorEq, if_false] at hc
        simp only [upd]
        by_cases hx : x = e
        · subst hx; simp only [if_true]; omega
        · have : ¬ (some e = some x) := by intro he; cases he; exact hx rfl
          simp only [hx, if_false, this]; exact hc
      | some e' =>
        rw [hs] at hc
        have := hd e' hs
        simp only [upd]
        by_cases hx : x = e
        · subst hx
          by_cases hx' : x = e'
          · subst hx'; simp only [if_true] at hc ⊢; omega
          · have : ¬ (some e' = some x) := by intro he; cases he; exact hx' rfl
            simp only [if_true, hx', if_false, this] at hc ⊢; omega
        · have n1 : ¬ (some e = some x) := by intro he; cases he; exact hx rfl
          by_cases hx' : x = e'
          · subst hx'; simp only [if_true, hx, if_false, n1] at hc ⊢; omega
          · have : ¬ (some e' = some x) := by intro he; cases he; exact hx' rfl
            simp only [hx', hx, if_false, this, n1] at hc ⊢; exact hc
    · intro x hx
      refine ⟨(h.fresh x hx).1, ?_⟩
      intro he
      cases he
      dsimp only at hx hlt; omega

theorem step_inv {s : S} (h : Inv s) (o : Op) : Inv (step s o).2 := by
  cases o with
  | create l => exact create_inv h l
  | delete l => exact (delete_inv h l).1
  | flush => exact (flush_inv h).1
  | take l => exact (take_inv h l).1
  | release e => exact (release_inv h e).1
  | setDefault l =>
    show Inv (setDefault s l).2
    rcases set_cases h l with ⟨_, h2⟩ | ⟨_, _, _, h2⟩ | ⟨_, s', _, _, h2, h3, _⟩ <;> rw [h2]
    · exact h
    · exact h
    · exact h3
  | clearDefault => exact (clear_inv h).1

end WS.DE
