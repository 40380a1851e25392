import Verif.Proof.Clone5
/-
Lemmas for property C45: the order of allocation of a well-formed source, and the whole clone.
-/
namespace WS.Cl
open WS

variable {H : Heap} {S : Ctx}

theorem WF.kind_eq (w : WF H S) {k k' : Kind} {p : Ptr} (h : p ∈ (S.tab k).ents) (h' : p ∈ (S.tab k').ents) : k = k' := by
  obtain ⟨_, o, h1, h2, _⟩ := w.valid k p h
  obtain ⟨_, o', h1', h2', _⟩ := w.valid k' p h'
  rw [h1] at h1'; cases h1'
  rw [← h2, ← h2']

theorem WF.disjoint (w : WF H S) {k k' : Kind} (hk : k ≠ k') {p q : Ptr} (h : p ∈ (S.tab k).ents) (h' : q ∈ (S.tab k').ents) :
    p ≠ q := by
  intro e; subst e; exact hk (w.kind_eq h h')

theorem mem_objs {S : Ctx} {p : Ptr} : p ∈ S.objs ↔ ∃ k, p ∈ (S.tab k).ents := by
  simp only [Ctx.objs, List.mem_append]
  constructor
  · rintro (((((h | h) | h) | h) | h) | h)
    · exact ⟨_, h⟩
    · exact ⟨_, h⟩
    · exact ⟨_, h⟩
    · exact ⟨_, h⟩
    · exact ⟨_, h⟩
    · exact ⟨_, h⟩
  · rintro ⟨k, h⟩
    cases k <;> simp [h]

theorem asc_label_inj {E : List Ptr} (hs : Asc H E) {p q : Ptr} (hp : p ∈ E) (hq : q ∈ E) (h : H.label p = H.label q) : p = q := by
  induction E with
  | nil => simp at hp
  | cons x E ih =>
    unfold Asc at hs
    rw [List.pairwise_cons] at hs
    have key : ∀ y ∈ E, H.label x ≠ H.label y := by
      intro y hy hc
      obtain ⟨a, b, h1, h2, h3⟩ := hs.1 y hy
      rw [h1, h2] at hc; cases hc
      rw [(labelCmp_eq_iff a a).2 rfl] at h3; cases h3
    rcases List.mem_cons.1 hp with rfl | hp' <;> rcases List.mem_cons.1 hq with rfl | hq'
    · rfl
    · exact absurd h (key q hq')
    · exact absurd h.symm (key p hp')
    · exact ih hs.2 hp' hq'

theorem asc_unique {E F : List Ptr} (hE : Asc H E) (hF : Asc H F) (hp : E.Perm F) : E = F := by
  refine List.Perm.eq_of_pairwise (fun a b _ _ h1 h2 => ?_) hE hF hp
  obtain ⟨x, y, e1, e2, h3⟩ := h1
  obtain ⟨x', y', e1', e2', h3'⟩ := h2
  rw [e2] at e1'; cases e1'
  rw [e1] at e2'; cases e2'
  exact absurd h3' (labelCmp_gt_ne h3).2

theorem WF.nm_eq (w : WF H S) {p : Ptr} (hp : p ∈ (S.tab .afNum).ents) :
    ∃ o a o' b, H.mem p = some o ∧ o.pay = .afNum a ∧ nm H p = a.name ∧ a.name ∈ (S.tab .afName).ents ∧
      H.mem a.name = some o' ∧ o'.pay = .afName b ∧ b.number = p := by
  obtain ⟨_, o, ho, hk, _⟩ := w.valid _ p hp
  obtain ⟨i, hh, pv, y⟩ := o
  cases y with
  | afNum a =>
    obtain ⟨h1, o', b, h2, h3, h4⟩ := w.numbers p hp _ a ho rfl
    exact ⟨_, a, o', b, ho, rfl, by unfold nm; rw [ho], h1, h2, h3, h4⟩
  | _ => cases hk

theorem WF.nm_inj (w : WF H S) {p q : Ptr} (hp : p ∈ (S.tab .afNum).ents) (hq : q ∈ (S.tab .afNum).ents) (h : nm H p = nm H q) :
    p = q := by
  obtain ⟨o, a, o', b, h1, h2, h3, h4, h5, h6, h7⟩ := w.nm_eq hp
  obtain ⟨u, c, u', e, g1, g2, g3, g4, g5, g6, g7⟩ := w.nm_eq hq
  rw [h3, g3] at h
  rw [h, g5] at h5; cases h5
  rw [g6] at h6; cases h6
  rw [← h7, ← g7]

theorem nodup_map_of_inj {l : List Ptr} {f : Ptr → Ptr} (hn : l.Nodup) (hi : ∀ p ∈ l, ∀ q ∈ l, f p = f q → p = q) :
    (l.map f).Nodup := by
  induction l with
  | nil => simp
  | cons x l ih =>
    rw [List.nodup_cons] at hn
    rw [List.map_cons, List.nodup_cons]
    refine ⟨?_, ih hn.2 (fun p hp q hq => hi p (by simp [hp]) q (by simp [hq]))⟩
    intro hm
    rw [List.mem_map] at hm
    obtain ⟨y, hy, e⟩ := hm
    have := hi y (by simp [hy]) x (by simp) e
    subst this; exact hn.1 hy

theorem WF.names_perm (w : WF H S) : ((S.tab .afNum).ents.map (nm H)).Perm (S.tab .afName).ents := by
  rw [List.perm_ext_iff_of_nodup (nodup_map_of_inj (w.nodup _) (fun p hp q hq h => w.nm_inj hp hq h)) (w.nodup _)]
  intro x
  rw [List.mem_map]
  constructor
  · rintro ⟨p, hp, rfl⟩
    obtain ⟨o, a, o', b, h1, h2, h3, h4, _⟩ := w.nm_eq hp
    rw [h3]; exact h4
  · intro hx
    obtain ⟨_, o, ho, hk, _⟩ := w.valid _ x hx
    obtain ⟨i, hh, pv, y⟩ := o
    cases y with
    | afName b =>
      obtain ⟨h1, o', a, h2, h3, h4⟩ := w.names x hx _ b ho rfl
      refine ⟨b.number, h1, ?_⟩
      obtain ⟨i', hh', pv', y'⟩ := o'
      simp only at h3; subst h3
      unfold nm; rw [h2]; exact h4
    | _ => cases hk

theorem pairs_perm (f : Ptr → Ptr) : ∀ l : List Ptr, (l.flatMap (fun p => [p, f p])).Perm (l ++ l.map f)
  | [] => List.Perm.refl _
  | x :: l => by
    simp only [List.flatMap_cons, List.cons_append, List.nil_append, List.map_cons]
    exact List.Perm.cons x ((List.Perm.cons (f x) (pairs_perm f l)).trans List.perm_middle.symm)

/-- Sources of the copies, in order of allocation. -/
def order (f : CloneFlags) (H : Heap) (S : Ctx) : List Ptr :=
  (S.tab .actions).ents ++ (S.tab .afNum).ents.flatMap (fun p => [p, nm H p]) ++
    (if f.asAtCreation then [] else
      (S.tab .events).ents ++ (if f.noRoutes then [] else (S.tab .routes).ents) ++ (S.tab .kvs).ents)

theorem order_perm (f : CloneFlags) (w : WF H S) : (order f H S).Perm
    ((S.tab .actions).ents ++ ((S.tab .afNum).ents ++ (S.tab .afName).ents) ++
    (if f.asAtCreation then [] else
      (S.tab .events).ents ++ (if f.noRoutes then [] else (S.tab .routes).ents) ++ (S.tab .kvs).ents)) := by
  unfold order
  exact List.Perm.append_right _ (List.Perm.append_left _
    ((pairs_perm (nm H) _).trans (List.Perm.append_left _ w.names_perm)))

theorem mem_order {f : CloneFlags} (w : WF H S) {p : Ptr} : p ∈ order f H S ↔ f.kept S p := by
  rw [(order_perm f w).mem_iff]
  unfold CloneFlags.kept
  simp only [List.mem_append]
  constructor
  · rintro ((h | (h | h)) | h)
    · exact ⟨_, rfl, h⟩
    · exact ⟨_, rfl, h⟩
    · exact ⟨_, rfl, h⟩
    · cases ha : f.asAtCreation <;> simp only [ha, if_true, Bool.false_eq_true, if_false, List.mem_append] at h
      · rcases h with (h | h) | h
        · exact ⟨.events, by simp [CloneFlags.keeps, ha], h⟩
        · cases hr : f.noRoutes <;> simp only [hr, if_true, Bool.false_eq_true, if_false] at h
          · exact ⟨.routes, by simp [CloneFlags.keeps, ha, hr], h⟩
          · simp at h
        · exact ⟨.kvs, by simp [CloneFlags.keeps, ha], h⟩
      · simp at h
  · rintro ⟨k, hk, h⟩
    cases k <;> simp only [CloneFlags.keeps, Bool.not_eq_true', Bool.and_eq_true] at hk <;> simp_all

theorem order_nodup (f : CloneFlags) (w : WF H S) : (order f H S).Nodup := by
  rw [(order_perm f w).nodup_iff]
  have nd := w.nodup
  have dj := fun {k k' : Kind} (hk : k ≠ k') {p q : Ptr} => w.disjoint (p := p) (q := q) hk
  have tail : (if f.asAtCreation then [] else
      (S.tab .events).ents ++ (if f.noRoutes then [] else (S.tab .routes).ents) ++ (S.tab .kvs).ents).Nodup := by
    split
    · simp
    · split
      · rw [List.append_nil, List.nodup_append]
        exact ⟨nd _, nd _, fun p hp q hq => dj (by decide) hp hq⟩
      · rw [List.nodup_append, List.nodup_append]
        refine ⟨⟨nd _, nd _, fun p hp q hq => dj (by decide) hp hq⟩, nd _, fun p hp q hq => ?_⟩
        rcases List.mem_append.1 hp with hp | hp
        · exact dj (by decide) hp hq
        · exact dj (by decide) hp hq
  rw [List.nodup_append, List.nodup_append, List.nodup_append]
  refine ⟨⟨nd _, ⟨nd _, nd _, fun p hp q hq => dj (by decide) hp hq⟩, fun p hp q hq => ?_⟩, tail, fun p hp q hq => ?_⟩
  · rcases List.mem_append.1 hq with hq | hq
    · exact dj (by decide) hp hq
    · exact dj (by decide) hp hq
  · have hq' : q ∈ (S.tab .events).ents ∨ q ∈ (S.tab .routes).ents ∨ q ∈ (S.tab .kvs).ents := by
      revert hq; split
      · intro h; simp at h
      · split
        · intro h; simp at h; rcases h with h | h <;> simp [h]
        · intro h; simp at h; rcases h with h | h | h <;> simp [h]
    simp only [List.mem_append] at hp
    rcases hp with hp | hp | hp <;> rcases hq' with hq | hq | hq <;> exact dj (by decide) hp hq

/-- The renaming. -/
def newPtr (f : CloneFlags) (H : Heap) (S : Ctx) (p : Ptr) : Ptr := H.next + (order f H S).idxOf p

theorem order_ord (f : CloneFlags) (w : WF H S) : Ord H (order f H S) (newPtr f H S) := by
  refine ⟨order_nodup f w, fun p _ => rfl, fun p hp => ?_, fun p hp q hq h => ?_⟩
  · obtain ⟨k, _, h⟩ := (mem_order w).1 hp
    obtain ⟨h1, o, h2, _, h3⟩ := w.valid k p h
    exact ⟨h1, o, h2, h3⟩
  · obtain ⟨k, _, h1⟩ := (mem_order w).1 hp
    obtain ⟨k', _, h2⟩ := (mem_order w).1 hq
    exact w.ids p (mem_objs.2 ⟨k, h1⟩) q (mem_objs.2 ⟨k', h2⟩) h

theorem ByIdL.result {f : CloneFlags} (w : WF H S) {ρ : Ptr → Ptr} {b : List Ptr} {n : Nat} (hb : ByIdL H ρ b n (order f H S)) :
    ∃ B : List Ptr, B.Sublist S.byId ∧ (∀ p, p ∈ B ↔ f.kept S p) ∧ b = B.map ρ ∧ n = B.length := by
  obtain ⟨B, h1, h2, h3, h4⟩ := hb
  refine ⟨B, ?_, fun p => by rw [h2.mem_iff]; exact mem_order w, h3, by rw [h4, h2.length_eq]⟩
  have hsort := w.byIdSorted.filter (fun p => decide (p ∈ order f H S))
  have hnd : ∀ {l : List Ptr}, l.Pairwise (fun p q => H.idOf p < H.idOf q) → l.Nodup := fun h =>
    h.imp (fun hab => by intro hc; subst hc; omega)
  have hp : B.Perm (S.byId.filter (fun p => decide (p ∈ order f H S))) := by
    rw [List.perm_ext_iff_of_nodup (hnd h1) (hnd hsort)]
    intro p
    rw [h2.mem_iff, List.mem_filter, decide_eq_true_iff]
    constructor
    · intro h
      refine ⟨?_, h⟩
      obtain ⟨k, _, hk⟩ := (mem_order w).1 h
      exact (w.byIdAll p).2 (mem_objs.2 ⟨k, hk⟩)
    · exact fun h => h.2
  have : B = S.byId.filter (fun p => decide (p ∈ order f H S)) :=
    List.Perm.eq_of_pairwise (fun a b _ _ h1 h2 => by omega) h1 hsort hp
  rw [this]; exact List.filter_sublist

end WS.Cl
