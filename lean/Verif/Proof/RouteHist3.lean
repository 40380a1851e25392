import Verif.Proof.RouteHist2
/-
Insertion keeps the invariants; the invariants hold in every history.
-/
namespace WS
open Spec

/-! ### Actions keep rules -/

theorem runActions_keeps {A : RuleActs} (hA : A.Keeps) (ty : ActionType) (l : List Nat) (r : Route) (a : Flags) :
    KeepsKey r (runActions A.env ty l r a).st := by
  induction l generalizing r a with
  | nil => exact KeepsKey.refl r
  | cons i rest ih =>
    unfold runActions
    have he : A.env.enter r i = r := by unfold ActEnv.enter RuleActs.env; simp
    split
    · exact ih r a
    · have h1 : KeepsKey r (A.env.handler ty i (A.env.enter r i) a).1 := by rw [he]; exact hA ty i r a
      simp only
      split
      · exact h1
      · split
        · exact h1
        · exact h1.trans (ih _ _)

theorem listDispatch_keeps {A : RuleActs} (hA : A.Keeps) (g : EventConfig) (e : Event) (ty : ActionType) (r : Route) (a : Flags) :
    KeepsKey r (listDispatch A.env g e ty r a).st := by
  have hi : KeepsKey r { r with flags := r.flags ||| RF.INSERT_ACTIONS_CALLED } := keepsKey_or r _ (twoPow_low 16 (by omega))
  have hd : KeepsKey r { r with flags := r.flags ||| RF.DELETE_ACTIONS_CALLED } := keepsKey_or r _ (twoPow_low 17 (by omega))
  unfold listDispatch
  split
  · exact KeepsKey.refl r
  · simp only
    cases ty <;> simp only
    case insert =>
      split
      · exact KeepsKey.refl r
      · split
        · exact hi
        · exact hi.trans (runActions_keeps hA _ _ _ _)
    case delete =>
      split
      · exact KeepsKey.refl r
      · split
        · exact hd
        · exact hd.trans (runActions_keeps hA _ _ _ _)
    all_goals
      split
      · exact KeepsKey.refl r
      · exact runActions_keeps hA _ _ _ _

theorem insertActions_keeps {A : RuleActs} (hA : A.Keeps) (g : EventConfig) (r : Route) (a : Flags) :
    KeepsKey r (insertActions g A r a).st := by
  unfold insertActions
  cases r.event with
  | none => exact KeepsKey.refl r
  | some e =>
    simp only
    split
    · exact listDispatch_keeps hA g e .insert r a
    · exact KeepsKey.refl r

/-! ### Splicing -/

theorem routeSplice_perm {r : Route} {l l' : List Route} (h : routeSplice r l = some l') : l'.Perm (r :: l) := by
  induction l generalizing l' with
  | nil => cases h; exact List.Perm.refl _
  | cons x xs ih =>
    unfold routeSplice at h
    split at h
    · cases hx : routeSplice r xs with
      | none => rw [hx] at h; cases h
      | some ys =>
        rw [hx] at h
        cases h
        exact ((ih hx).cons x).trans (List.Perm.swap _ _ _)
    · cases h
    · cases h; exact List.Perm.refl _

theorem routeSplice_sorted {r : Route} {l l' : List Route} (hl : SortedTable l) (hr : r.WF) (h : routeSplice r l = some l') :
    SortedTable l' := by
  have hwf : ∀ x ∈ l', x.WF := by
    intro x hx
    rcases List.mem_cons.1 ((routeSplice_perm h).mem_iff.1 hx) with rfl | hx
    · exact hr
    · exact hl.wf x hx
  refine ⟨?_, hwf⟩
  induction l generalizing l' with
  | nil => cases h; simp
  | cons x xs ih =>
    have hxs := List.pairwise_cons.1 hl.sorted
    have hx := hl.wf x (by simp)
    unfold routeSplice at h
    split at h
    · rename_i hlt
      cases hy : routeSplice r xs with
      | none => rw [hy] at h; cases h
      | some ys =>
        rw [hy] at h
        cases h
        refine List.pairwise_cons.2 ⟨?_, ih ⟨hxs.2, fun z hz => hl.wf z (by simp [hz])⟩ hy (fun z hz => hwf z (by simp [hz]))⟩
        intro z hz
        rcases List.mem_cons.1 ((routeSplice_perm hy).mem_iff.1 hz) with rfl | hz
        · exact hlt
        · exact hxs.1 z hz
    · cases h
    · rename_i hgt
      cases h
      have hrx : routeKeyCmp r x = .lt := by rw [Props.C01_swap x r hx hr, hgt]; rfl
      refine List.pairwise_cons.2 ⟨?_, hl.sorted⟩
      intro z hz
      rcases List.mem_cons.1 hz with rfl | hz
      · exact hrx
      · exact Props.C01_lt_trans r x z hr hx (hl.wf z (by simp [hz])) hrx (hxs.1 z hz)

/-- A rule is refused exactly when one with its key is there. -/
theorem routeSplice_none {r : Route} {l : List Route} (hl : SortedTable l) (hr : r.WF) :
    routeSplice r l = none ↔ ∃ x ∈ l, routeKeyCmp x r = .eq := by
  induction l with
  | nil => simp [routeSplice]
  | cons x xs ih =>
    have hxs := List.pairwise_cons.1 hl.sorted
    have hx := hl.wf x (by simp)
    have ih := ih ⟨hxs.2, fun z hz => hl.wf z (by simp [hz])⟩
    unfold routeSplice
    cases hc : routeKeyCmp x r with
    | lt =>
      simp only [Option.map_eq_none_iff, ih]
      constructor
      · rintro ⟨y, hy, he⟩; exact ⟨y, by simp [hy], he⟩
      · rintro ⟨y, hy, he⟩
        rcases List.mem_cons.1 hy with rfl | hy
        · rw [hc] at he; cases he
        · exact ⟨y, hy, he⟩
    | eq => simp only [true_iff]; exact ⟨x, by simp, hc⟩
    | gt =>
      simp only [reduceCtorEq, false_iff]
      rintro ⟨y, hy, he⟩
      rcases List.mem_cons.1 hy with rfl | hy
      · rw [hc] at he; cases he
      · have hyw := hl.wf y (by simp [hy])
        have hrx : routeKeyCmp r x = .lt := by rw [Props.C01_swap x r hx hr, hc]; rfl
        have := Props.C01_lt_trans r x y hr hx hyw hrx (hxs.1 y hy)
        rw [Props.C01_swap y r hyw hr, he] at this
        cases this

/-- Changing the spliced rule afterwards is splicing the changed rule. -/
theorem routeSplice_update {r r' : Route} {l : List Route} (hk : KeepsCore r r') (hr : r.WF) (hw : ∀ x ∈ l, x.WF)
    (hid : ∀ x ∈ l, x.id ≠ r.id) :
    (routeSplice r l).map (fun m => m.map (fun x => if x.id = r'.id then r' else x)) = routeSplice r' l := by
  have hmap : ∀ l : List Route, (∀ x ∈ l, x.id ≠ r.id) → l.map (fun x => if x.id = r'.id then r' else x) = l := by
    intro l hl
    conv => rhs; rw [← List.map_id l]
    apply List.map_congr_left
    intro x hx
    rw [if_neg (by rw [hk.id]; exact hl x hx)]; rfl
  induction l with
  | nil => simp [routeSplice, hk.id]
  | cons x xs ih =>
    have ih := ih (fun z hz => hw z (by simp [hz])) (fun z hz => hid z (by simp [hz]))
    have hxc : routeKeyCmp x r' = routeKeyCmp x r := (KeepsKey.refl x).core.cmp hk (hw x (by simp)) hr
    unfold routeSplice
    rw [hxc]
    cases hc : routeKeyCmp x r with
    | lt =>
      simp only [Option.map_map]
      rw [← ih, Option.map_map]
      congr 1
      funext m
      simp only [Function.comp, List.map_cons]
      rw [if_neg (by rw [hk.id]; exact hid x (by simp))]
    | eq => rfl
    | gt =>
      simp only [Option.map_some, List.map_cons, Option.some.injEq]
      rw [if_pos hk.id.symm, if_neg (by rw [hk.id]; exact hid x (by simp)), hmap xs (fun z hz => hid z (by simp [hz]))]

/-! ### The new table -/

/-- What a successful insertion makes of the table, given the spliced list and the new bitmask
references. -/
def insertedTable (T : RouteTable) (ents : List Route) (afs : List (Nat × Nat)) (r : Route) : RouteTable :=
  (if r.data.purgeAfter ≠ 0 then RouteTable.purgeInsert { T with ents := ents, bitmaskAfs := afs } r.id r.data.purgeAfter
   else { T with ents := ents, bitmaskAfs := afs }).noteInserted r

theorem insertedTable_ents (T : RouteTable) (ents : List Route) (afs : List (Nat × Nat)) (r : Route) :
    (insertedTable T ents afs r).ents = ents ∧ (insertedTable T ents afs r).bitmaskAfs = afs ∧
    (insertedTable T ents afs r).maxPurgeableRoutes = T.maxPurgeableRoutes := by
  unfold insertedTable RouteTable.noteInserted RouteTable.purgeInsert
  split <;> exact ⟨rfl, rfl, rfl⟩

theorem insertedTable_list (T : RouteTable) (ents : List Route) (afs : List (Nat × Nat)) (r : Route) :
    (insertedTable T ents afs r).purgeList =
      if r.data.purgeAfter ≠ 0 then purgeSplice (RouteTable.expiry { T with ents := ents, bitmaskAfs := afs }) r.id r.data.purgeAfter T.purgeList
      else T.purgeList := by
  unfold insertedTable RouteTable.noteInserted RouteTable.purgeInsert
  split <;> rfl

theorem noteInserted_last (T : RouteTable) (r : Route) (id : Nat) (h : (T.noteInserted r).lastAfWildcard = some id) :
    (r.flags.getLsbD 0 = true ∧ id = r.id) ∨ T.lastAfWildcard = some id := by
  unfold RouteTable.noteInserted at h
  simp only at h
  split at h
  · rename_i hf
    have hf' : r.flags.getLsbD 0 = true := by rw [← Flags.has_bit r.flags 0 (by decide)]; exact hf
    split at h
    · cases h; exact Or.inl ⟨hf', rfl⟩
    · split at h
      · cases h; exact Or.inl ⟨hf', rfl⟩
      · exact Or.inr h
  · exact Or.inr h

theorem insertedTable_last (T : RouteTable) (ents : List Route) (afs : List (Nat × Nat)) (r : Route) (id : Nat)
    (h : (insertedTable T ents afs r).lastAfWildcard = some id) : (r.flags.getLsbD 0 = true ∧ id = r.id) ∨ T.lastAfWildcard = some id := by
  unfold insertedTable at h
  rcases noteInserted_last _ r id h with h | h
  · exact Or.inl h
  · refine Or.inr ?_
    split at h <;> exact h

theorem insertedTable_hp (T : RouteTable) (ents : List Route) (afs : List (Nat × Nat)) (r : Route) :
    (insertedTable T ents afs r).highestPriority = if r.effPriority < T.highestPriority then r.effPriority else T.highestPriority := by
  unfold insertedTable RouteTable.noteInserted RouteTable.purgeInsert
  by_cases h : r.data.purgeAfter ≠ 0
  · rw [if_pos h]
  · rw [if_neg h]

theorem expiry_inserted {T : RouteTable} (hn : (T.ents.map (·.id)).Nodup) {ents : List Route} {afs : List (Nat × Nat)} {r : Route}
    (hp : ents.Perm (r :: T.ents)) (hid : ∀ x ∈ T.ents, x.id ≠ r.id) :
    (∀ x ∈ T.ents, RouteTable.expiry { T with ents := ents, bitmaskAfs := afs } x.id = T.expiry x.id) ∧
    RouteTable.expiry { T with ents := ents, bitmaskAfs := afs } r.id = r.data.purgeAfter := by
  have hn' : (ents.map (·.id)).Nodup := by
    rw [(hp.map _).nodup_iff, List.map_cons, List.nodup_cons]
    refine ⟨?_, hn⟩
    intro hc
    obtain ⟨x, hx, h⟩ := List.mem_map.1 hc
    exact hid x hx h
  constructor
  · intro x hx
    rw [expiry_mem hn hx]
    exact expiry_mem (T := { T with ents := ents, bitmaskAfs := afs }) hn' (hp.mem_iff.2 (by simp [hx]))
  · exact expiry_mem (T := { T with ents := ents, bitmaskAfs := afs }) hn' (hp.mem_iff.2 (by simp))

theorem TableInv.inserted {T : RouteTable} (h : TableInv T) {ents : List Route} {afs : List (Nat × Nat)} {r : Route} (hr : r.WF)
    (hid : ∀ x ∈ T.ents, x.id ≠ r.id) (hid0 : r.id ≠ 0) (hin : r.flags.getLsbD 14 = true) (hz : WildZero r) (hse : Sensical r.flags)
    (he : routeSplice r T.ents = some ents) (ha : insertAfs T r = .ok afs) : TableInv (insertedTable T ents afs r) := by
  have hp := routeSplice_perm he
  have hmem : ∀ x, x ∈ ents ↔ x = r ∨ x ∈ T.ents := fun x => by rw [hp.mem_iff, List.mem_cons]
  obtain ⟨e1, e2, _⟩ := insertedTable_ents T ents afs r
  have hbm : ∀ af, bmCount ents af = bmCount T.ents af + (if r.hasBitmask = true ∧ r.family = af then 1 else 0) := by
    intro af; rw [bmCount_perm hp, bmCount_cons]
  have hafs : (afs.map (·.1)).Nodup ∧ ∀ a m, (a, m) ∈ afs ↔
      (a ≠ r.family ∨ r.hasBitmask = false) ∧ (a, m) ∈ T.bitmaskAfs ∨ (r.hasBitmask = true ∧ a = r.family ∧ m = bmCount T.ents a + 1) := by
    unfold insertAfs at ha
    by_cases hb : r.hasBitmask = true
    · rw [if_pos hb] at ha
      obtain ⟨h1, h2⟩ := upref_ok h.core.afsNodup ha
      refine ⟨h1, ?_⟩
      intro a m
      rcases h2 with ⟨n, h3, h4⟩ | ⟨h3, h4⟩
      · have := (h.core.afsCount _ _ h3).1
        rw [h4]
        constructor
        · rintro (⟨h5, h6⟩ | ⟨rfl, rfl⟩)
          · exact Or.inl ⟨Or.inl h5, h6⟩
          · exact Or.inr ⟨hb, rfl, by omega⟩
        · rintro (⟨h5 | h5, h6⟩ | ⟨_, rfl, rfl⟩)
          · exact Or.inl ⟨h5, h6⟩
          · rw [hb] at h5; cases h5
          · exact Or.inr ⟨rfl, by omega⟩
      · have hz : bmCount T.ents r.family = 0 := by
          rcases Nat.eq_zero_or_pos (bmCount T.ents r.family) with h0 | h0
          · exact h0
          · exact absurd (h.core.afsMem _ h0) h3
        rw [h4]
        constructor
        · rintro (⟨h5, h6⟩ | ⟨rfl, rfl⟩)
          · exact Or.inl ⟨Or.inl h5, h6⟩
          · exact Or.inr ⟨hb, rfl, by omega⟩
        · rintro (⟨h5 | h5, h6⟩ | ⟨_, rfl, rfl⟩)
          · exact Or.inl ⟨h5, h6⟩
          · rw [hb] at h5; cases h5
          · exact Or.inr ⟨rfl, by omega⟩
    · rw [if_neg hb] at ha
      cases ha
      refine ⟨h.core.afsNodup, ?_⟩
      intro a m
      simp only [Bool.not_eq_true] at hb
      simp [hb]
  refine ⟨?_, ?_, ?_⟩
  · constructor
    · rw [e1]; exact routeSplice_sorted h.core.sorted hr he
    · rw [e1, (hp.map _).nodup_iff, List.map_cons, List.nodup_cons]
      refine ⟨?_, h.core.ids⟩
      intro hc
      obtain ⟨x, hx, hh⟩ := List.mem_map.1 hc
      exact hid x hx hh
    · intro x hx
      rw [e1, hmem] at hx
      rcases hx with rfl | hx
      · exact hid0
      · exact h.core.nonzero x hx
    · intro id hl
      rw [e1]
      rcases insertedTable_last T ents afs r id hl with ⟨h1, rfl⟩ | h1
      · exact ⟨r, (hmem r).2 (Or.inl rfl), rfl, h1⟩
      · obtain ⟨x, hx, h2⟩ := h.core.lastAf id h1
        exact ⟨x, (hmem x).2 (Or.inr hx), h2⟩
    · intro x hx
      rw [e1, hmem] at hx
      rw [insertedTable_hp]
      rcases hx with rfl | hx
      · split <;> omega
      · have := h.core.hpLe x hx
        split <;> omega
    · rw [e1, insertedTable_hp]
      split
      · exact Or.inr ⟨r, (hmem r).2 (Or.inl rfl), rfl⟩
      · rcases h.core.hpEx with h1 | ⟨x, hx, h1⟩
        · exact Or.inl h1
        · exact Or.inr ⟨x, (hmem x).2 (Or.inr hx), h1⟩
    · rw [e2]; exact hafs.1
    · intro af n hn
      rw [e2, hafs.2] at hn
      rw [e1, hbm]
      rcases hn with ⟨h1, h2⟩ | ⟨h1, rfl, rfl⟩
      · have := h.core.afsCount _ _ h2
        rw [if_neg]
        · omega
        · rintro ⟨h3, h4⟩
          rcases h1 with h1 | h1
          · exact h1 h4.symm
          · rw [h1] at h3; cases h3
      · rw [if_pos ⟨h1, rfl⟩]; omega
    · intro af hpos
      rw [e1, hbm] at hpos
      rw [e2, List.mem_map]
      by_cases hb : r.hasBitmask = true ∧ r.family = af
      · exact ⟨(af, bmCount T.ents af + 1), (hafs.2 _ _).2 (Or.inr ⟨hb.1, hb.2.symm, rfl⟩), rfl⟩
      · rw [if_neg hb] at hpos
        obtain ⟨⟨a, k⟩, hq, ha'⟩ := List.mem_map.1 (h.core.afsMem af (by omega))
        simp only at ha'
        subst ha'
        refine ⟨(a, k), (hafs.2 _ _).2 (Or.inl ⟨?_, hq⟩), rfl⟩
        by_cases hb1 : r.hasBitmask = true
        · exact Or.inl (fun hc => hb ⟨hb1, hc.symm⟩)
        · exact Or.inr (by simpa using hb1)
    · intro x hx
      rw [e1, hmem] at hx
      rcases hx with rfl | hx
      · exact hin
      · exact h.core.inTable x hx
    · intro x hx
      rw [e1, hmem] at hx
      rcases hx with rfl | hx
      · exact hz
      · exact h.core.wildZero x hx
    · intro x hx
      rw [e1, hmem] at hx
      rcases hx with rfl | hx
      · exact hse
      · exact h.core.sens x hx
  · rw [insertedTable_list]
    have hnr : r.id ∉ T.purgeList := by
      intro hc
      obtain ⟨x, hx, h1, _⟩ := (h.purge.mem _).1 hc
      exact hid x hx h1
    split
    · rw [(purgeSplice_perm _ _ _ _).nodup_iff, List.nodup_cons]
      exact ⟨hnr, h.purge.nodup⟩
    · exact h.purge.nodup
  · intro id
    rw [insertedTable_list, e1]
    have key : id ∈ (if r.data.purgeAfter ≠ 0 then
        purgeSplice (RouteTable.expiry { T with ents := ents, bitmaskAfs := afs }) r.id r.data.purgeAfter T.purgeList
        else T.purgeList) ↔ (r.data.purgeAfter ≠ 0 ∧ id = r.id) ∨ id ∈ T.purgeList := by
      split
      · rename_i h0
        rw [(purgeSplice_perm _ _ _ _).mem_iff, List.mem_cons]
        simp [h0]
      · rename_i h0; simp [h0]
    rw [key, h.purge.mem]
    constructor
    · rintro (⟨h1, rfl⟩ | ⟨x, hx, h1, h2⟩)
      · exact ⟨r, (hmem r).2 (Or.inl rfl), rfl, h1⟩
      · exact ⟨x, (hmem x).2 (Or.inr hx), h1, h2⟩
    · rintro ⟨x, hx, h1, h2⟩
      rcases (hmem x).1 hx with rfl | hx
      · exact Or.inl ⟨h2, h1.symm⟩
      · exact Or.inr ⟨x, hx, h1, h2⟩

theorem PurgeSorted.inserted {T : RouteTable} (h : TableInv T) (hs : PurgeSorted T) {ents : List Route} {afs : List (Nat × Nat)} {r : Route}
    (hid : ∀ x ∈ T.ents, x.id ≠ r.id) (he : routeSplice r T.ents = some ents) : PurgeSorted (insertedTable T ents afs r) := by
  have hp := routeSplice_perm he
  obtain ⟨hx1, hx2⟩ := expiry_inserted (afs := afs) h.core.ids hp hid
  have hexp : (insertedTable T ents afs r).expiry = RouteTable.expiry { T with ents := ents, bitmaskAfs := afs } := by
    funext x; exact expiry_ents (insertedTable_ents T ents afs r).1 x
  unfold PurgeSorted
  rw [hexp, insertedTable_list]
  have hold : T.purgeList.Pairwise (fun a b => RouteTable.expiry { T with ents := ents, bitmaskAfs := afs } b ≤
      RouteTable.expiry { T with ents := ents, bitmaskAfs := afs } a) := by
    refine List.Pairwise.imp_of_mem ?_ hs
    intro a b ha hb hab
    obtain ⟨x, hx, rfl, _⟩ := (h.purge.mem _).1 ha
    obtain ⟨y, hy, rfl, _⟩ := (h.purge.mem _).1 hb
    rw [hx1 x hx, hx1 y hy]; exact hab
  split
  · exact purgeSplice_sorted _ _ _ _ hx2 hold
  · exact hold

/-! ### Preparing a rule -/

theorem flagsSensical_iff (f : Flags) : flagsSensical f = true ↔ Sensical f := by
  unfold flagsSensical Sensical RF.SA_FAMILY_WILDCARD RF.SA_REMOTE_ADDR_WILDCARD RF.SA_LOCAL_ADDR_WILDCARD RF.SA_PROTO_WILDCARD
    RF.SA_REMOTE_PORT_WILDCARD RF.SA_LOCAL_PORT_WILDCARD
  simp only [Flags.has_bit _ _ (show 0 < 32 by decide), Flags.has_bit _ _ (show 1 < 32 by decide), Flags.has_bit _ _ (show 2 < 32 by decide),
    Flags.has_bit _ _ (show 3 < 32 by decide), Flags.has_bit _ _ (show 4 < 32 by decide), Flags.has_bit _ _ (show 5 < 32 by decide)]
  generalize f.getLsbD 0 = b0
  generalize f.getLsbD 1 = b1
  generalize f.getLsbD 2 = b2
  generalize f.getLsbD 3 = b3
  generalize f.getLsbD 4 = b4
  generalize f.getLsbD 5 = b5
  revert b0 b1 b2 b3 b4 b5
  decide

theorem map_zero (l : List Byte) : ∀ b ∈ l.map (fun _ => 0#8), b = 0 := by
  intro b hb
  obtain ⟨_, _, rfl⟩ := List.mem_map.1 hb; rfl

theorem clampWildcards_wf {r : Route} (h : r.WF) : (clampWildcards r).WF := by
  obtain ⟨h1, h2⟩ := h
  unfold Endpoint.WF at h1 h2
  constructor
  · unfold Endpoint.WF clampWildcards
    simp only
    split <;> simp [h1]
  · unfold Endpoint.WF clampWildcards
    simp only
    split <;> simp [h2]

theorem clampWildcards_flags (r : Route) : (clampWildcards r).flags = r.flags := rfl

theorem clampWildcards_zero (r : Route) : WildZero (clampWildcards r) := by
  have hb : ∀ k, k < 32 → r.flags.getLsbD k = true → r.flags.has (bit k) = true := fun k hk h => by
    rw [Flags.has_bit _ _ hk]; exact h
  constructor <;> rw [clampWildcards_flags] <;> intro hf <;> unfold clampWildcards <;> simp only
  · exact if_pos (hb 0 (by omega) hf)
  · rw [if_pos (show r.flags.has RF.SA_REMOTE_ADDR_WILDCARD = true from hb 1 (by omega) hf)]; exact map_zero _
  · exact if_pos (hb 2 (by omega) hf)
  · exact if_pos (hb 3 (by omega) hf)
  · rw [if_pos (show r.flags.has RF.SA_LOCAL_ADDR_WILDCARD = true from hb 4 (by omega) hf)]; exact map_zero _
  · exact if_pos (hb 5 (by omega) hf)
  · exact if_pos (hb 6 (by omega) hf)
  · exact if_pos (hb 7 (by omega) hf)

theorem insertPrepare_ok {g : EventConfig} {now : Int} {r0 r : Route} {ares : Flags} (h : insertPrepare g now r0 ares = .ok r)
    (hwf : r0.WF) : r.WF ∧ WildZero r ∧ flagsSensical r.flags = true ∧ r.flags.getLsbD 14 = false ∧ r.id = r0.id ∧ r.event = r0.event := by
  unfold insertPrepare at h
  simp only at h
  split at h
  · cases h
  · rename_i hs
    split at h
    · cases h
    · rename_i hi
      split at h
      · cases h
      · cases h
        refine ⟨clampWildcards_wf (r := { r0 with flags := _ }) hwf, ?_, ?_, ?_, rfl, rfl⟩
        · have := clampWildcards_zero { r0 with flags :=
            (r0.flags &&& ~~~(configOf g r0.event).routeFlagsToClear) ||| (configOf g r0.event).routeFlagsToAdd }
          exact ⟨this.1, this.2, this.3, this.4, this.5, this.6, this.7, this.8⟩
        · simpa [clampWildcards] using hs
        · simp only [clampWildcards]
          rw [← Flags.has_bit _ 14 (by decide)]
          simp only [Bool.not_eq_true] at hi
          cases hh : Flags.has ((r0.flags &&& ~~~(configOf g r0.event).routeFlagsToClear) ||| (configOf g r0.event).routeFlagsToAdd) (bit 14) with
          | false => rfl
          | true =>
            rw [Flags.has_bit _ _ (by decide)] at hh
            exfalso
            have hall : Flags.hasAll ((r0.flags &&& ~~~(configOf g r0.event).routeFlagsToClear) ||| (configOf g r0.event).routeFlagsToAdd)
                RF.IN_TABLE = true := by
              unfold Flags.hasAll RF.IN_TABLE bit
              rw [BitVec.and_twoPow, if_pos hh]; simp
            rw [hall] at hi; cases hi

/-! ### Committing -/

/-- The four ways the last part of an insertion ends. -/
theorem insertCommit_cases (g : EventConfig) (A : RuleActs) (hA : A.Keeps) (T : RouteTable) (hT : SortedTable T.ents) (r0 : Route)
    (hr0 : r0.WF) (newId : Except Err Nat) (hfresh : FreshId T newId) (ares : Flags) :
    -- nothing happened
    ((insertCommit g A T r0 newId ares).T = T ∧ (∃ e, (insertCommit g A T r0 newId ares).res = .error e) ∧
       (insertCommit g A T r0 newId ares).actionsFailed = false ∧ (insertCommit g A T r0 newId ares).ares = ares) ∨
    -- a rule pending deletion is revived
    (∃ old, old ∈ T.ents ∧ routeKeyCmp old r0 = .eq ∧ old.flags.has RF.PENDING_DELETE = true ∧
       (insertCommit g A T r0 newId ares).actionsFailed = false ∧
       (insertCommit g A T r0 newId ares).res = .ok (.alreadyOk old.id) ∧
       (insertCommit g A T r0 newId ares).T = (T.update { old with flags := old.flags &&& ~~~RF.PENDING_DELETE }).setExpiry
         { old with flags := old.flags &&& ~~~RF.PENDING_DELETE } r0.data.purgeAfter) ∨
    -- inserted
    (∃ id ents afs st, newId = .ok id ∧ KeepsKey (enterTable r0 id) st ∧ routeSplice st T.ents = some ents ∧ insertAfs T st = .ok afs ∧
       (insertCommit g A T r0 newId ares).res = .ok .inserted ∧ (insertCommit g A T r0 newId ares).actionsFailed = false ∧
       (insertCommit g A T r0 newId ares).rule = st ∧
       (insertCommit g A T r0 newId ares).T = insertedTable T ents afs st) ∨
    -- the insert actions failed
    ((insertCommit g A T r0 newId ares).actionsFailed = true ∧ ∃ e, (insertCommit g A T r0 newId ares).res = .error e) := by
  cases newId with
  | error e => exact Or.inl ⟨rfl, ⟨e, rfl⟩, rfl, rfl⟩
  | ok id =>
    obtain ⟨hid0, hid⟩ := hfresh id rfl
    have hrw : (enterTable r0 id).WF := hr0
    have hkc : ∀ x ∈ T.ents, routeKeyCmp x (enterTable r0 id) = routeKeyCmp x r0 := by
      intro x hx
      have hxw := hT.wf x hx
      have hs : SameKey r0 (enterTable r0 id) := by
        refine ⟨rfl, rfl, rfl, rfl, rfl, rfl, rfl, rfl, rfl, rfl, ?_, rfl, rfl⟩
        intro k hk
        simp only [enterTable, BitVec.getLsbD_or, RF.IN_TABLE, bit, BitVec.getLsbD_twoPow]
        have : ¬ 14 = k := by omega
        simp [this]
      rw [Props.C01_swap (enterTable r0 id) x hrw hxw, Props.C01_swap r0 x hr0 hxw,
        Props.C01_congr r0 (enterTable r0 id) x hr0 hrw hxw hs]
    cases hsp : routeSplice (enterTable r0 id) T.ents with
    | none =>
      cases hfd : T.ents.find? (fun x => routeKeyCmp x (enterTable r0 id) == .eq) with
      | none =>
        have e : insertCommit g A T r0 (.ok id) ares = { T := T, rule := { r0 with id := 0, flags := r0.flags &&& ~~~RF.IN_TABLE }, ares := ares, res := .error .itemNotFound } := by
          unfold insertCommit; simp only [hsp, hfd]
        rw [e]; exact Or.inl ⟨rfl, ⟨_, rfl⟩, rfl, rfl⟩
      | some old =>
        have hom := List.mem_of_find?_eq_some hfd
        have hoe : routeKeyCmp old (enterTable r0 id) = .eq := by simpa using List.find?_some hfd
        by_cases hpd : old.flags.has RF.PENDING_DELETE = true
        · have e : insertCommit g A T r0 (.ok id) ares =
              { T := (T.update { old with flags := old.flags &&& ~~~RF.PENDING_DELETE }).setExpiry
                  { old with flags := old.flags &&& ~~~RF.PENDING_DELETE } r0.data.purgeAfter,
                rule := { r0 with id := 0, flags := r0.flags &&& ~~~RF.IN_TABLE }, ares := ares, res := .ok (.alreadyOk old.id) } := by
            unfold insertCommit; simp only [hsp, hfd, hpd, if_true]
          rw [e]
          exact Or.inr (Or.inl ⟨old, hom, by rw [← hkc old hom]; exact hoe, hpd, rfl, rfl, rfl⟩)
        · have e : insertCommit g A T r0 (.ok id) ares =
              { T := T, rule := { r0 with id := 0, flags := r0.flags &&& ~~~RF.IN_TABLE }, ares := ares, res := .error .itemAlreadyPresent } := by
            unfold insertCommit; simp only [hsp, hfd, hpd]; rfl
          rw [e]
          exact Or.inl ⟨rfl, ⟨_, rfl⟩, rfl, rfl⟩
    | some ents =>
      cases haf : insertAfs T (enterTable r0 id) with
      | error er =>
        have e : insertCommit g A T r0 (.ok id) ares =
            { T := T, rule := { enterTable r0 id with id := 0 }, ares := ares, res := .error er } := by
          unfold insertCommit; simp only [hsp, haf]
        rw [e]
        exact Or.inl ⟨rfl, ⟨_, rfl⟩, rfl, rfl⟩
      | ok afs =>
        have hk := insertActions_keeps hA g (enterTable r0 id) (ares ||| AR.INSERTED)
        generalize hact : insertActions g A (enterTable r0 id) (ares ||| AR.INSERTED) = a at hk
        obtain ⟨called, st, ares', err⟩ := a
        simp only at hk
        cases err with
        | some er =>
          refine Or.inr (Or.inr (Or.inr ?_))
          unfold insertCommit
          simp only [hsp, haf, hact]
          exact ⟨trivial, er, rfl⟩
        | none =>
          refine Or.inr (Or.inr (Or.inl ?_))
          have hup := routeSplice_update hk.core hrw hT.wf (fun x hx => hid x hx)
          rw [hsp] at hup
          simp only [Option.map_some] at hup
          refine ⟨id, _, afs, st, rfl, hk, hup.symm, ?_, ?_⟩
          · unfold insertAfs at haf ⊢
            rw [hk.core.bitmask, hk.core.family]; exact haf
          · unfold insertCommit
            simp only [hsp, haf, hact]
            exact ⟨trivial, trivial, trivial, rfl⟩

/-! ### All calls -/

/-- Making room. -/
theorem insertEvict_cases {g : EventConfig} {A : RuleActs} {now : Int} {T : RouteTable} (h : TableInv T) (r : Route) :
    (¬ (r.data.purgeAfter ≠ 0 ∧ T.maxPurgeableRoutes > 0 ∧ T.purgeList.length ≥ T.maxPurgeableRoutes) ∧
      insertEvict g A now T r = some (T, .ok ())) ∨
    ((r.data.purgeAfter ≠ 0 ∧ T.maxPurgeableRoutes > 0 ∧ T.purgeList.length ≥ T.maxPurgeableRoutes) ∧
      ∃ v, v ∈ T.ents ∧ T.purgeList.getLast? = some v.id ∧ insertEvict g A now T r = some (T.removeRule v, .ok ())) := by
  unfold insertEvict
  split
  · rename_i hc
    refine Or.inr ⟨hc, ?_⟩
    have hne : T.purgeList ≠ [] := by
      intro h0; rw [h0] at hc; simp at hc; omega
    have hl : T.purgeList.getLast? = some (T.purgeList.getLast hne) := List.getLast?_eq_some_getLast hne
    obtain ⟨v, hv, h1, _⟩ := (h.purge.mem _).1 (List.getLast_mem hne)
    refine ⟨v, hv, by rw [hl, h1], ?_⟩
    have hg : T.get? v.id = some v := get?_mem h.core.ids hv
    unfold stalePurge
    rw [hl, ← h1]
    simp only [ne_eq, not_true_eq_false, false_and, if_false]
    unfold purgeLoop
    rw [hl, ← h1, ]
    simp only [hg, ne_eq, not_true_eq_false, false_and, if_false]
    rw [delete0_now]
    rfl
  · rename_i hc
    exact Or.inl ⟨hc, rfl⟩

theorem TableInv.insert1 {g : EventConfig} {A : RuleActs} (hA : A.Keeps) {T : RouteTable} (h : TableInv T) {r0 : Route} (hwf : r0.WF)
    {now : Except Err Int} {newId : Except Err Nat} (hid : FreshId T newId) {ares : Flags} {res : InsRes}
    (hi : insert1 g A T r0 now newId ares = some res) (hok : res.actionsFailed = false) :
    TableInv res.T ∧ (PurgeSorted T → PurgeSorted res.T) := by
  unfold WS.insert1 at hi
  cases now with
  | error e =>
    simp only at hi
    split at hi
    · cases hi; exact ⟨h, id⟩
    · cases hi; exact ⟨h, id⟩
  | ok t =>
    simp only at hi
    cases hp : insertPrepare g t r0 ares with
    | error e => rw [hp] at hi; cases hi; exact ⟨h, id⟩
    | ok r =>
      rw [hp] at hi
      simp only at hi
      obtain ⟨hw, hz, hse, hin, _, _⟩ := insertPrepare_ok hp hwf
      -- the table after making room
      have key : ∀ T1, TableInv T1 → FreshId T1 newId → (insertCommit g A T1 r newId ares).actionsFailed = false →
          TableInv (insertCommit g A T1 r newId ares).T ∧ (PurgeSorted T1 → PurgeSorted (insertCommit g A T1 r newId ares).T) := by
        intro T1 h1 hf hna
        rcases insertCommit_cases g A hA T1 h1.core.sorted r hw newId hf ares with ⟨e, _⟩ | ⟨old, ho, _, _, _, _, e⟩ |
          ⟨id, ents, afs, st, hni, hk, hsp, haf, _, _, _, e⟩ | ⟨e, _⟩
        · rw [e]; exact ⟨h1, id⟩
        · have hko : KeepsKey old { old with flags := old.flags &&& ~~~RF.PENDING_DELETE } := keepsKey_andNot old _ (twoPow_low 15 (by omega))
          have hu := h1.update ho hko
          have hm : ({ old with flags := old.flags &&& ~~~RF.PENDING_DELETE } : Route) ∈
              (T1.update { old with flags := old.flags &&& ~~~RF.PENDING_DELETE }).ents :=
            (update_mem (r := old) (r' := { old with flags := old.flags &&& ~~~RF.PENDING_DELETE }) ho rfl _).2 (Or.inl rfl)
          rw [e]
          exact ⟨hu.setExpiry hm _, fun hs => (hs.update h1.core.ids ho hko).setExpiry hu hm _⟩
        · have hf' := hf id hni
          have hw' : st.WF := hk.core.wf (a := enterTable r id) hw
          have hidst : st.id = id := hk.id
          have hne : ∀ x ∈ T1.ents, x.id ≠ st.id := by rw [hidst]; exact hf'.2
          rw [e]
          refine ⟨h1.inserted hw' hne (by rw [hidst]; exact hf'.1) ?_ ?_ ?_ hsp haf, fun hs => hs.inserted h1 hne hsp⟩
          · rw [hk.flags 14 (by omega)]
            simp [enterTable, RF.IN_TABLE, bit]
          · refine hk.core.wildZero ?_
            have hlow : ∀ k, k < 14 → (enterTable r id).flags.getLsbD k = r.flags.getLsbD k := by
              intro k hk
              simp only [enterTable, BitVec.getLsbD_or, RF.IN_TABLE, bit, BitVec.getLsbD_twoPow]
              have : ¬ 14 = k := by omega
              simp [this]
            constructor <;> rw [hlow _ (by omega)]
            · exact hz.1
            · exact hz.2
            · exact hz.3
            · exact hz.4
            · exact hz.5
            · exact hz.6
            · exact hz.7
            · exact hz.8
          · refine hk.core.sensical ?_
            have hlow : ∀ k, k < 14 → (enterTable r id).flags.getLsbD k = r.flags.getLsbD k := by
              intro k hk
              simp only [enterTable, BitVec.getLsbD_or, RF.IN_TABLE, bit, BitVec.getLsbD_twoPow]
              have : ¬ 14 = k := by omega
              simp [this]
            have := (flagsSensical_iff _).1 hse
            unfold Sensical at this ⊢
            rw [hlow 0 (by omega), hlow 1 (by omega), hlow 2 (by omega), hlow 3 (by omega), hlow 4 (by omega), hlow 5 (by omega)]
            exact this
        · rw [hna] at e; cases e
      rcases insertEvict_cases (g := g) (A := A) (now := t) h r with ⟨_, e⟩ | ⟨_, v, hv, _, e⟩
      · rw [e] at hi
        simp only [Option.some.injEq] at hi
        subst hi
        exact key T h hid hok
      · rw [e] at hi
        simp only [Option.some.injEq] at hi
        subst hi
        obtain ⟨k1, k2⟩ := key (T.removeRule v) (h.removeRule hv)
          (fun i hi' => ⟨(hid i hi').1, fun x hx => (hid i hi').2 x ((removeRule_mem h.core.ids hv x).1 hx).1⟩) hok
        exact ⟨k1, fun hs => k2 (hs.removeRule h hv)⟩

theorem updateFlags_keeps {r : Route} {set clear : Flags} {now : Except Err Int} {ares : Flags} {x : Route × Flags × Flags × Flags}
    (hin : r.flags.getLsbD 14 = true) (h : updateFlags r set clear now ares = .ok x) : KeepsKey r x.1 := by
  unfold updateFlags at h
  split at h
  · cases h
  · split at h
    · cases h
    · rename_i h1
      split at h
      · cases h
      · rename_i h2
        cases h
        have hsc : ∀ k, k < 15 → (set ||| clear).getLsbD k = false := by
          intro k hk
          by_cases h14 : k = 14
          · subst h14
            have := h1
            simp only [Bool.not_eq_true] at this
            cases hb : (set ||| clear).getLsbD 14 with
            | false => rfl
            | true =>
              exfalso
              have hne : (set ||| clear) &&& (RF.PENDING_DELETE ||| RF.IN_TABLE) ≠ 0#32 := by
                intro hc
                have := congrArg (fun z => BitVec.getLsbD z 14) hc
                have hm : (RF.PENDING_DELETE ||| RF.IN_TABLE).getLsbD 14 = true := by decide
                simp only [BitVec.getLsbD_and, hb, hm] at this
                simp at this
              unfold Flags.has at this
              rw [bne_iff_ne.2 hne] at this
              cases this
          · cases hb : (set ||| clear).getLsbD k with
            | false => rfl
            | true =>
              exfalso
              apply h2
              refine ⟨by rw [show RF.IN_TABLE = bit 14 from rfl, Flags.has_bit _ _ (by decide)]; exact hin, ?_⟩
              unfold Flags.has
              rw [bne_iff_ne]
              intro hc
              have := congrArg (fun z => BitVec.getLsbD z k) hc
              have hm : ∀ j, j < 14 → RF.IMMUTABLE_FLAGS.getLsbD j = true := by decide
              simp only [BitVec.getLsbD_and, hb, hm k (by omega)] at this
              simp at this
        refine ⟨rfl, rfl, rfl, rfl, rfl, rfl, ?_, rfl⟩
        intro k hk
        have hs := hsc k hk
        rw [BitVec.getLsbD_or, Bool.or_eq_false_iff] at hs
        simp only [Flags.setClear, BitVec.getLsbD_and, BitVec.getLsbD_or, BitVec.getLsbD_not, hs.1, hs.2]
        have : k < 32 := by omega
        simp [this]

theorem bulkInsertLoop_keeps {g : EventConfig} {A : RuleActs} (hA : A.Keeps) (l : List Route) (hn : (l.map (·.id)).Nodup) (ares : Flags) :
    ∃ f : Route → Route, (bulkInsertLoop g A l ares).1 = l.map f ∧ ∀ x ∈ l, KeepsKey x (f x) := by
  induction l generalizing ares with
  | nil => exact ⟨id, rfl, by simp⟩
  | cons r rest ih =>
    simp only [List.map_cons, List.nodup_cons] at hn
    have hk := insertActions_keeps hA g r ares
    have step : ∀ (st : Route) (f : Route → Route), KeepsKey r st → (∀ x ∈ rest, KeepsKey x (f x)) →
        st :: rest.map f = (r :: rest).map (fun x => if x.id = r.id then st else f x) ∧
        ∀ x ∈ r :: rest, KeepsKey x ((fun x => if x.id = r.id then st else f x) x) := by
      intro st f h1 h2
      constructor
      · simp only [List.map_cons, if_true]
        congr 1
        apply List.map_congr_left
        intro x hx
        rw [if_neg]
        intro hc
        exact hn.1 (List.mem_map.2 ⟨x, hx, hc⟩)
      · intro x hx
        simp only
        rcases List.mem_cons.1 hx with rfl | hx
        · rw [if_pos rfl]; exact h1
        · rw [if_neg (fun hc => hn.1 (List.mem_map.2 ⟨x, hx, hc⟩))]; exact h2 x hx
    unfold bulkInsertLoop
    simp only
    split
    · split
      · obtain ⟨f, e, hf⟩ := ih hn.2 (insertActions g A r ares).ares
        rw [e]
        exact ⟨_, step _ f hk hf⟩
      · have := step (insertActions g A r ares).st id hk (fun x _ => KeepsKey.refl x)
        rw [List.map_id] at this
        exact ⟨_, this⟩
    · obtain ⟨f, e, hf⟩ := ih hn.2 (insertActions g A r ares).ares
      rw [e]
      exact ⟨_, step _ f hk hf⟩

theorem lookup_exact_mem {T : RouteTable} (hT : SortedTable T.ents) {key r : Route} (hk : key.WF) {inx : Flags}
    (h : lookup T key true none 0 = some (.ok (r, inx))) : r ∈ T.ents ∧ routeKeyCmp r key = .eq := by
  rcases (lookup_exact T none hT key hk 0 _).1 h with ⟨x, hx, he, e⟩ | ⟨_, e⟩
  · cases e; exact ⟨hx, he⟩
  · cases e

/-- Every call keeps the invariants. -/
theorem Step.inv {g : EventConfig} {b : Bool} {T T' : RouteTable} (h : TableInv T) (hs : Step g b T T') :
    TableInv T' ∧ (b = false → PurgeSorted T → PurgeSorted T') := by
  cases hs with
  | insert A r0 now newId ares res hA hwf hid hi hok =>
    obtain ⟨h1, h2⟩ := h.insert1 hA hwf hid hi hok
    exact ⟨h1, fun _ => h2⟩
  | deleteKey A key ares hwf =>
    unfold deleteByKey
    split
    · rename_i r inx hl
      have hm := (lookup_exact_mem h.core.sorted hwf hl).1
      exact ⟨h.delete0 hm _ _, fun _ hp => hp.delete0 h hm _ _⟩
    · exact ⟨h, fun _ => id⟩
    · exact ⟨h, fun _ => id⟩
  | deleteId A id ares =>
    unfold deleteById
    split
    · rename_i r hl
      have hm := (get?_some hl).1
      exact ⟨h.delete0 hm _ _, fun _ hp => hp.delete0 h hm _ _⟩
    · exact ⟨h, fun _ hp => hp⟩
  | flush A ares =>
    refine ⟨(flush_empty h ares).1, fun _ hp => ?_⟩
    exact (flush_inv (g := g) (A := A) (fun T => TableInv T ∧ PurgeSorted T)
      (fun _ _ h hr => ⟨h.1.removeRule hr, h.2.removeRule h.1 hr⟩) (fun _ h => h.1.core.ids) T.ents T ares ⟨h, hp⟩
      (fun _ hr => hr) h.core.ids).1.2
  | purge A mode now fuel ares x hx => exact ⟨h.purge' hx, fun _ hp => hp.purge' h hx⟩
  | setExpiry r hr t => exact ⟨h.setExpiry hr t, fun _ hp => hp.setExpiry h hr t⟩
  | updateFlags r hr set clear now ares x hx =>
    have hk := updateFlags_keeps (h.core.inTable r hr) hx
    exact ⟨h.update hr hk, fun _ hp => hp.update h.core.ids hr hk⟩
  | touch r hr d hd =>
    have hk : KeepsKey r { r with data := d } := ⟨rfl, rfl, rfl, rfl, rfl, rfl, fun _ _ => rfl, hd⟩
    exact ⟨h.update hr hk, fun _ hp => hp.update h.core.ids hr hk⟩
  | hit r hr idle lastHit ht htail =>
    refine ⟨h.hitExpiry hr _ _ ht, fun hb hp => hp.hitExpiry h hr _ _ ht ?_⟩
    rcases htail with e | e
    · rw [hb] at e; cases e
    · exact e
  | policy p _ hp =>
    unfold defaultPolicySet at hp
    split at hp
    · cases hp
    · cases hp; exact ⟨⟨h.core.congr rfl rfl rfl rfl, h.purge.congr rfl rfl⟩, fun _ hp => hp.congr rfl rfl⟩
  | maxPurgeable A now fuel n x hx =>
    have h' : TableInv { T with maxPurgeableRoutes := n } := ⟨h.core.congr rfl rfl rfl rfl, h.purge.congr rfl rfl⟩
    unfold maxPurgeableSet at hx
    simp only at hx
    split at hx
    · obtain ⟨y, hy, rfl⟩ := Option.map_eq_some_iff.1 hx
      exact ⟨h'.purge' hy, fun _ hp => PurgeSorted.purge' h' (hp.congr rfl rfl) hy⟩
    · cases hx; exact ⟨h', fun _ hp => hp.congr rfl rfl⟩
  | maxIdle t => exact ⟨⟨h.core.congr rfl rfl rfl rfl, h.purge.congr rfl rfl⟩, fun _ hp => hp.congr rfl rfl⟩
  | bulkClear =>
    have hk : ∀ x ∈ T.ents, KeepsKey x ((fun r : Route => { r with flags := r.flags &&& ~~~RF.INSERT_ACTIONS_CALLED }) x) :=
      fun x _ => keepsKey_andNot x _ (twoPow_low 16 (by omega))
    exact ⟨h.mapKeep _ hk, fun _ hp => hp.mapKeep _ hk⟩
  | bulkInsert A hA ares =>
    obtain ⟨f, e, hf⟩ := bulkInsertLoop_keeps (g := g) hA T.ents h.core.ids ares
    have : (bulkInsertActions g A T ares).1 = { T with ents := T.ents.map f } := by
      unfold bulkInsertActions; simp only [e]
    rw [this]
    exact ⟨h.mapKeep f hf, fun _ hp => hp.mapKeep f hf⟩

/-- The invariants hold in every table a history of calls produces. -/
theorem Reach.inv {g : EventConfig} {b : Bool} {T : RouteTable} (h : Reach g b T) : TableInv T ∧ (b = false → PurgeSorted T) := by
  induction h with
  | init maxR idle ev ft pol =>
    refine ⟨⟨?_, ?_⟩, fun _ => ?_⟩
    · constructor
      · exact ⟨List.Pairwise.nil, by simp⟩
      · exact List.nodup_nil
      · simp
      · intro id h; cases h
      · simp
      · exact Or.inl rfl
      · exact List.nodup_nil
      · intro af n h; cases h
      · intro af h; simp [bmCount] at h
      · simp
      · simp
      · simp
    · exact ⟨List.nodup_nil, by simp⟩
    · exact List.Pairwise.nil
  | step _ hs ih =>
    obtain ⟨h1, h2⟩ := Step.inv ih.1 hs
    exact ⟨h1, fun hb => h2 hb (ih.2 hb)⟩

end WS
