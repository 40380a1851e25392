import Verif.Proof.LoadedClone
/-
Proofs for C84 with NO_FLUSH and LOAD_THEN_COMMIT: the document's calls leave the copied rules as they are, so that carrying over the metadata of
the originals changes nothing.
-/
namespace WS.Ld
open WS WS.Conf WS.Spec WS.Spec.Load WS.LT WS.Spec.LT WS.Spec.Ld

variable {issued : Nat → Nat → Prop}

/-- The rules of `A` that are in the table are as in `A`. -/
structure Carried (issued : Nat → Nat → Prop) (A : List Route) (c : Cx) : Prop where
  same : ∀ y ∈ c.routes.ents, ∀ z ∈ A, z.id = y.id → y.flags = z.flags ∧ y.data = z.data
  past : ∀ z ∈ A, issued c.idState z.id

theorem Carried.sub {A : List Route} {c c' : Cx} (h : Carried issued A c) (h1 : ∀ y ∈ c'.routes.ents, ∃ x ∈ c.routes.ents, x.id = y.id ∧ x.flags = y.flags ∧ x.data = y.data)
    (h2 : ∀ j, issued c.idState j → issued c'.idState j) : Carried issued A c' := by
  refine ⟨fun y hy z hz he => ?_, fun z hz => h2 _ (h.past z hz)⟩
  obtain ⟨x, hx, e1, e2, e3⟩ := h1 y hy
  obtain ⟨f1, f2⟩ := h.same x hx z hz (he.trans e1.symm)
  exact ⟨by rw [← e2, f1], by rw [← e3, f2]⟩

theorem Carried.eq {A : List Route} {c c' : Cx} (h : Carried issued A c) (h1 : c'.routes.ents = c.routes.ents) (h2 : c'.idState = c.idState) : Carried issued A c' :=
  h.sub (fun y hy => ⟨y, by rw [← h1]; exact hy, rfl, rfl, rfl⟩) (fun j hj => by rw [h2]; exact hj)

theorem Carried.setEvent {A : List Route} {c : Cx} (h : Carried issued A c) (e : Event) : Carried issued A (c.setEvent e) :=
  h.sub (fun y hy => by obtain ⟨x, hx, rfl⟩ := List.mem_map.1 hy; exact ⟨x, hx, rfl, rfl, rfl⟩) (fun _ hj => hj)

theorem Carried.append {A : List Route} {c : Cx} (h : Carried issued A c) (l al : List Byte) (t : ActionType) : Carried issued A (actionAppendC c l t al).1 := by
  unfold actionAppendC
  repeat' split
  all_goals first | exact h | exact h.setEvent _

theorem Carried.copy {A : List Route} (l : List Byte) (t : ActionType) : ∀ (as : List Nat) {c : Cx}, Carried issued A c → Carried issued A (copyLoop l t as c).1 := by
  intro as
  induction as with
  | nil => intro c h; exact h
  | cons a as ih =>
    intro c h
    unfold copyLoop
    split
    · exact h
    · rename_i x _
      have := h.append l x.1 t
      split
      · rename_i c' e he; rw [he] at this; exact this
      · rename_i c' he; rw [he] at this; exact ih this

theorem allocId_grows {H : Host} (hI : Issues H issued) (c : Cx) : ∃ s, (H.allocId c).2 = { c with idState := s } ∧ (∀ j, issued c.idState j → issued s j) ∧
    ∀ i, (H.allocId c).1 = .ok i → i ≠ 0 ∧ ¬ issued c.idState i := by
  unfold Host.allocId
  split
  · exact ⟨c.idState, rfl, fun j hj => hj, fun i hi => by cases hi⟩
  · rename_i i' s hs
    obtain ⟨h1, h2, h3, h4⟩ := hI _ _ _ hs
    exact ⟨s, rfl, h4, fun i hi => by injection hi with hi; rw [← hi]; exact ⟨h1, h2⟩⟩

theorem carried_insert {H : Host} (hM : Mild H.acts) (hI : Issues H issued) {old : List Nat} {w w' : World} (hG : Good issued old w.cx) {A : List Route}
    (hA : ∀ z ∈ A, z.flags.getLsbD 15 = false) (hC : Carried issued A w.cx) {remote loc : Sa} {flags : Flags} {l : List Byte}
    (hf : Fits (.routeInsert remote loc flags l)) (h : routeInsertC H w remote loc flags l = (w', none)) : Carried issued A w'.cx := by
  unfold routeInsertC at h
  simp only at h
  split at h
  · cases h
  split at h
  · cases h
  rename_i r0 hr0
  obtain ⟨hwf, _⟩ := routeNew_ok hr0 hf.1 hf.2
  obtain ⟨s, hs1, hs2, hs3⟩ := allocId_grows hI w.cx
  have hfresh : FreshId w.cx.routes (H.allocId w.cx).1 := by
    intro i hi
    obtain ⟨h1, h2⟩ := hs3 i hi
    exact ⟨h1, fun r hr hc => h2 (by rw [← hc]; exact (hG.ids r hr).1)⟩
  split at h
  · cases h
  rename_i res hres
  injection h with hw herr
  subst hw
  have hcx : ({ (H.allocId w.cx).2 with routes := res.T } : Cx) = { w.cx with routes := res.T, idState := s } := by rw [hs1]
  simp only [hcx]
  refine ⟨fun y hy z hz he => ?_, fun z hz => hs2 _ (hC.past z hz)⟩
  rcases Props.insert1_cases hG.table hfresh hres with ⟨_, e, he'⟩ | ⟨T1, t, r, hnow, hp, hT1, hid1, hr, hcase⟩
  · rw [he'] at herr; cases herr
  have hsub : ∀ y ∈ T1.ents, y ∈ w.cx.routes.ents := by
    rcases hcase with ⟨rfl, _⟩ | ⟨v, hv, _, rfl, _⟩
    · exact fun y hy => hy
    · exact fun y hy => ((removeRule_mem hG.table.core.ids hv y).1 hy).1
  subst hr
  rcases insertCommit_cases w.cx.global H.acts hM.1 T1 hT1.core.sorted r (insertPrepare_ok hp hwf).1 (H.allocId w.cx).1 hid1 0 with
    ⟨_, ⟨e, he'⟩, _, _⟩ | ⟨o, ho, _, hpd, _, _, hTeq⟩ | ⟨id, ents, afs, st, hni, hk, hsp, _, _, _, _, hTeq⟩ | ⟨_, e, he'⟩
  · rw [he'] at herr; cases herr
  · -- a rule of `A` is not pending, so is not the one revived
    have hpd' : o.flags.getLsbD 15 = true := by rw [← has_pending]; exact hpd
    have hoA : ∀ z ∈ A, z.id ≠ o.id := by
      intro z hz hc
      have := (hC.same o (hsub o ho) z hz hc).1
      rw [this, hA z hz] at hpd'; cases hpd'
    have hy' : y ∈ (insertCommit w.cx.global H.acts T1 r (H.allocId w.cx).1 0).T.ents := hy
    rw [hTeq, setExpiry_ents] at hy'
    unfold RouteTable.update at hy'
    simp only [List.map_map] at hy'
    obtain ⟨x, hx, rfl⟩ := List.mem_map.1 hy'
    by_cases hxo : x.id = o.id
    · exfalso
      refine hoA z hz (he.trans ?_)
      simp [Function.comp, hxo, withExpiry]
    · simp only [Function.comp, withExpiry, if_neg hxo] at he ⊢
      exact hC.same x (hsub x hx) z hz he
  · have hy' : y ∈ (insertCommit w.cx.global H.acts T1 r (H.allocId w.cx).1 0).T.ents := hy
    rw [hTeq, (insertedTable_ents _ _ _ _).1] at hy'
    rcases List.mem_cons.1 ((routeSplice_perm hsp).mem_iff.1 hy') with rfl | hy'
    · exfalso
      refine (hs3 id hni).2 ?_
      have : y.id = id := hk.id
      rw [← this, ← he]; exact hC.past z hz
    · exact hC.same y (hsub y hy') z hz he
  · rw [he'] at herr; cases herr

theorem carried_limit {H : Host} {old : List Nat} {w w' : World} (hG : Good issued old w.cx) {A : List Route} (hC : Carried issued A w.cx) {n : Nat}
    (h : maxPurgeableC H w n = (w', none)) : Carried issued A w'.cx := by
  unfold maxPurgeableC at h
  simp only at h
  split at h
  · injection h with h _
    subst h
    exact hC.eq rfl rfl
  · rename_i now _
    split at h
    · cases h
    rename_i T res hset
    injection h with hw herr
    subst hw
    have hsub : ∀ y ∈ T.ents, y ∈ w.cx.routes.ents := by
      unfold maxPurgeableSet at hset
      simp only at hset
      split at hset
      · cases hp : stalePurge w.cx.global H.acts .all now (2 * w.cx.routes.purgeList.length + 2) { w.cx.routes with maxPurgeableRoutes := n } 0 with
        | none => rw [hp] at hset; cases hset
        | some x =>
          rw [hp] at hset
          injection hset with hset
          injection hset with hT _
          have h0 : Purged now { w.cx.routes with maxPurgeableRoutes := n } { w.cx.routes with maxPurgeableRoutes := n } :=
            ⟨⟨hG.table.core.congr rfl rfl rfl rfl, hG.table.purge.congr rfl rfl⟩, hG.queue.congr rfl rfl, List.Sublist.refl _, rfl, .refl _⟩
          have hx : Purged now { w.cx.routes with maxPurgeableRoutes := n } x.1 := by
            unfold stalePurge at hp
            split at hp
            · cases hp; exact h0
            · split at hp
              · cases hp; exact h0
              · split at hp
                · cases hp
                · rename_i T2 a2 n2 hl
                  cases hp
                  exact purgeLoop_purged _ _ _ _ h0 _ hl
          rw [hT] at hx
          exact fun y hy => hx.sub.subset hy
      · injection hset with hset
        injection hset with hT _
        subst hT
        exact fun y hy => hy
    exact hC.sub (fun y hy => ⟨y, hsub y hy, rfl, rfl, rfl⟩) (fun _ hj => hj)

theorem libCall_carried {H : Host} (hM : Mild H.acts) (hI : Issues H issued) {old : List Nat} {w w' : World} (hG : Good issued old w.cx) {A : List Route}
    (hA : ∀ z ∈ A, z.flags.getLsbD 15 = false) (hC : Carried issued A w.cx) {k : Call} (hf : Fits k)
    (h : libCall H w k = (w', none)) : Carried issued A w'.cx := by
  unfold libCall at h
  simp only at h
  cases k with
  | maxPurgeableRoutes n => exact carried_limit (w := { w with tick := w.tick + 1 }) hG hC h
  | routeInsert remote loc flags l => exact carried_insert (w := { w with tick := w.tick + 1 }) hM hI hG hA hC hf h
  | defaultConfigUpdate conf =>
    simp only at h
    injection h with hw _
    subst hw
    simp only
    split <;> exact hC.eq rfl rfl
  | defaultPolicySet p =>
    simp only at h
    injection h with hw _
    subst hw
    simp only
    split
    · exact hC
    · rename_i T hT
      have : T = { w.cx.routes with defaultPolicy := p } := by
        unfold defaultPolicySet at hT; grind
      subst this
      exact hC.eq rfl rfl
  | maxPurgeableIdleTime t =>
    simp only at h
    injection h with hw _
    subst hw
    exact hC.eq rfl rfl
  | setDefaultEvent l =>
    simp only at h
    injection h with hw _
    subst hw
    simp only
    split <;> exact hC.eq rfl rfl
  | eventInsert l prio conf =>
    simp only at h
    injection h with hw _
    subst hw
    obtain ⟨s, hs1, hs2, _⟩ := allocId_grows hI w.cx
    have key : (eventInsertC H w.cx l prio conf).1.routes = w.cx.routes ∧ ((eventInsertC H w.cx l prio conf).1.idState = w.cx.idState ∨
        (eventInsertC H w.cx l prio conf).1.idState = s) := by
      have hs : (H.allocId w.cx).2.routes = w.cx.routes ∧ (H.allocId w.cx).2.idState = s := by rw [hs1]; exact ⟨rfl, rfl⟩
      unfold eventInsertC
      generalize H.allocId w.cx = q at hs ⊢
      obtain ⟨q1, q2⟩ := q
      repeat' split
      all_goals simp_all
    refine hC.sub (fun y hy => ⟨y, ?_, rfl, rfl, rfl⟩) (fun j hj => ?_)
    · have : (eventInsertC H w.cx l prio conf).1.routes.ents = w.cx.routes.ents := by rw [key.1]
      rw [← this]; exact hy
    · show issued (eventInsertC H w.cx l prio conf).1.idState j
      rcases key.2 with e | e <;> rw [e]
      · exact hj
      · exact hs2 j hj
  | eventUpdateConfig l conf =>
    simp only at h
    injection h with hw _
    subst hw
    simp only
    repeat' split
    all_goals first | exact hC | exact hC.setEvent _
  | setAuxEvent l aux =>
    simp only at h
    injection h with hw _
    subst hw
    simp only
    repeat' split
    all_goals exact hC
  | actionAppend l t al =>
    simp only at h
    injection h with hw _
    subst hw
    exact hC.append l al t
  | copyActions l t src =>
    simp only at h
    injection h with hw _
    subst hw
    simp only
    split
    · exact hC
    · exact hC.copy l t _
  | store k v =>
    simp only at h
    injection h with hw _
    subst hw
    simp only
    split <;> exact hC.eq rfl rfl

theorem made_carried {H : Host} (hM : Mild H.acts) (hI : Issues H issued) {old : List Nat} {A : List Route} (hA : ∀ z ∈ A, z.flags.getLsbD 15 = false)
    {cs : List Call} {w w' : World} (h : Made H.env cs w w') (hf : ∀ c ∈ cs, Fits c) (hG : Good issued old w.cx) (hC : Carried issued A w.cx) :
    Carried issued A w'.cx := by
  induction h with
  | nil a => exact hC
  | cons h1 _ ih =>
    exact ih (fun c hc => hf c (List.mem_cons_of_mem _ hc)) (libCall_does hM hI hG (hf _ (List.mem_cons_self ..)) h1).1
      (libCall_carried hM hI hG hA hC (hf _ (List.mem_cons_self ..)) h1)
  | refused h1 _ ih =>
    have := refused_store h1
    exact ih hf (by rw [this]; exact hG) (by rw [this]; exact hC)

theorem copyMeta_same : ∀ fs ts : List Route, (∀ f ∈ fs, ∀ t ∈ ts, f.id = t.id → t.flags = f.flags ∧ t.data = f.data) → copyMetaLoop fs ts = ts := by
  intro fs ts
  induction fs, ts using copyMetaLoop.induct with
  | case1 ts => intro _; unfold copyMetaLoop; rfl
  | case2 f fs => intro _; unfold copyMetaLoop; rfl
  | case3 f fs t ts he ih =>
    intro h
    rw [copyMetaLoop, if_pos he, ih (fun a ha b hb => h a (List.mem_cons_of_mem _ ha) b (List.mem_cons_of_mem _ hb))]
    obtain ⟨h1, h2⟩ := h f (by simp) t (by simp) he
    have : copyMetaTo f t = t := by unfold copyMetaTo; rw [← h1, ← h2]
    rw [this]
  | case4 f fs t ts he hc ih =>
    intro h
    rw [copyMetaLoop, if_neg he]; simp only [hc]
    exact ih (fun a ha b hb => h a (List.mem_cons_of_mem _ ha) b hb)
  | case5 f fs t ts he hc ih =>
    intro h
    rw [copyMetaLoop, if_neg he]; simp only [hc]
    rw [ih (fun a ha b hb => h a ha b (List.mem_cons_of_mem _ hb))]
  | case6 f fs t ts he hc ih =>
    intro h
    rw [copyMetaLoop, if_neg he]; simp only [hc]
    rw [ih (fun a ha b hb => h a (List.mem_cons_of_mem _ ha) b (List.mem_cons_of_mem _ hb))]

/-- The clone with everything is in order, and its rules are those of the original. -/
theorem draft_copy {f : LoadFlags} (hn : f.noFlush = true) {w : World} (hG : Good issued [] w.cx) (hF : BmFits w.cx.routes) :
    Good issued [] (Draft f w).cx ∧ Carried issued w.cx.routes.ents (Draft f w).cx := by
  have hh : f.how = .none := by unfold LoadFlags.how; rw [hn]; rfl
  obtain ⟨h1, h2, h3⟩ := clone_healthy hG.table hF w.cx.events
  have hr : (Draft f w).cx.routes = cloneRoutes .none w.cx.events w.cx.routes := by unfold Draft; rw [hh]; rfl
  have hi : (Draft f w).cx.idState = w.cx.idState := rfl
  have he : (Draft f w).cx.events = w.cx.events := by unfold Draft; rw [hh]; rfl
  refine ⟨⟨by rw [hr]; exact h1, by rw [hr]; exact h2, ?_, by rw [he]; exact hG.events, hG.actions, ?_, fun i hi => by cases hi⟩, ?_, ?_⟩
  · rw [hr, h3, he]; exact hG.linked
  · rw [hr, h3, hi]; exact hG.ids
  · rw [hr, h3]
    intro y hy z hz e
    have := id_inj hG.table.core.ids hz hy e
    subst this; exact ⟨rfl, rfl⟩
  · exact fun z hz => (hG.ids z hz).1

theorem commit_copy {H : Host} (hM : Mild H.acts) {f : LoadFlags} (hn : f.noFlush = true) {a L : Cx} (hG : Good issued [] L)
    (hC : Carried issued a.routes.ents L) :
    let p := preCommit f a L
    let c : Cx := { p with routes := (bulkInsertActions p.global H.acts p.routes 0).1 }
    Good issued [] c ∧ (view c).rules = (view L).rules := by
  intro p c
  have hst : p.routes = L.routes := by
    show staged f a.routes L.routes = _
    unfold staged copyMetadata
    rw [hn, copyMeta_same _ _ (fun x hx y hy he => hC.same y hy x hx he)]; rfl
  have t1 : TableInv p.routes := by rw [hst]; exact hG.table
  have q1 : PurgeSorted p.routes := by rw [hst]; exact hG.queue
  obtain ⟨g, hg, hk2⟩ := bulkInsertLoop_keeps (g := p.global) hM.1 p.routes.ents t1.core.ids 0
  have hc : c.routes = { p.routes with ents := p.routes.ents.map g } := by
    show ({ p.routes with ents := (bulkInsertLoop p.global H.acts p.routes.ents 0).1 } : RouteTable) = _
    rw [hg]
  have hmem : ∀ y ∈ c.routes.ents, ∃ x ∈ L.routes.ents, y.id = x.id ∧ y.event = x.event := by
    intro y hy
    rw [hc] at hy
    obtain ⟨z, hz, rfl⟩ := List.mem_map.1 hy
    have hk := hk2 z hz
    rw [hst] at hz
    exact ⟨z, hz, hk.id, hk.event⟩
  refine ⟨⟨?_, ?_, ?_, hG.events, hG.actions, ?_, fun i hi => by cases hi⟩, ?_⟩
  · rw [hc]; exact t1.mapKeep g hk2
  · rw [hc]; exact q1.mapKeep g hk2
  · intro y hy e he
    obtain ⟨x, hx, _, hxe⟩ := hmem y hy
    exact hG.linked x hx e (by rw [← hxe]; exact he)
  · intro y hy
    obtain ⟨x, hx, hxi, _⟩ := hmem y hy
    exact ⟨by rw [hxi]; exact (hG.ids x hx).1, fun h => by cases h⟩
  · show (bulkInsertLoop p.global H.acts p.routes.ents 0).1.map seen = L.routes.ents.map seen
    rw [bulk_seen hM, hst]

end WS.Ld
