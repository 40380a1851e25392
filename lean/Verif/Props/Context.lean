import Verif.Spec.Context
import Verif.Props.RouteKey
/-
C44: exchanging two contexts.  The claim "twice restores both" is false of the code
(`C44_not_involution`): the call first copies rule state from the first context's rules to the second
one's, pairing rules by ID.
-/
namespace WS.Props
open WS WS.Spec

/-! ### the copying loop -/

theorem sameRule_refl (r : Route) : SameRule r r := ⟨rfl, rfl, rfl, rfl, rfl, rfl, rfl⟩

theorem copyMetaTo_same (f t : Route) : SameRule (copyMetaTo f t) t := ⟨rfl, rfl, rfl, rfl, rfl, rfl, rfl⟩

theorem copyMetaTo_carries (f t : Route) : CarriesState (copyMetaTo f t) f :=
  ⟨rfl, rfl, rfl, rfl, rfl, rfl, rfl, rfl⟩

/-- Where each rule of the destination gets its state from, in general. -/
theorem copyMetaLoop_get (fs ts : List Route) (i : Nat) :
    (ts[i]? = none → (copyMetaLoop fs ts)[i]? = none) ∧
    ∀ t, ts[i]? = some t → ∃ x, (copyMetaLoop fs ts)[i]? = some x ∧
      (x = t ∨ ∃ f, f ∈ fs ∧ f.id = t.id ∧ x = copyMetaTo f t) := by
  fun_induction copyMetaLoop fs ts generalizing i with
  | case1 ts => exact ⟨fun h => h, fun t h => ⟨t, h, Or.inl rfl⟩⟩
  | case2 f fs => exact ⟨fun h => h, fun t h => by simp at h⟩
  | case3 f fs t ts hid ih =>
    cases i with
    | zero => exact ⟨fun h => by simp at h, fun t' h => by
        simp only [List.getElem?_cons_zero, Option.some.injEq] at h
        subst h
        exact ⟨copyMetaTo f t, by simp, Or.inr ⟨f, by simp, hid, rfl⟩⟩⟩
    | succ i =>
      simp only [List.getElem?_cons_succ]
      obtain ⟨h1, h2⟩ := ih i
      refine ⟨h1, fun t' h => ?_⟩
      obtain ⟨x, hx, hc⟩ := h2 t' h
      exact ⟨x, hx, hc.imp_right fun ⟨g, hg, hr⟩ => ⟨g, by simp [hg], hr⟩⟩
  | case4 f fs t ts hid hc ih =>
    obtain ⟨h1, h2⟩ := ih i
    refine ⟨h1, fun t' h => ?_⟩
    obtain ⟨x, hx, hc⟩ := h2 t' h
    exact ⟨x, hx, hc.imp_right fun ⟨g, hg, hr⟩ => ⟨g, by simp [hg], hr⟩⟩
  | case5 f fs t ts hid hc ih =>
    cases i with
    | zero => exact ⟨fun h => by simp at h, fun t' h => by
        simp only [List.getElem?_cons_zero, Option.some.injEq] at h
        subst h
        exact ⟨t, by simp, Or.inl rfl⟩⟩
    | succ i => simpa only [List.getElem?_cons_succ] using ih i
  | case6 f fs t ts hid hc ih =>
    cases i with
    | zero => exact ⟨fun h => by simp at h, fun t' h => by
        simp only [List.getElem?_cons_zero, Option.some.injEq] at h
        subst h
        exact ⟨t, by simp, Or.inl rfl⟩⟩
    | succ i =>
      simp only [List.getElem?_cons_succ]
      obtain ⟨h1, h2⟩ := ih i
      refine ⟨h1, fun t' h => ?_⟩
      obtain ⟨x, hx, hc⟩ := h2 t' h
      exact ⟨x, hx, hc.imp_right fun ⟨g, hg, hr⟩ => ⟨g, by simp [hg], hr⟩⟩

/-- The state a rule should get: that of the rule with its ID, if there is one. -/
def updBy (fs : List Route) (t : Route) : Route :=
  match fs.find? (fun f => f.id == t.id) with
  | some f => copyMetaTo f t
  | none => t

theorem updBy_cons_of_ne {f t : Route} (fs : List Route) (h : f.id ≠ t.id) : updBy (f :: fs) t = updBy fs t := by
  unfold updBy
  rw [List.find?_cons]
  have : (f.id == t.id) = false := by simpa using h
  rw [this]

theorem updBy_cons_of_eq {f t : Route} (fs : List Route) (h : f.id = t.id) : updBy (f :: fs) t = copyMetaTo f t := by
  unfold updBy
  rw [List.find?_cons]
  have : (f.id == t.id) = true := by simpa using h
  rw [this]

theorem updBy_none {fs : List Route} {t : Route} (h : ∀ f, f ∈ fs → f.id ≠ t.id) : updBy fs t = t := by
  induction fs with
  | nil => rfl
  | cons f fs ih =>
    rw [updBy_cons_of_ne fs (h f (by simp)), ih (fun g hg => h g (by simp [hg]))]

theorem updBy_some {fs : List Route} {t f : Route} (hn : (fs.map (·.id)).Nodup) (hf : f ∈ fs) (h : f.id = t.id) :
    updBy fs t = copyMetaTo f t := by
  induction fs with
  | nil => simp at hf
  | cons g fs ih =>
    simp only [List.map_cons, List.nodup_cons] at hn
    rcases List.mem_cons.1 hf with rfl | hf
    · exact updBy_cons_of_eq fs h
    · have hg : g.id ≠ t.id := fun hc => hn.1 (List.mem_map.2 ⟨f, hf, by rw [h, hc]⟩)
      rw [updBy_cons_of_ne fs hg]
      exact ih hn.2 hf

theorem sorted_tail {c} {x : Route} {l : List Route} (h : SortedRules c (x :: l)) : SortedRules c l :=
  ⟨fun r hr => h.1 r (by simp [hr]), (List.pairwise_cons.1 h.2).2⟩

theorem derived_tail_left {f : Route} {fs ts : List Route} (h : Derived (f :: fs) ts) : Derived fs ts :=
  ⟨(List.nodup_cons.1 h.oldIds).2, h.newIds, fun g hg => h.same g (by simp [hg])⟩

theorem derived_tail_right {t : Route} {fs ts : List Route} (h : Derived fs (t :: ts)) : Derived fs ts :=
  ⟨h.oldIds, (List.nodup_cons.1 h.newIds).2, fun g hg u hu => h.same g hg u (by simp [hu])⟩

/-- For sorted tables of which the second stems from the first, the walk pairs every shared rule. -/
theorem copyMetaLoop_eq (fs ts : List Route) (hf : SortedRules routeKeyCmp fs) (ht : SortedRules routeKeyCmp ts)
    (hd : Derived fs ts) : copyMetaLoop fs ts = ts.map (updBy fs) := by
  fun_induction copyMetaLoop fs ts with
  | case1 ts =>
    symm
    calc ts.map (updBy []) = ts.map id := List.map_congr_left (fun t _ => rfl)
      _ = ts := List.map_id ts
  | case2 f fs => rfl
  | case3 f fs t ts hid ih =>
    rw [ih (sorted_tail hf) (sorted_tail ht) (derived_tail_left (derived_tail_right hd)), List.map_cons,
      updBy_cons_of_eq fs hid]
    congr 1
    apply List.map_congr_left
    intro u hu
    symm
    apply updBy_cons_of_ne
    intro hc
    exact (List.nodup_cons.1 hd.newIds).1 (List.mem_map.2 ⟨u, hu, by rw [← hc, hid]⟩)
  | case4 f fs t ts hid hc ih =>
    rw [ih (sorted_tail hf) ht (derived_tail_left hd)]
    apply List.map_congr_left
    intro u hu
    symm
    apply updBy_cons_of_ne
    intro he
    have hfu : routeKeyCmp f u = .lt := by
      rcases List.mem_cons.1 hu with rfl | hu'
      · exact hc
      · exact C01_lt_trans f t u (hf.1 f (by simp)) (ht.1 t (by simp)) (ht.1 u hu) hc
          ((List.pairwise_cons.1 ht.2).1 u hu')
    have := (C01_eq_iff f u (hf.1 f (by simp)) (ht.1 u hu)).2 (hd.same f (by simp) u hu he)
    rw [hfu] at this
    exact absurd this (by decide)
  | case5 f fs t ts hid hc ih =>
    rw [ih hf (sorted_tail ht) (derived_tail_right hd), List.map_cons]
    congr 1
    symm
    apply updBy_none
    intro g hg he
    have htf : routeKeyCmp t f = .lt := by
      rw [C01_swap f t (hf.1 f (by simp)) (ht.1 t (by simp)), hc]; rfl
    have htg : routeKeyCmp t g = .lt := by
      rcases List.mem_cons.1 hg with rfl | hg'
      · exact htf
      · exact C01_lt_trans t f g (ht.1 t (by simp)) (hf.1 f (by simp)) (hf.1 g hg) htf
          ((List.pairwise_cons.1 hf.2).1 g hg')
    have h1 := (C01_eq_iff g t (hf.1 g hg) (ht.1 t (by simp))).2 (hd.same g hg t (by simp) he)
    rw [C01_swap t g (ht.1 t (by simp)) (hf.1 g hg), htg] at h1
    exact absurd h1 (by decide)
  | case6 f fs t ts hid hc ih =>
    rw [ih (sorted_tail hf) (sorted_tail ht) (derived_tail_left (derived_tail_right hd)), List.map_cons]
    have hft := (C01_eq_iff f t (hf.1 f (by simp)) (ht.1 t (by simp))).1 hc
    congr 1
    · symm
      apply updBy_none
      intro g hg he
      rcases List.mem_cons.1 hg with rfl | hg'
      · exact hid he
      · have h1 := (C01_eq_iff g t (hf.1 g hg) (ht.1 t (by simp))).2 (hd.same g hg t (by simp) he)
        have h2 : routeKeyCmp f g = .lt := (List.pairwise_cons.1 hf.2).1 g hg'
        rw [C01_congr f t g (hf.1 f (by simp)) (ht.1 t (by simp)) (hf.1 g hg) hft,
          C01_swap g t (hf.1 g hg) (ht.1 t (by simp)), h1] at h2
        exact absurd h2 (by decide)
    · apply List.map_congr_left
      intro u hu
      symm
      apply updBy_cons_of_ne
      intro he
      have h1 := (C01_eq_iff f u (hf.1 f (by simp)) (ht.1 u (by simp [hu]))).2 (hd.same f (by simp) u (by simp [hu]) he)
      have h2 : routeKeyCmp t u = .lt := (List.pairwise_cons.1 ht.2).1 u hu
      rw [← C01_congr f t u (hf.1 f (by simp)) (ht.1 t (by simp)) (ht.1 u (by simp [hu])) hft, h1] at h2
      exact absurd h2 (by decide)

/-! ### C44: one exchange -/

/-- Mismatched platform interfaces or ID callbacks are refused without effect, and nothing else is. -/
theorem C44_refused_unchanged (a b : Ctx) :
    ((ctxExchange a b).1 = .error .invalidArg ↔ ¬ (a.hpi = b.hpi ∧ a.mkIdCb = b.mkIdCb)) ∧
    ((ctxExchange a b).1 ≠ .ok () → (ctxExchange a b).2 = (a, b)) := by
  unfold ctxExchange
  by_cases h : a.hpi ≠ b.hpi ∨ a.mkIdCb ≠ b.mkIdCb
  · rw [if_pos h]
    exact ⟨⟨fun _ hc => h.elim (fun h => h hc.1) (fun h => h hc.2), fun _ => rfl⟩, fun _ => rfl⟩
  · rw [if_neg h]
    refine ⟨⟨fun hc => by simp at hc, fun hc => absurd ⟨Classical.byContradiction fun h' => h (Or.inl h'),
      Classical.byContradiction fun h' => h (Or.inr h')⟩ hc⟩, fun hc => by simp at hc⟩

/-- After a successful exchange each context serves the other's former contents: the second exactly the
first's (rules included); the first the second's, its rules being the second's rules in the same order,
each with its own state or with that of the first context's rule of the same ID.  Lock and hooks stay. -/
theorem C44_exchanged (a b : Ctx) (hok : (ctxExchange a b).1 = .ok ()) :
    SameContents (ctxExchange a b).2.1 b ∧ SameContents (ctxExchange a b).2.2 a ∧
    SameFrame (ctxExchange a b).2.1 a ∧ SameFrame (ctxExchange a b).2.2 b ∧
    (ctxExchange a b).2.2.routes = a.routes ∧
    SameTableHeader (ctxExchange a b).2.1.routes b.routes ∧
    (ctxExchange a b).2.1.routes.ents.length = b.routes.ents.length ∧
    ∀ (i : Nat) t, b.routes.ents[i]? = some t → ∃ x, (ctxExchange a b).2.1.routes.ents[i]? = some x ∧ SameRule x t ∧
      (x = t ∨ ∃ f, f ∈ a.routes.ents ∧ f.id = t.id ∧ CarriesState x f) := by
  unfold ctxExchange at *
  by_cases h : a.hpi ≠ b.hpi ∨ a.mkIdCb ≠ b.mkIdCb
  · rw [if_pos h] at hok; simp at hok
  · rw [if_neg h]
    refine ⟨⟨rfl, rfl, rfl, rfl, rfl, rfl, rfl, rfl, rfl⟩, ⟨rfl, rfl, rfl, rfl, rfl, rfl, rfl, rfl, rfl⟩,
      ⟨rfl, rfl, rfl, rfl⟩, ⟨rfl, rfl, rfl, rfl⟩, rfl, ⟨rfl, rfl, rfl, rfl, rfl, rfl, rfl, rfl, rfl⟩, ?_, ?_⟩
    · have h1 := fun i => (copyMetaLoop_get a.routes.ents b.routes.ents i).1
      have h2 := fun i => (copyMetaLoop_get a.routes.ents b.routes.ents i).2
      show (copyMetaLoop a.routes.ents b.routes.ents).length = b.routes.ents.length
      apply Nat.le_antisymm
      · have := h1 b.routes.ents.length (by simp)
        simpa using this
      · apply Classical.byContradiction
        intro hc
        have hlt : (copyMetaLoop a.routes.ents b.routes.ents).length < b.routes.ents.length := by omega
        obtain ⟨x, hx, _⟩ := h2 _ _ (List.getElem?_eq_getElem hlt)
        simp at hx
    · intro i t hi
      obtain ⟨x, hx, hc⟩ := (copyMetaLoop_get a.routes.ents b.routes.ents i).2 t hi
      rcases hc with rfl | ⟨f, hf, hid, rfl⟩
      · exact ⟨x, hx, sameRule_refl x, Or.inl rfl⟩
      · exact ⟨_, hx, copyMetaTo_same f t, Or.inr ⟨f, hf, hid, copyMetaTo_carries f t⟩⟩

/-- When the second context was derived from the first (cloned, then edited), a rule that occurs in both
keeps its live state across the exchange, every other rule of the second context is taken over as it
is, and the table is still in order. -/
theorem C44_derived_state (a b : Ctx) (hok : (ctxExchange a b).1 = .ok ())
    (ha : SortedRules routeKeyCmp a.routes.ents) (hb : SortedRules routeKeyCmp b.routes.ents)
    (hd : Derived a.routes.ents b.routes.ents) :
    (∀ (i : Nat) t, b.routes.ents[i]? = some t → ∃ x, (ctxExchange a b).2.1.routes.ents[i]? = some x ∧ SameRule x t ∧
      (∀ f, f ∈ a.routes.ents → f.id = t.id → CarriesState x f) ∧
      ((∀ f, f ∈ a.routes.ents → f.id ≠ t.id) → x = t)) ∧
    SortedRules routeKeyCmp (ctxExchange a b).2.1.routes.ents := by
  unfold ctxExchange at *
  by_cases h : a.hpi ≠ b.hpi ∨ a.mkIdCb ≠ b.mkIdCb
  · rw [if_pos h] at hok; simp at hok
  rw [if_neg h]
  show (∀ (i : Nat) t, b.routes.ents[i]? = some t → ∃ x, (copyMetaLoop a.routes.ents b.routes.ents)[i]? = some x ∧ _) ∧
    SortedRules routeKeyCmp (copyMetaLoop a.routes.ents b.routes.ents)
  rw [copyMetaLoop_eq _ _ ha hb hd]
  have hcase : ∀ t, (∃ f, f ∈ a.routes.ents ∧ f.id = t.id ∧ updBy a.routes.ents t = copyMetaTo f t) ∨
      ((∀ f, f ∈ a.routes.ents → f.id ≠ t.id) ∧ updBy a.routes.ents t = t) := by
    intro t
    by_cases hx : ∃ f, f ∈ a.routes.ents ∧ f.id = t.id
    · obtain ⟨f, hf, he⟩ := hx
      exact Or.inl ⟨f, hf, he, updBy_some hd.oldIds hf he⟩
    · have : ∀ f, f ∈ a.routes.ents → f.id ≠ t.id := fun f hf he => hx ⟨f, hf, he⟩
      exact Or.inr ⟨this, updBy_none this⟩
  have hkey : ∀ t, t ∈ b.routes.ents → SameKey (updBy a.routes.ents t) t ∧ (updBy a.routes.ents t).WF := by
    intro t ht
    rcases hcase t with ⟨f, hf, he, hu⟩ | ⟨_, hu⟩
    · rw [hu]
      exact ⟨⟨rfl, rfl, rfl, rfl, rfl, rfl, rfl, rfl, rfl, rfl, (hd.same f hf t ht he).keyFlags, rfl, rfl⟩, hb.1 t ht⟩
    · rw [hu]
      exact ⟨⟨rfl, rfl, rfl, rfl, rfl, rfl, rfl, rfl, rfl, rfl, fun _ _ => rfl, rfl, rfl⟩, hb.1 t ht⟩
  refine ⟨fun i t hi => ⟨updBy a.routes.ents t, by rw [List.getElem?_map, hi]; rfl, ?_, ?_, ?_⟩, ?_, ?_⟩
  · rcases hcase t with ⟨f, _, _, hu⟩ | ⟨_, hu⟩ <;> rw [hu]
    · exact copyMetaTo_same f t
    · exact sameRule_refl t
  · intro f hf he
    rw [updBy_some hd.oldIds hf he]
    exact copyMetaTo_carries f t
  · exact updBy_none
  · intro r hr
    obtain ⟨t, ht, rfl⟩ := List.mem_map.1 hr
    exact (hkey t ht).2
  · rw [List.pairwise_map]
    refine List.Pairwise.imp_of_mem ?_ hb.2
    intro x y hx hy hxy
    obtain ⟨kx, wx⟩ := hkey x hx
    obtain ⟨ky, wy⟩ := hkey y hy
    rw [C01_congr _ _ _ wx (hb.1 x hx) wy kx, C01_swap _ _ wy (hb.1 x hx),
      C01_congr _ _ _ wy (hb.1 y hy) (hb.1 x hx) ky, ← C01_swap _ _ (hb.1 y hy) (hb.1 x hx)]
    exact hxy

/-! ### C44: two exchanges -/

/-- With no rule ID in common, exchanging twice restores both contexts exactly. -/
theorem C44_involution_disjoint_partial (a b : Ctx) (hok : (ctxExchange a b).1 = .ok ())
    (hdis : ∀ f, f ∈ a.routes.ents → ∀ t, t ∈ b.routes.ents → f.id ≠ t.id) :
    (ctxExchange (ctxExchange a b).2.1 (ctxExchange a b).2.2) = (.ok (), a, b) := by
  have hnone : ∀ fs ts : List Route, (∀ f, f ∈ fs → ∀ t, t ∈ ts → f.id ≠ t.id) → copyMetaLoop fs ts = ts := by
    intro fs ts hx
    apply List.ext_getElem?
    intro i
    obtain ⟨h1, h2⟩ := copyMetaLoop_get fs ts i
    cases hi : ts[i]? with
    | none => exact h1 hi
    | some t =>
      obtain ⟨x, hxs, hc⟩ := h2 t hi
      rcases hc with rfl | ⟨f, hf, he, _⟩
      · exact hxs
      · exact absurd he (hx f hf t (List.mem_of_getElem? hi))
  unfold ctxExchange at *
  by_cases h : a.hpi ≠ b.hpi ∨ a.mkIdCb ≠ b.mkIdCb
  · rw [if_pos h] at hok; simp at hok
  · rw [if_neg h]
    have e1 : copyMetadata a.routes b.routes = b.routes := by
      unfold copyMetadata; rw [hnone _ _ hdis]
    have e2 : copyMetadata b.routes a.routes = a.routes := by
      unfold copyMetadata; rw [hnone _ _ (fun f hf t ht he => hdis t ht f hf he.symm)]
    simp only [e1]
    rw [if_neg h]
    simp only [e2]

/-- When the second context was derived from the first, exchanging twice restores the first context
exactly, and the second up to the state of the rules they share. -/
theorem C44_involution_derived_partial (a b : Ctx) (hok : (ctxExchange a b).1 = .ok ())
    (ha : SortedRules routeKeyCmp a.routes.ents) (hb : SortedRules routeKeyCmp b.routes.ents)
    (hd : Derived a.routes.ents b.routes.ents) :
    ∃ b', ctxExchange (ctxExchange a b).2.1 (ctxExchange a b).2.2 = (.ok (), a, b') ∧
      SameContents b' b ∧ SameFrame b' b ∧ SameTableHeader b'.routes b.routes ∧
      b'.routes.ents.length = b.routes.ents.length ∧
      ∀ (i : Nat) t, b.routes.ents[i]? = some t → ∃ x, b'.routes.ents[i]? = some x ∧ SameRule x t ∧
        ((∀ f, f ∈ a.routes.ents → f.id ≠ t.id) → x = t) := by
  have hs := C44_derived_state a b hok ha hb hd
  have he := C44_exchanged a b hok
  unfold ctxExchange at *
  by_cases h : a.hpi ≠ b.hpi ∨ a.mkIdCb ≠ b.mkIdCb
  · rw [if_pos h] at hok; simp at hok
  rw [if_neg h] at hs he ⊢
  simp only at hs he ⊢
  rw [if_neg h]
  have hback : copyMetadata (copyMetadata a.routes b.routes) a.routes = a.routes := by
    have hl : copyMetaLoop (copyMetaLoop a.routes.ents b.routes.ents) a.routes.ents = a.routes.ents := by
      apply List.ext_getElem?
      intro i
      obtain ⟨h1, h2⟩ := copyMetaLoop_get (copyMetaLoop a.routes.ents b.routes.ents) a.routes.ents i
      cases hi : a.routes.ents[i]? with
      | none => exact h1 hi
      | some t =>
        obtain ⟨x, hxs, hc⟩ := h2 t hi
        rcases hc with rfl | ⟨g, hg, hid, rfl⟩
        · exact hxs
        · rw [hxs]
          congr 1
          obtain ⟨j, hj⟩ := List.getElem?_of_mem hg
          have ht := List.mem_of_getElem? hi
          have hjb : j < b.routes.ents.length := by
            have : j < (copyMetaLoop a.routes.ents b.routes.ents).length := (List.getElem?_eq_some_iff.1 hj).1
            have hl : (copyMetaLoop a.routes.ents b.routes.ents).length = b.routes.ents.length := he.2.2.2.2.2.2.1
            omega
          obtain ⟨y, hy, sr, cs, _⟩ := hs.1 j _ (List.getElem?_eq_getElem hjb)
          have hyg : y = g := by
            have : (copyMetaLoop a.routes.ents b.routes.ents)[j]? = some y := hy
            rw [hj] at this
            exact (Option.some.inj this).symm
          subst hyg
          have cs' := cs t ht (by rw [← sr.id, hid])
          unfold copyMetaTo
          simp only
          rw [cs'.flags, cs'.insertTime, cs'.lastHit, cs'.lastBox, cs'.purgeAfter, cs'.connections, cs'.derogatory,
            cs'.commendable]
    unfold copyMetadata
    simp only [hl]
  simp only [hback]
  refine ⟨_, rfl, ⟨rfl, rfl, rfl, rfl, rfl, rfl, rfl, rfl, rfl⟩, ⟨rfl, rfl, rfl, rfl⟩,
    ⟨rfl, rfl, rfl, rfl, rfl, rfl, rfl, rfl, rfl⟩, he.2.2.2.2.2.2.1, ?_⟩
  intro i t hi
  obtain ⟨x, hx, sr, _, hn⟩ := hs.1 i t hi
  exact ⟨x, hx, sr, hn⟩

/-! ### concrete contexts -/

def xRule (id : Nat) (fam : Nat) (fl : Flags) (conns : Nat) (purge : Int) : Route :=
  { id := id, family := fam, flags := fl, data := { connectionCount := conns, purgeAfter := purge } }

/-- A running context with two rules, one of them with a live connection and penalty-boxed. -/
def xA : Ctx :=
  { lock := 1, hooks := [⟨7, 7⟩], idState := 9,
    routes := { ents := [xRule 3 2 (RF.DIRECTION_IN ||| RF.PENALTYBOXED) 4 0, xRule 4 10 RF.DIRECTION_IN 0 0] },
    events := [{ label := [97#8] }] }
/-- A context derived from it: the first rule kept, the second dropped, one added. -/
def xB : Ctx :=
  { lock := 2, idState := 12,
    routes := { ents := [xRule 3 2 RF.DIRECTION_IN 0 0, xRule 10 11 RF.DIRECTION_IN 0 0] },
    events := [{ label := [98#8] }] }

theorem x_hyps : (ctxExchange xA xB).1 = .ok () ∧ SortedRules routeKeyCmp xA.routes.ents ∧
    SortedRules routeKeyCmp xB.routes.ents ∧ Derived xA.routes.ents xB.routes.ents := by
  refine ⟨by decide, ⟨by decide, by decide⟩, ⟨by decide, by decide⟩, ⟨by decide, by decide, ?_⟩⟩
  intro f hf t ht he
  have hf' : f = xRule 3 2 (RF.DIRECTION_IN ||| RF.PENALTYBOXED) 4 0 ∨ f = xRule 4 10 RF.DIRECTION_IN 0 0 := by
    simpa [xA] using hf
  have ht' : t = xRule 3 2 RF.DIRECTION_IN 0 0 ∨ t = xRule 10 11 RF.DIRECTION_IN 0 0 := by
    simpa [xB] using ht
  rcases hf' with rfl | rfl <;> rcases ht' with rfl | rfl
  · exact ⟨rfl, rfl, rfl, rfl, rfl, rfl, rfl, rfl, rfl, rfl, by decide, rfl, rfl⟩
  · exact absurd he (by decide)
  · exact absurd he (by decide)
  · exact absurd he (by decide)

/-- The penalty box and the live connections survive the exchange on the shared rule. -/
example : (ctxExchange xA xB).2.1.routes.ents.map (fun r => (r.id, r.flags.has RF.PENALTYBOXED, r.data.connectionCount))
    = [(3, true, 4), (10, false, 0)] := by
  have e : routeKeyCmp (xRule 4 10 RF.DIRECTION_IN 0 0) (xRule 10 11 RF.DIRECTION_IN 0 0) = .lt := by decide
  simp only [xRule] at e
  simp [ctxExchange, xA, xB, copyMetadata, copyMetaLoop, xRule, copyMetaTo, e]
  decide

/-- Finding: exchanging twice does not restore the second context when the two share a rule ID. -/
theorem C44_not_involution : ∃ a b : Ctx, (ctxExchange a b).1 = .ok () ∧
    Derived a.routes.ents b.routes.ents ∧
    (ctxExchange (ctxExchange a b).2.1 (ctxExchange a b).2.2).2.2.routes.ents ≠ b.routes.ents := by
  refine ⟨xA, xB, x_hyps.1, x_hyps.2.2.2, ?_⟩
  intro hc
  have := congrArg (List.map (fun r => r.data.connectionCount)) hc
  revert this
  simp [ctxExchange, xA, xB, copyMetadata, copyMetaLoop, xRule, copyMetaTo, routeKeyCmp]

/-- Finding: rules are paired by ID alone.  In two contexts set up independently the same ID can denote
unrelated rules; then the second context's rule is overwritten with the flags of the first's — here the
incoming-traffic rule for family 10 becomes an outgoing rule, and the table of the context it is
served from is out of order. -/
theorem C44_unrelated_rules_overwritten : ∃ a b : Ctx, (ctxExchange a b).1 = .ok () ∧
    SortedRules routeKeyCmp a.routes.ents ∧ SortedRules routeKeyCmp b.routes.ents ∧
    (a.routes.ents.map (·.id)).Nodup ∧ (b.routes.ents.map (·.id)).Nodup ∧
    ¬ SortedRules routeKeyCmp (ctxExchange a b).2.1.routes.ents ∧
    (∃ t x, b.routes.ents[0]? = some t ∧ (ctxExchange a b).2.1.routes.ents[0]? = some x ∧
      t.flags.has RF.DIRECTION_IN = true ∧ x.flags.has RF.DIRECTION_IN = false) := by
  refine ⟨{ routes := { ents := [xRule 5 2 RF.DIRECTION_OUT 0 0] } },
    { routes := { ents := [xRule 5 10 RF.DIRECTION_IN 0 0, xRule 6 10 (RF.DIRECTION_IN ||| RF.SA_FAMILY_WILDCARD) 0 0] } },
    by decide, ⟨by decide, by decide⟩, ⟨by decide, by decide⟩, by decide, by decide, ?_, ?_⟩
  · intro hc
    have := hc.2
    revert this
    simp [ctxExchange, copyMetadata, copyMetaLoop, xRule, copyMetaTo]
    decide
  · refine ⟨_, _, rfl, by simp [ctxExchange, copyMetadata, copyMetaLoop]; rfl, by decide, by decide⟩

/-- Finding: the purge queue is not reordered when expiry times are copied.  A queue that was in order of
expiry (latest first) is out of order after the exchange, even for a derived context. -/
theorem C44_purge_queue_disordered : ∃ a b : Ctx, (ctxExchange a b).1 = .ok () ∧
    Derived a.routes.ents b.routes.ents ∧
    b.routes.purgeList = [4, 3] ∧ b.routes.ents.map (fun r => (r.id, r.data.purgeAfter)) = [(3, 10), (4, 20)] ∧
    (ctxExchange a b).2.1.routes.purgeList = [4, 3] ∧
    (ctxExchange a b).2.1.routes.ents.map (fun r => (r.id, r.data.purgeAfter)) = [(3, 30), (4, 20)] := by
  refine ⟨{ routes := { ents := [xRule 3 2 0 0 30, xRule 4 10 0 0 20], purgeList := [3, 4] } },
    { routes := { ents := [xRule 3 2 0 0 10, xRule 4 10 0 0 20], purgeList := [4, 3] } },
    by decide, ⟨by decide, by decide, ?_⟩, rfl, rfl, by decide, ?_⟩
  · intro f hf t ht he
    have hf' : f = xRule 3 2 0 0 30 ∨ f = xRule 4 10 0 0 20 := by simpa using hf
    have ht' : t = xRule 3 2 0 0 10 ∨ t = xRule 4 10 0 0 20 := by simpa using ht
    rcases hf' with rfl | rfl <;> rcases ht' with rfl | rfl
    · exact ⟨rfl, rfl, rfl, rfl, rfl, rfl, rfl, rfl, rfl, rfl, by decide, rfl, rfl⟩
    · exact absurd he (by decide)
    · exact absurd he (by decide)
    · exact ⟨rfl, rfl, rfl, rfl, rfl, rfl, rfl, rfl, rfl, rfl, by decide, rfl, rfl⟩
  · simp [ctxExchange, copyMetadata, copyMetaLoop, xRule, copyMetaTo]

end WS.Props
