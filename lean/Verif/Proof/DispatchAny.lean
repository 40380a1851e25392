import Verif.Proof.Dispatch
/-
Dispatches with handlers that may do almost anything: a property of the state and the results that no
handler breaks survives the action lists.
-/
namespace WS
open Spec

theorem runActions_pred {σ : Type} {E : DispEnv σ} {ref : RuleRef} {ty : ActionType} {P : World σ → Flags → Prop}
    (hext : ∀ w a x, P w a → P { w with ext := x } a)
    (hh : ∀ i w a, P w a → P (E.handler ty i ref w a).1 (E.handler ty i ref w a).2.1)
    (l : List Nat) (w : World σ) (a : Flags) (h : P w a) :
    P (runActions (E.env ref) ty l w a).st (runActions (E.env ref) ty l w a).ares := by
  induction l generalizing w a with
  | nil => exact h
  | cons i rest ih =>
    unfold runActions
    split
    · exact ih w a h
    · have hent : P ((E.env ref).enter w i) a := by
        unfold ActEnv.enter
        split
        · exact h
        · exact hext w a _ h
      have hc := hh i _ a hent
      show P (match (E.handler ty i ref ((E.env ref).enter w i) a).2.2 with
        | some e => _ | none => _ : RunRes (World σ)).st (match (E.handler ty i ref ((E.env ref).enter w i) a).2.2 with
        | some e => _ | none => _ : RunRes (World σ)).ares
      split
      · exact hc
      · split
        · exact hc
        · exact ih _ _ hc

theorem runList_pred {σ : Type} {E : DispEnv σ} {ref : RuleRef} {ty : ActionType} {P : World σ → Flags → Prop}
    (h1 : ty ≠ .insert) (h2 : ty ≠ .delete)
    (hext : ∀ w a x, P w a → P { w with ext := x } a)
    (hh : ∀ i w a, P w a → P (E.handler ty i ref w a).1 (E.handler ty i ref w a).2.1)
    (e : Option Event) (w : World σ) (a : Flags) (h : P w a) :
    P (E.runList e ty ref w a).1 (E.runList e ty ref w a).2.1 := by
  unfold DispEnv.runList
  cases e with
  | none => exact h
  | some ev =>
    simp only
    split
    · unfold listDispatch
      split
      · exact h
      · cases ty <;> first | exact absurd rfl h1 | exact absurd rfl h2 | skip
        all_goals
          simp only
          split
          · exact h
          · exact runActions_pred hext hh _ w a h
    · exact h

/-- What the penalty box depends on, for the rule `ref`. -/
def BoxState {σ : Type} (ref : RuleRef) (t0 : Int) (b5 : Bool) (w : World σ) (a : Flags) : Prop :=
  (∀ r', w.get ref = some r' → r'.flags.getLsbD 20 = true ∧ r'.flags.getLsbD 14 = true ∧ r'.data.lastPenaltyboxTime = t0) ∧
  a.getLsbD 5 = b5

theorem BoxState.ext {σ : Type} {ref : RuleRef} {t0 : Int} {b5 : Bool} (w : World σ) (a : Flags) (x : σ) (h : BoxState ref t0 b5 w a) :
    BoxState ref t0 b5 { w with ext := x } a := by
  refine ⟨fun r' hr' => h.1 r' ?_, h.2⟩
  rw [← hr']; cases ref <;> rfl

theorem BoxState.handler {σ : Type} {E : DispEnv σ} {ref : RuleRef} (hE : LeavesBox E ref) {t0 : Int} {b5 : Bool} (ty : ActionType) (i : Nat)
    (w : World σ) (a : Flags) (h : BoxState ref t0 b5 w a) :
    BoxState ref t0 b5 (E.handler ty i ref w a).1 (E.handler ty i ref w a).2.1 := by
  obtain ⟨h1, h2, _⟩ := hE ty i w a
  refine ⟨fun r' hr' => ?_, h2.trans h.2⟩
  obtain ⟨r, hr, e1, e2, e3⟩ := h1 r' hr'
  obtain ⟨f1, f2, f3⟩ := h.1 r hr
  exact ⟨e1.trans f1, e2.trans f2, e3.trans f3⟩

/-- Up to the verdict, for handlers that leave the penalty box alone. -/
theorem prelude_box {σ : Type} {E : DispEnv σ} {ref : RuleRef} (hE : LeavesBox E ref) {trigger : Option Event} {w : World σ}
    {a : Flags} {r : Route} {c : EventConfig} {v : Verge σ} (hr : w.get ref = some r) (hin : r.flags.getLsbD 14 = true)
    (hb : r.flags.getLsbD 20 = true) (h : E.prelude trigger ref w a = some (c, v)) :
    c = configFor E w r ∧ v.ref = ref ∧ (∀ rv, v.w.get ref = some rv → rv.flags.getLsbD 20 = true ∧
      rv.data.lastPenaltyboxTime = r.data.lastPenaltyboxTime ∧ v.cached.getLsbD 20 = true) ∧
    v.ares.getLsbD 5 = (starting (configFor E w r) E.clock a).getLsbD 5 := by
  unfold DispEnv.prelude at h
  rw [hr] at h
  simp only at h
  cases ha : E.arrive (configOf E.g (r.event.or w.T.defaultEvent)).routeIdleTimeForPurge ref w a with
  | none => rw [ha] at h; cases h
  | some y =>
    obtain ⟨w1, a1⟩ := y
    rw [ha] at h
    simp only at h
    obtain ⟨q1, _, _, q4⟩ := arrive_spec hr ha
    have h5 : a1.getLsbD 5 = a.getLsbD 5 := by rw [q4]; simp
    have s1 : BoxState ref r.data.lastPenaltyboxTime (a.getLsbD 5) w1 a1 := by
      refine ⟨fun r' hr' => ?_, h5⟩
      rcases q1 with q1 | ⟨r1, q1, qt⟩
      · rw [q1] at hr'; cases hr'
      · rw [q1] at hr'; cases hr'; rw [qt]; exact ⟨hb, hin, rfl⟩
    have s2 := runList_pred (ty := .post) (by decide) (by decide) BoxState.ext (BoxState.handler hE .post) trigger w1 a1 s1
    generalize E.runList trigger .post ref w1 a1 = po at h s2
    obtain ⟨w2, a2, ran⟩ := po
    simp only at h s2
    generalize ha2' : (if ran = true then a2 &&& ~~~AR.STOP else a2) = a2' at h
    have ha2 : a2'.getLsbD 5 = a.getLsbD 5 := by
      subst ha2'; split
      · rw [andNotStop_bit _ _ (by decide)]; exact s2.2
      · exact s2.2
    cases hrc : (if ran = true then w2.get ref else some r) with
    | none => rw [hrc] at h; cases h
    | some rc =>
      rw [hrc] at h
      simp only at h
      have hrcf : rc.flags.getLsbD 14 = true ∧ rc.flags.getLsbD 20 = true := by
        split at hrc
        · have := s2.1 rc hrc; exact ⟨this.2.1, this.1⟩
        · cases hrc; exact ⟨hin, hb⟩
      have hsw : (!rc.flags.hasAll RF.IN_TABLE && w2.T.fallthroughRoute.isSome) = false := by
        rw [hasAll_of_bit (m := RF.IN_TABLE) (k := 14) rfl (by decide), hrcf.1]; rfl
      rw [hsw] at h
      simp only [Bool.false_eq_true, if_false] at h
      have s3 : BoxState ref r.data.lastPenaltyboxTime ((starting (configFor E w r) E.clock a).getLsbD 5) w2
          (applyResBits (configOf E.g (r.event.or w.T.defaultEvent)) a2') := by
        refine ⟨s2.1, ?_⟩
        rw [configured_bits _ _ _ (by decide), starting_bits _ _ _ _ (by decide), ha2]
        simp [configured, configFor]
      have s4 := runList_pred (ty := .match_) (by decide) (by decide) BoxState.ext (BoxState.handler hE .match_)
        (r.event.or w.T.defaultEvent) w2 _ s3
      generalize E.runList (r.event.or w.T.defaultEvent) .match_ ref w2
        (applyResBits (configOf E.g (r.event.or w.T.defaultEvent)) a2') = m at h s4
      obtain ⟨w3, a3, ran2⟩ := m
      simp only at h s4
      split at h
      · cases hg3 : w3.get ref with
        | none => rw [hg3] at h; cases h
        | some rm =>
          rw [hg3] at h
          cases h
          refine ⟨rfl, rfl, fun rv hrv => ?_, ?_⟩
          · have e := s4.1 rv hrv
            rw [hg3] at hrv; cases hrv
            exact ⟨e.1, e.2.2, e.1⟩
          · exact (andNotStop_bit _ _ (by decide)).trans s4.2
      · cases h
        refine ⟨rfl, rfl, fun rv hrv => ?_, ?_⟩
        · have e := s4.1 rv hrv
          exact ⟨e.1, e.2.2, hrcf.2⟩
        · exact s4.2

/-- A boxed rule that is not released is rejected, whatever the flags cached besides the box bit. -/
theorem decideRule_boxed (c : EventConfig) (pol : Flags) (now : Int) (clk : Except Err Int) (cached : Flags) (r : Route) (a : Flags)
    (hc : cached.getLsbD 20 = true) (he : ¬ BoxElapsed c now r) (h5 : ¬ (a.getLsbD 5 = true ∧ c.flags.getLsbD 1 = true)) :
    (decideRule c pol now clk cached r a).2.getLsbD 1 = true ∧
    (decideRule c pol now clk cached r a).2.getLsbD 0 = a.getLsbD 0 ∧ (decideRule c pol now clk cached r a).1.flags = r.flags := by
  have hp : cached.has RF.PENALTYBOXED = true := by rw [has_of_bit (m := RF.PENALTYBOXED) (k := 20) rfl (by decide)]; exact hc
  have hkd : (countHit c cached r a).1.data.lastPenaltyboxTime = r.data.lastPenaltyboxTime ∧ (countHit c cached r a).1.flags = r.flags ∧
      ((countHit c cached r a).2.2 = false → (countHit c cached r a).2.1 = a) ∧
      ((countHit c cached r a).2.2 = true → (countHit c cached r a).2.1 = a ||| AR.REJECT) := by
    unfold countHit
    split
    · exact ⟨rfl, rfl, fun _ => rfl, fun h => by cases h⟩
    · have d1 : ∀ d : RouteMeta, (countDerogatory d a).lastPenaltyboxTime = d.lastPenaltyboxTime := by
        intro d; unfold countDerogatory; split <;> rfl
      have d3 : ∀ d : RouteMeta, (countCommendable c d a).lastPenaltyboxTime = d.lastPenaltyboxTime := by
        intro d; unfold countCommendable; split <;> rfl
      have d2 : ∀ d d' : RouteMeta, countConnection c cached d a = some d' → d'.lastPenaltyboxTime = d.lastPenaltyboxTime := by
        intro d d' h
        unfold countConnection at h
        simp only at h
        repeat' split at h
        all_goals first | cases h; rfl | cases h
      simp only
      cases hcc : countConnection c cached (countDerogatory r.data a) a with
      | none => exact ⟨d1 _, rfl, fun h => (by cases h), fun _ => rfl⟩
      | some d => exact ⟨(d3 _).trans ((d2 _ _ hcc).trans (d1 _)), rfl, fun _ => rfl, fun h => by cases h⟩
  obtain ⟨k1, k2, k3, k4⟩ := hkd
  have hpr : ∀ (x : Flags × Flags), (if x.2.has AR.REJECT && x.1.has RF.PORT_RESET then x.2 ||| AR.PORT_RESET else x.2).getLsbD 1 = x.2.getLsbD 1 ∧
      (if x.2.has AR.REJECT && x.1.has RF.PORT_RESET then x.2 ||| AR.PORT_RESET else x.2).getLsbD 0 = x.2.getLsbD 0 := by
    intro x
    constructor
    · rw [portReset_bit]; simp
    · rw [portReset_bit]; simp
  have hrej : ∀ x : Flags, (x ||| AR.REJECT).getLsbD 1 = true ∧ (x ||| AR.REJECT).getLsbD 0 = x.getLsbD 0 := by
    intro x
    rw [show AR.REJECT = bit 1 from rfl, getLsbD_or_bit _ _ _ (by decide), getLsbD_or_bit _ _ _ (by decide)]; simp
  unfold decideRule
  simp only
  cases hk : (countHit c cached r a).2.2 with
  | true =>
    simp only [if_true]
    rw [(hpr (cached, (countHit c cached r a).2.1)).1, (hpr (cached, (countHit c cached r a).2.1)).2]
    simp only
    rw [k4 hk]
    exact ⟨(hrej a).1, (hrej a).2, k2⟩
  | false =>
    simp only [Bool.false_eq_true, if_false]
    rw [k3 hk]
    have hu : unbox c now clk (countHit c cached r a).1 cached a = ((countHit c cached r a).1, cached, a) := by
      have u1 : unboxCommendable c clk (countHit c cached r a).1 cached a = ((countHit c cached r a).1, cached, a) := by
        unfold unboxCommendable
        rw [hasAll_of_bit (m := AR.COMMENDABLE) (k := 5) rfl (by decide),
          hasAll_of_bit (m := EF.COMMENDABLE_CLEARS_DEROGATORY) (k := 1) rfl (by decide)]
        rw [if_neg]
        intro hx
        simp only [Bool.and_eq_true] at hx
        exact h5 ⟨hx.1.2, hx.2⟩
      unfold unbox
      simp only [u1]
      unfold unboxElapsed
      rw [if_neg]
      intro hx
      simp only [Bool.and_eq_true, decide_eq_true_eq] at hx
      refine he ⟨hx.1.1.2, ?_, ?_⟩
      · rw [← k1]; exact hx.1.2
      · rw [← k1]; exact hx.2
    rw [hu]
    simp only
    have hj : judge c pol clk (countHit c cached r a).1 cached a = ((countHit c cached r a).1, cached, a ||| AR.REJECT) := by
      unfold judge; rw [if_pos hp]
    rw [hj]
    simp only
    rw [(hpr (cached, a ||| AR.REJECT)).1, (hpr (cached, a ||| AR.REJECT)).2]
    exact ⟨(hrej a).1, (hrej a).2, k2⟩

/-- After the verdict, REJECT stays. -/
theorem conclude_reject {σ : Type} {E : DispEnv σ} {ref : RuleRef} (hE : LeavesBox E ref) (e : Option Event) (w : World σ) (a : Flags)
    (h : a.getLsbD 1 = true) : (E.conclude e ref w a).2.getLsbD 1 = true := by
  have hclr : ∀ (ev : Option Event) (ty : ActionType) (a : Flags), 
      (match ev with | some x => if (x.actions ty).length > 0 then a &&& ~~~AR.STOP else a | none => a).getLsbD 1 = a.getLsbD 1 := by
    intro ev ty a
    cases ev with
    | none => rfl
    | some x =>
      simp only
      split
      · exact andNotStop_bit a 1 (by decide)
      · rfl
  unfold DispEnv.conclude
  simp only
  generalize hu : (if a.hasAll AR.UPDATE = true then E.runList e .update ref w
    (match e with | some x => if (x.actions .update).length > 0 then a &&& ~~~AR.STOP else a | none => a) else (w, a, false)) = u
  have h1 : u.2.1.getLsbD 1 = true := by
    subst hu
    split
    · exact runList_pred (P := fun _ a => a.getLsbD 1 = true) (by decide) (by decide) (fun _ _ _ h => h)
        (fun i w a hp => (hE .update i w a).2.2 (.inl rfl) hp) e w _ ((hclr e .update a).trans h)
    · exact h
  clear hu
  exact runList_pred (P := fun _ a => a.getLsbD 1 = true) (by decide) (by decide) (fun _ _ _ h => h)
        (fun i w a hp => (hE .decision i w a).2.2 (.inr rfl) hp) e u.1 _ ((hclr e .decision u.2.1).trans h1)

theorem dispatch0_boxed_any {σ : Type} {E : DispEnv σ} {ref : RuleRef} (hE : LeavesBox E ref) {trigger : Option Event} {target : Route}
    {w w' : World σ} {a a' : Flags} {r : Route} (hr : w.get ref = some r) (hin : r.flags.getLsbD 14 = true)
    (hbox : BoxHeld (configFor E w r) (clockNow E.clock) r (starting (configFor E w r) E.clock a))
    (h : E.dispatch0 trigger target ref w a = some (w', a', .ok ())) : a'.getLsbD 1 = true := by
  unfold DispEnv.dispatch0 at h
  split at h
  · cases h
  cases hp : E.prelude trigger ref w a with
  | none => rw [hp] at h; cases h
  | some x =>
    obtain ⟨c, v⟩ := x
    rw [hp] at h
    simp only at h
    obtain ⟨e1, e2, e3, e4⟩ := prelude_box hE hr hin hbox.1 hp
    cases hvg : v.w.get v.ref with
    | none => rw [hvg] at h; cases h
    | some rv =>
      rw [hvg] at h
      simp only at h
      cases h
      rw [e2] at hvg ⊢
      obtain ⟨f1, f2, f3⟩ := e3 rv hvg
      refine conclude_reject hE _ _ _ (decideRule_boxed _ _ _ _ _ _ _ f3 ?_ ?_).1
      · rw [e1]
        intro hc
        exact hbox.2.1 ⟨hc.1, by rw [← f2]; exact hc.2.1, by rw [← f2]; exact hc.2.2⟩
      · rw [e1, e4]; exact hbox.2.2

end WS
