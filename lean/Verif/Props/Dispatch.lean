import Verif.Proof.DispatchAny
import Verif.Props.Delete
/-
C20-C23: the verdict of a dispatch.

Result bits: 0 ACCEPT, 1 REJECT, 2 CONNECT, 4 DEROGATORY, 5 COMMENDABLE, 8 INSERTED, 10 FALLTHROUGH,
11 UPDATE.  Rule bits: 14 IN_TABLE, 20 PENALTYBOXED, 21 GREENLISTED.
-/
namespace WS.Props
open WS Spec

/-! ## C20: penalty box -/

/-- C20 (rejection): a dispatch on a rule of the table that is penalty-boxed, whose box time is not up,
and which is not released for commendable behaviour, results in REJECT; it does not add ACCEPT, and the
rule stays boxed.  Partial: ACCEPT is not taken out of results that the caller or the configuration put
in (`C20_accept_survives`); handlers are assumed to only observe (but see `C20_any_handlers`). -/
theorem C20_boxed_rejects_partial {σ : Type} {E : DispEnv σ} (hE : Observing E) {trigger : Option Event} {target : Route}
    {ref : RuleRef} {w w' : World σ} {a a' : Flags} {r : Route} (hr : w.get ref = some r)
    (hin : r.flags.getLsbD 14 = true ∨ w.T.fallthroughRoute = none)
    (hbox : BoxHeld (configFor E w r) (clockNow E.clock) r (starting (configFor E w r) E.clock a))
    (h : E.dispatch0 trigger target ref w a = some (w', a', .ok ())) :
    a'.getLsbD 1 = true ∧ a'.getLsbD 0 = (starting (configFor E w r) E.clock a).getLsbD 0 ∧
    ∃ r', w'.get ref = some r' ∧ r'.flags = r.flags ∧ r'.data.lastPenaltyboxTime = r.data.lastPenaltyboxTime := by
  obtain ⟨r1, a1, ht, hs, hw, ha⟩ := dispatch0_full hE hr hin h
  have hb1 := (boxHeld_congr ht hs).2 hbox
  have hd := decideRule_spec (configFor E w r) w.T.defaultPolicy (clockNow E.clock) E.boxClock r1 a1
  have hf : r1.flags = r.flags := by rw [ht]
  have hp : r1.data.lastPenaltyboxTime = r.data.lastPenaltyboxTime := by rw [ht]
  by_cases hl : OverLimit (configFor E w r) r1 a1
  · obtain ⟨d1, d2⟩ := hd.1 hl
    refine ⟨?_, ?_, _, hw, ?_, ?_⟩
    · rw [ha 1 (by decide)]; exact (d2 1).trans (by simp)
    · rw [ha 0 (by decide), ← hs 0 (by decide) (by decide)]; exact (d2 0).trans (by simp)
    · exact (congrArg Route.flags d1).trans hf
    · exact (congrArg (fun x : Route => x.data.lastPenaltyboxTime) d1).trans hp
  · obtain ⟨d1, d2⟩ := hd.2.1 hl hb1
    refine ⟨?_, ?_, _, hw, ?_, ?_⟩
    · rw [ha 1 (by decide)]; exact (d2 1).trans (by simp)
    · rw [ha 0 (by decide), ← hs 0 (by decide) (by decide)]; exact (d2 0).trans (by simp)
    · exact (congrArg Route.flags d1).trans hf
    · exact (congrArg (fun x : Route => x.data.lastPenaltyboxTime) d1).trans hp

/-- C20 (release): when the box time is up and the dispatch is neither over the connection limit nor
another offence, the rule leaves the penalty box. -/
theorem C20_released_when_elapsed {σ : Type} {E : DispEnv σ} (hE : Observing E) {trigger : Option Event} {target : Route}
    {ref : RuleRef} {w w' : World σ} {a a' : Flags} {r : Route} (hr : w.get ref = some r)
    (hin : r.flags.getLsbD 14 = true ∨ w.T.fallthroughRoute = none)
    (hel : BoxElapsed (configFor E w r) (clockNow E.clock) r)
    (hl : ¬ OverLimit (configFor E w r) r (starting (configFor E w r) E.clock a))
    (hthr : ¬ ReachesThreshold (configFor E w r) r (starting (configFor E w r) E.clock a))
    (h : E.dispatch0 trigger target ref w a = some (w', a', .ok ())) :
    ∃ r', w'.get ref = some r' ∧ ∀ k, r'.flags.getLsbD k = (r.flags.getLsbD k && !decide (20 = k)) := by
  obtain ⟨r1, a1, ht, hs, hw, ha⟩ := dispatch0_full hE hr hin h
  have hd := decideRule_spec (configFor E w r) w.T.defaultPolicy (clockNow E.clock) E.boxClock r1 a1
  have hl1 : ¬ OverLimit (configFor E w r) r1 a1 := fun hc => hl ((overLimit_congr ht hs).1 hc)
  have ht1 : ¬ ReachesThreshold (configFor E w r) r1 a1 := fun hc => hthr ((reaches_congr ht hs).1 hc)
  have hb1 : ¬ BoxHeld (configFor E w r) (clockNow E.clock) r1 a1 := fun hc => hc.2.1 ((boxElapsed_congr ht).2 hel)
  obtain ⟨_, d2, _⟩ := hd.2.2.2 hl1 hb1 ht1
  have hf : r1.flags = r.flags := by rw [ht]
  exact ⟨_, hw, fun k => (d2 k).trans (by rw [hf])⟩

/-- C20 (never expires): with a zero (or negative) duration no time releases a boxed rule. -/
theorem C20_zero_duration_never_elapses (c : EventConfig) (h : c.penaltyboxDuration ≤ 0) (now : Int) (r : Route) :
    ¬ BoxElapsed c now r := fun hc => by have := hc.1; omega

/-- C20 (the duration is counted from the boxing): boxing a rule at time `t`, the box holds at every time
up to and including `t` plus the duration, and not after. -/
theorem C20_elapsed_iff (c : EventConfig) (now : Int) (r : Route) (h : 0 < c.penaltyboxDuration) (h0 : r.data.lastPenaltyboxTime ≠ 0) :
    BoxElapsed c now r ↔ r.data.lastPenaltyboxTime + c.penaltyboxDuration < now := by
  unfold BoxElapsed; constructor
  · intro ⟨_, _, h3⟩; omega
  · intro h3; exact ⟨h, h0, by omega⟩

/-- C20 with handlers that may do anything but touch the penalty box of this rule, the commendable bit, or
take REJECT back after the verdict: they may delete and insert rules, set ACCEPT, change counters, fail,
stop their list.  A dispatch on a boxed rule of the table still results in REJECT. -/
theorem C20_any_handlers {σ : Type} {E : DispEnv σ} {ref : RuleRef} (hE : LeavesBox E ref) {trigger : Option Event} {target : Route}
    {w w' : World σ} {a a' : Flags} {r : Route} (hr : w.get ref = some r) (hin : r.flags.getLsbD 14 = true)
    (hbox : BoxHeld (configFor E w r) (clockNow E.clock) r (starting (configFor E w r) E.clock a))
    (h : E.dispatch0 trigger target ref w a = some (w', a', .ok ())) : a'.getLsbD 1 = true :=
  dispatch0_boxed_any hE hr hin hbox h

/-! ## C21: derogatory threshold -/

/-- C21: a dispatch on an unboxed rule, not rejected for the connection limit, leaves the rule boxed iff the
derogatory count has reached the threshold; then it results in REJECT, the box time is that of the clock,
and both counts restart from zero.  Partial: over the connection limit the offence is counted but the rule
is not boxed (`C21_over_limit_not_boxed`). -/
theorem C21_threshold_boxes_partial {σ : Type} {E : DispEnv σ} (hE : Observing E) {trigger : Option Event} {target : Route}
    {ref : RuleRef} {w w' : World σ} {a a' : Flags} {r : Route} (hr : w.get ref = some r)
    (hin : r.flags.getLsbD 14 = true ∨ w.T.fallthroughRoute = none)
    (hub : r.flags.getLsbD 20 = false)
    (hl : ¬ OverLimit (configFor E w r) r (starting (configFor E w r) E.clock a))
    (h : E.dispatch0 trigger target ref w a = some (w', a', .ok ())) :
    ∃ r', w'.get ref = some r' ∧
      (r'.flags.getLsbD 20 = true ↔ ReachesThreshold (configFor E w r) r (starting (configFor E w r) E.clock a)) ∧
      (r'.flags.getLsbD 20 = true → a'.getLsbD 1 = true ∧ r'.data.derogatoryCount = 0 ∧ r'.data.commendableCount = 0 ∧
        ∀ t, E.boxClock = .ok t → r'.data.lastPenaltyboxTime = t) ∧
      (r'.flags.getLsbD 20 = false →
        r'.data.derogatoryCount = derogatoryNow (configFor E w r) r (starting (configFor E w r) E.clock a) ∧
        r'.data.commendableCount = commendableNow r (starting (configFor E w r) E.clock a) ∧
        r'.data.connectionCount = connectionsNow r (starting (configFor E w r) E.clock a)) := by
  obtain ⟨r1, a1, ht, hs, hw, ha⟩ := dispatch0_full hE hr hin h
  have hd := decideRule_spec (configFor E w r) w.T.defaultPolicy (clockNow E.clock) E.boxClock r1 a1
  have hl1 : ¬ OverLimit (configFor E w r) r1 a1 := fun hc => hl ((overLimit_congr ht hs).1 hc)
  have hf : r1.flags = r.flags := by rw [ht]
  have hb1 : ¬ BoxHeld (configFor E w r) (clockNow E.clock) r1 a1 := by
    intro hc; have := hc.1; rw [hf, hub] at this; cases this
  refine ⟨_, hw, ?_⟩
  by_cases ht1 : ReachesThreshold (configFor E w r) r1 a1
  · obtain ⟨d1, d2, d3, d4, d5⟩ := hd.2.2.1 hl1 hb1 ht1
    have hbx := d1 20
    rw [show (decide (20 = 20)) = true from rfl, Bool.or_true] at hbx
    refine ⟨⟨fun _ => (reaches_congr ht hs).1 ht1, fun _ => hbx⟩, fun _ => ⟨?_, d2, d3, d4⟩, fun hc => ?_⟩
    · rw [ha 1 (by decide)]; exact (d5 1).trans (by simp)
    · exact absurd (hbx.symm.trans hc) (by simp)
  · obtain ⟨d1, d2, _⟩ := hd.2.2.2 hl1 hb1 ht1
    have hbx := d2 20
    rw [show (!decide (20 = 20)) = false from rfl, Bool.and_false] at hbx
    refine ⟨⟨fun hc => absurd (hbx.symm.trans hc) (by simp), fun hc => absurd ((reaches_congr ht hs).2 hc) ht1⟩,
      fun hc => absurd (hbx.symm.trans hc) (by simp), fun _ => ?_⟩
    have e := congrArg Route.data d1
    refine ⟨?_, ?_, ?_⟩
    · exact (congrArg RouteMeta.derogatoryCount e).trans (derogatoryNow_congr ht hs)
    · exact (congrArg RouteMeta.commendableCount e).trans (commendableNow_congr ht hs)
    · refine (congrArg RouteMeta.connectionCount e).trans ?_
      show connectionsNow r1 a1 = _
      unfold connectionsNow
      simp only [charged_congr hs, hs 2 (by decide) (by decide), hs 3 (by decide) (by decide)]
      rw [ht]

/-- C21, what "reaching" means for a single offence: below the threshold before and counted once. -/
theorem C21_one_offence (c : EventConfig) (r : Route) (a : Flags) (hch : Charged a) (h4 : a.getLsbD 4 = true) (h5 : a.getLsbD 5 = false)
    (hlt : r.data.derogatoryCount < 65535) :
    ReachesThreshold c r a ↔ 0 < c.derogatoryThreshold ∧
      (if c.flags.getLsbD 0 = true then c.derogatoryThreshold ≤ r.data.derogatoryCount + 1
       else c.derogatoryThreshold + r.data.commendableCount ≤ r.data.derogatoryCount + 1) := by
  unfold ReachesThreshold derogatoryNow commendableNow bump
  simp only [hch, h4, h5, not_true, if_false, Bool.false_eq_true, false_and, and_false, if_true, hlt]
  constructor
  · intro ⟨x, y⟩; refine ⟨x, ?_⟩; split at y
    · rename_i hh; rw [if_pos hh]; exact y
    · rename_i hh; rw [if_neg hh]; omega
  · intro ⟨x, y⟩; refine ⟨x, ?_⟩; split at y
    · rename_i hh; rw [if_pos hh]; exact y
    · rename_i hh; rw [if_neg hh]; omega

/-! ## C22: greenlist -/

/-- C22: a greenlisted rule that is not boxed (and is neither over its connection limit nor reaching the
derogatory threshold) yields ACCEPT, and REJECT only if it was already among the results. -/
theorem C22_greenlisted_accepts {σ : Type} {E : DispEnv σ} (hE : Observing E) {trigger : Option Event} {target : Route}
    {ref : RuleRef} {w w' : World σ} {a a' : Flags} {r : Route} (hr : w.get ref = some r)
    (hin : r.flags.getLsbD 14 = true ∨ w.T.fallthroughRoute = none)
    (hg : r.flags.getLsbD 21 = true) (hub : r.flags.getLsbD 20 = false)
    (hl : ¬ OverLimit (configFor E w r) r (starting (configFor E w r) E.clock a))
    (hthr : ¬ ReachesThreshold (configFor E w r) r (starting (configFor E w r) E.clock a))
    (h : E.dispatch0 trigger target ref w a = some (w', a', .ok ())) :
    a'.getLsbD 0 = true ∧ a'.getLsbD 1 = (starting (configFor E w r) E.clock a).getLsbD 1 ∧
    a'.getLsbD 10 = (starting (configFor E w r) E.clock a).getLsbD 10 := by
  obtain ⟨r1, a1, ht, hs, hw, ha⟩ := dispatch0_full hE hr hin h
  have hd := decideRule_spec (configFor E w r) w.T.defaultPolicy (clockNow E.clock) E.boxClock r1 a1
  have hl1 : ¬ OverLimit (configFor E w r) r1 a1 := fun hc => hl ((overLimit_congr ht hs).1 hc)
  have ht1 : ¬ ReachesThreshold (configFor E w r) r1 a1 := fun hc => hthr ((reaches_congr ht hs).1 hc)
  have hf : r1.flags = r.flags := by rw [ht]
  have hb1 : ¬ BoxHeld (configFor E w r) (clockNow E.clock) r1 a1 := by
    intro hc; have := hc.1; rw [hf, hub] at this; cases this
  obtain ⟨_, _, d3, _⟩ := hd.2.2.2 hl1 hb1 ht1
  have d3 := d3 (by rw [hf]; exact hg)
  refine ⟨?_, ?_, ?_⟩
  · rw [ha 0 (by decide)]; exact (d3 0).trans (by simp)
  · rw [ha 1 (by decide), ← hs 1 (by decide) (by decide)]; exact (d3 1).trans (by simp)
  · rw [ha 10 (by decide), ← hs 10 (by decide) (by decide)]; exact (d3 10).trans (by simp)

/-- C22: greenlisted and boxed: REJECT wins, the greenlist does not add ACCEPT. -/
theorem C22_box_beats_greenlist {σ : Type} {E : DispEnv σ} (hE : Observing E) {trigger : Option Event} {target : Route}
    {ref : RuleRef} {w w' : World σ} {a a' : Flags} {r : Route} (hr : w.get ref = some r)
    (hin : r.flags.getLsbD 14 = true ∨ w.T.fallthroughRoute = none) (_hg : r.flags.getLsbD 21 = true)
    (hbox : BoxHeld (configFor E w r) (clockNow E.clock) r (starting (configFor E w r) E.clock a))
    (h : E.dispatch0 trigger target ref w a = some (w', a', .ok ())) :
    a'.getLsbD 1 = true ∧ a'.getLsbD 0 = (starting (configFor E w r) E.clock a).getLsbD 0 :=
  ⟨(C20_boxed_rejects_partial hE hr hin hbox h).1, (C20_boxed_rejects_partial hE hr hin hbox h).2.1⟩

/-! ## C23: default policy -/

/-- C23: when nobody has a verdict — the rule is neither boxed nor greenlisted, no limit or threshold is
reached, and the results contain neither ACCEPT nor REJECT — the results are those so far plus FALLTHROUGH
(bit 10) plus the default policy of the table; REJECT for a rule that asks for it brings PORT_RESET
(bit 12); the rule's flags do not change. -/
theorem C23_no_verdict_default_policy {σ : Type} {E : DispEnv σ} (hE : Observing E) {trigger : Option Event} {target : Route}
    {ref : RuleRef} {w w' : World σ} {a a' : Flags} {r : Route} (hr : w.get ref = some r)
    (hin : r.flags.getLsbD 14 = true ∨ w.T.fallthroughRoute = none)
    (hg : r.flags.getLsbD 21 = false) (hub : r.flags.getLsbD 20 = false)
    (hl : ¬ OverLimit (configFor E w r) r (starting (configFor E w r) E.clock a))
    (hthr : ¬ ReachesThreshold (configFor E w r) r (starting (configFor E w r) E.clock a))
    (h0 : (starting (configFor E w r) E.clock a).getLsbD 0 = false) (h1 : (starting (configFor E w r) E.clock a).getLsbD 1 = false)
    (h : E.dispatch0 trigger target ref w a = some (w', a', .ok ())) :
    (∀ k, k ≠ 6 → k < 32 → a'.getLsbD k = ((starting (configFor E w r) E.clock a).getLsbD k || decide (k = 10) ||
      w.T.defaultPolicy.getLsbD k || (decide (k = 12) && w.T.defaultPolicy.getLsbD 1 && r.flags.getLsbD 24))) ∧
    ∃ r', w'.get ref = some r' ∧ r'.flags = r.flags := by
  obtain ⟨r1, a1, ht, hs, hw, ha⟩ := dispatch0_full hE hr hin h
  have hd := decideRule_spec (configFor E w r) w.T.defaultPolicy (clockNow E.clock) E.boxClock r1 a1
  have hl1 : ¬ OverLimit (configFor E w r) r1 a1 := fun hc => hl ((overLimit_congr ht hs).1 hc)
  have ht1 : ¬ ReachesThreshold (configFor E w r) r1 a1 := fun hc => hthr ((reaches_congr ht hs).1 hc)
  have hf : r1.flags = r.flags := by rw [ht]
  have hb1 : ¬ BoxHeld (configFor E w r) (clockNow E.clock) r1 a1 := by
    intro hc; have := hc.1; rw [hf, hub] at this; cases this
  obtain ⟨_, d2, _, _, d5⟩ := hd.2.2.2 hl1 hb1 ht1
  have d5 := d5 (by rw [hf]; exact hg) (by rw [hs 0 (by decide) (by decide)]; exact h0) (by rw [hs 1 (by decide) (by decide)]; exact h1)
  refine ⟨fun k hk hk2 => ?_, _, hw, ?_⟩
  · rw [ha k hk]
    refine (d5 k).trans ?_
    rw [hs k hk hk2, hf, hub]
    simp [eq_comm]
  · refine BitVec.eq_of_getLsbD_eq (fun k _ => (d2 k).trans ?_)
    rw [hf]
    by_cases hk : 20 = k
    · subst hk; rw [hub]; rfl
    · simp [hk]

/-- C23: an existing verdict is left as it is, and there is no fallthrough. -/
theorem C23_verdict_kept {σ : Type} {E : DispEnv σ} (hE : Observing E) {trigger : Option Event} {target : Route}
    {ref : RuleRef} {w w' : World σ} {a a' : Flags} {r : Route} (hr : w.get ref = some r)
    (hin : r.flags.getLsbD 14 = true ∨ w.T.fallthroughRoute = none)
    (hg : r.flags.getLsbD 21 = false) (hub : r.flags.getLsbD 20 = false)
    (hl : ¬ OverLimit (configFor E w r) r (starting (configFor E w r) E.clock a))
    (hthr : ¬ ReachesThreshold (configFor E w r) r (starting (configFor E w r) E.clock a))
    (h01 : (starting (configFor E w r) E.clock a).getLsbD 0 = true ∨ (starting (configFor E w r) E.clock a).getLsbD 1 = true)
    (h : E.dispatch0 trigger target ref w a = some (w', a', .ok ())) :
    ∀ k, k ≠ 6 → k ≠ 12 → k < 32 → a'.getLsbD k = (starting (configFor E w r) E.clock a).getLsbD k := by
  obtain ⟨r1, a1, ht, hs, hw, ha⟩ := dispatch0_full hE hr hin h
  have hd := decideRule_spec (configFor E w r) w.T.defaultPolicy (clockNow E.clock) E.boxClock r1 a1
  have hl1 : ¬ OverLimit (configFor E w r) r1 a1 := fun hc => hl ((overLimit_congr ht hs).1 hc)
  have ht1 : ¬ ReachesThreshold (configFor E w r) r1 a1 := fun hc => hthr ((reaches_congr ht hs).1 hc)
  have hf : r1.flags = r.flags := by rw [ht]
  have hb1 : ¬ BoxHeld (configFor E w r) (clockNow E.clock) r1 a1 := by
    intro hc; have := hc.1; rw [hf, hub] at this; cases this
  obtain ⟨_, _, _, d4, _⟩ := hd.2.2.2 hl1 hb1 ht1
  have d4 := d4 (by rw [hf]; exact hg) (by rw [hs 0 (by decide) (by decide), hs 1 (by decide) (by decide)]; exact h01)
  intro k hk hk12 hk2
  rw [ha k hk]
  refine (d4 k).trans ?_
  have : ¬ 12 = k := fun h => hk12 h.symm
  rw [hs k hk hk2, hf, hub]
  simp [this]

/-- C23: every dispatch on a rule ends with a verdict or with FALLTHROUGH and the default policy. -/
theorem C23_always_decided {σ : Type} {E : DispEnv σ} (hE : Observing E) {trigger : Option Event} {target : Route}
    {ref : RuleRef} {w w' : World σ} {a a' : Flags} {r : Route} (hr : w.get ref = some r)
    (hin : r.flags.getLsbD 14 = true ∨ w.T.fallthroughRoute = none)
    (h : E.dispatch0 trigger target ref w a = some (w', a', .ok ())) :
    a'.getLsbD 0 = true ∨ a'.getLsbD 1 = true ∨
    (a'.getLsbD 10 = true ∧ ∀ k, k ≠ 6 → w.T.defaultPolicy.getLsbD k = true → a'.getLsbD k = true) := by
  obtain ⟨r1, a1, ht, hs, hw, ha⟩ := dispatch0_full hE hr hin h
  have hd := decideRule_spec (configFor E w r) w.T.defaultPolicy (clockNow E.clock) E.boxClock r1 a1
  by_cases hl : OverLimit (configFor E w r) r1 a1
  · right; left; rw [ha 1 (by decide)]; exact ((hd.1 hl).2 1).trans (by simp)
  by_cases hb : BoxHeld (configFor E w r) (clockNow E.clock) r1 a1
  · right; left; rw [ha 1 (by decide)]; exact ((hd.2.1 hl hb).2 1).trans (by simp)
  by_cases ht : ReachesThreshold (configFor E w r) r1 a1
  · right; left; rw [ha 1 (by decide)]; exact ((hd.2.2.1 hl hb ht).2.2.2.2 1).trans (by simp)
  obtain ⟨_, _, d3, d4, d5⟩ := hd.2.2.2 hl hb ht
  cases hg : r1.flags.getLsbD 21 with
  | true => left; rw [ha 0 (by decide)]; exact (d3 hg 0).trans (by simp)
  | false =>
    cases h0 : a1.getLsbD 0 with
    | true => left; rw [ha 0 (by decide)]; exact (d4 hg (.inl h0) 0).trans (by simp [h0])
    | false =>
      cases h1 : a1.getLsbD 1 with
      | true => right; left; rw [ha 1 (by decide)]; exact (d4 hg (.inr h1) 1).trans (by simp [h1])
      | false =>
        right; right
        refine ⟨?_, fun k hk hp => ?_⟩
        · rw [ha 10 (by decide)]; exact (d5 hg h0 h1 10).trans (by simp)
        · rw [ha k hk]; exact (d5 hg h0 h1 k).trans (by simp [hp])

end WS.Props
