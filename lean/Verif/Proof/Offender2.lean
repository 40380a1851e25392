import Verif.Proof.Offender
/-
Histories of dispatches (C87), continued: induction over the history.
-/
namespace WS.Off
open WS WS.Spec WS.Spec.Off WS.Props WS.Lwip

variable {σ : Type}

theorem runs_append {h : List (Visit σ)} {v : Visit σ} : ∀ {w w' : World σ}, Runs w (h ++ [v]) w' →
    ∃ w1, Runs w h w1 ∧ v.before = w1 ∧ v.ask.run w1 = some (w', v.reply) := by
  induction h with
  | nil =>
    intro w w' hr
    obtain ⟨h1, w1, h2, h3⟩ := hr
    cases h3
    exact ⟨w, rfl, h1, h2⟩
  | cons u h ih =>
    intro w w' hr
    obtain ⟨h1, w1, h2, h3⟩ := hr
    obtain ⟨w2, e1, e2, e3⟩ := ih h3
    exact ⟨w2, ⟨h1, w1, h2, e1⟩, e2, e3⟩

theorem about_cons_pos {X : Nat} {v : Visit σ} {h : List (Visit σ)} (hv : v.reply.about = X) : about X (v :: h) = v :: about X h := by
  unfold about; rw [List.filter_cons_of_pos (by simpa using hv)]

theorem about_cons_neg {X : Nat} {v : Visit σ} {h : List (Visit σ)} (hv : v.reply.about ≠ X) : about X (v :: h) = about X h := by
  unfold about; rw [List.filter_cons_of_neg (by simpa using hv)]

theorem about_append (X : Nat) (h h' : List (Visit σ)) : about X (h ++ h') = about X h ++ about X h' := List.filter_append ..

theorem tally_append (c : EventConfig) (t : Tally) (h h' : List (Visit σ)) : tally c t (h ++ h') = tally c (tally c t h) h' := List.foldl_append ..

theorem hitAlike_record {r r' : Route} (h : HitAlike r r') : recordOf r' = recordOf r := by unfold recordOf; rw [h.2.2.2]

/-- A rule that is gone does not come back. -/
theorem gone_run {g : EventConfig} {X : Nat} (hX : X ≠ 0) {h : List (Visit σ)} : ∀ {w w' : World σ}, Proper w → Fair g h → Runs w h w' →
    w.T.get? X = none → w'.T.get? X = none ∧ about X h = [] := by
  induction h with
  | nil => intro w w' _ _ hr hn; cases hr; exact ⟨hn, rfl⟩
  | cons v h ih =>
    intro w w' hP hF hr hn
    obtain ⟨h1, w1, h2, h3⟩ := hr
    have st := run_step (X := X) (hF v (List.mem_cons_self ..)).1 hP hX h2
    obtain ⟨n1, n2⟩ := st.gone hn
    have := ih st.proper (fun u hu => hF u (List.mem_cons_of_mem _ hu)) h3 n1
    rw [about_cons_neg n2]
    exact this

theorem cfg_eq {g c : EventConfig} {E : DispEnv σ} {w : World σ} {r : Route} (hc : c = configOf g (r.event.or w.T.defaultEvent)) (hg : E.g = g) :
    configFor E w r = c := by unfold configFor; rw [hg, hc]

/-- What stays as it is throughout. -/
structure Kept (w w' : World σ) (r r' : Route) : Prop where
  event : r'.event = r.event
  flags : ∀ k, k ≠ 20 → k ≠ 22 → r'.flags.getLsbD k = r.flags.getLsbD k
  settings : SameSettings w.T w'.T

theorem Kept.cfg {g c : EventConfig} {w w' : World σ} {r r' : Route} (k : Kept w w' r r') (hc : c = configOf g (r.event.or w.T.defaultEvent)) :
    c = configOf g (r'.event.or w'.T.defaultEvent) := by rw [k.event, k.settings.2.1]; exact hc

theorem Kept.trans {a b c : World σ} {x y z : Route} (h : Kept a b x y) (h' : Kept b c y z) : Kept a c x z :=
  ⟨h'.event.trans h.event, fun k h20 h22 => (h'.flags k h20 h22).trans (h.flags k h20 h22),
    ⟨h'.settings.1.trans h.settings.1, h'.settings.2.1.trans h.settings.2.1, h'.settings.2.2.trans h.settings.2.2⟩⟩

theorem Stepped.kept_other {q : Ask σ} {w w1 : World σ} {rep : Reply} {X : Nat} (st : Stepped q w w1 rep X) {r : Route} (hr : w.T.get? X = some r)
    (hne : rep.about ≠ X) : w1.T.get? X = none ∨ ∃ r', w1.T.get? X = some r' ∧ Kept w w1 r r' ∧ r'.flags.getLsbD 20 = r.flags.getLsbD 20 ∧
      recordOf r' = recordOf r ∧ r'.data.lastPenaltyboxTime = r.data.lastPenaltyboxTime := by
  rcases st.other r hr hne with e | ⟨r', e, ha⟩
  · exact .inl e
  · exact .inr ⟨r', e, ⟨ha.2.1, fun k _ h22 => ha.2.2.1 k h22, st.settings⟩, ha.2.2.1 20 (by decide), hitAlike_record ha, by rw [ha.2.2.2]⟩

theorem proper_run {g : EventConfig} {h : List (Visit σ)} : ∀ {w w' : World σ}, Proper w → Fair g h → Runs w h w' → Proper w' := by
  induction h with
  | nil => intro w w' hP _ hr; cases hr; exact hP
  | cons u h ih =>
    intro w w' hP hF hr
    obtain ⟨_, w2, h2, h3⟩ := hr
    exact ih (run_step (X := 1) (hF u (List.mem_cons_self ..)).1 hP (by decide) h2).proper (fun x hx => hF x (List.mem_cons_of_mem _ hx)) h3

/-- While the record does not call for a ban, there is none, and the rule's counts are the record. -/
theorem clean_run {g c : EventConfig} {X : Nat} (hX : X ≠ 0) {h : List (Visit σ)} : ∀ {w w' : World σ} {r : Route}, Proper w → Fair g h → Runs w h w' →
    w.T.get? X = some r → Free r → c = configOf g (r.event.or w.T.defaultEvent) → (∀ v ∈ about X h, ¬ Refused c v) →
    (∀ p, p <+: h → ¬ Guilty c (tally c (recordOf r) (about X p))) →
    Proper w' ∧ ∀ r', w'.T.get? X = some r' → Free r' ∧ recordOf r' = tally c (recordOf r) (about X h) ∧
      r'.data.lastPenaltyboxTime = r.data.lastPenaltyboxTime ∧ Kept w w' r r' := by
  induction h with
  | nil =>
    intro w w' r hP _ hr hg hf _ _ _
    cases hr
    refine ⟨hP, fun r' hr' => ?_⟩
    rw [hg] at hr'; cases hr'
    exact ⟨hf, rfl, rfl, ⟨rfl, fun _ _ _ => rfl, ⟨rfl, rfl, rfl⟩⟩⟩
  | cons v h ih =>
    intro w w' r hP hF hr hg hf hc hnr hng
    obtain ⟨h1, w1, h2, h3⟩ := hr
    obtain ⟨hE, hEg⟩ := hF v (List.mem_cons_self ..)
    have hF' : Fair g h := fun u hu => hF u (List.mem_cons_of_mem _ hu)
    have st := run_step (X := X) hE hP hX h2
    by_cases hv : v.reply.about = X
    · obtain ⟨r1, e1, e2, e3, e4⟩ := st.judged r hg hv
      rw [cfg_eq hc hEg] at e4
      have hno : ¬ OverLimit c r (charge c v) := fun ho =>
        hnr v (by rw [about_cons_pos hv]; exact List.mem_cons_self ..) ⟨r, by rw [h1, hv]; exact hg, ho⟩
      have hnb : ¬ BoxHeld c (clockNow v.ask.env.clock) r (charge c v) := fun hb => by have := hb.1; rw [hf] at this; cases this
      have hng1 : ¬ Guilty c ((recordOf r).add c (charge c v)) := by
        have := hng [v] ⟨h, rfl⟩
        rw [about_cons_pos hv] at this
        exact this
      obtain ⟨j1, j2, j3, _⟩ := e4.clean hno hnb hng1
      have k1 : Kept w w1 r r1 := ⟨e2, e3, st.settings⟩
      have := ih st.proper hF' h3 e1 j1 (k1.cfg hc) (fun u hu => hnr u (by rw [about_cons_pos hv]; exact List.mem_cons_of_mem _ hu))
        (fun p hp => by
          have := hng (v :: p) (List.cons_prefix_cons.2 ⟨rfl, hp⟩)
          rw [about_cons_pos hv] at this
          rw [j3]; exact this)
      refine ⟨this.1, fun r' hr' => ?_⟩
      obtain ⟨a1, a2, a3, a4⟩ := this.2 r' hr'
      refine ⟨a1, ?_, a3.trans j2, k1.trans a4⟩
      rw [a2, j3, about_cons_pos hv]; rfl
    · rcases st.kept_other hg hv with e | ⟨r1, e1, k1, e2, e3, e4⟩
      · have hgone := gone_run hX st.proper hF' h3 e
        have hP' : Proper w' := proper_run st.proper hF' h3
        exact ⟨hP', fun r' hr' => by rw [hgone.1] at hr'; cases hr'⟩
      · have := ih st.proper hF' h3 e1 (e2.trans hf) (k1.cfg hc) (fun u hu => hnr u (by rw [about_cons_neg hv]; exact hu))
          (fun p hp => by
            have := hng (v :: p) (List.cons_prefix_cons.2 ⟨rfl, hp⟩)
            rw [about_cons_neg hv] at this
            rw [e3]; exact this)
        refine ⟨this.1, fun r' hr' => ?_⟩
        obtain ⟨a1, a2, a3, a4⟩ := this.2 r' hr'
        refine ⟨a1, ?_, a3.trans e4, k1.trans a4⟩
        rw [a2, e3, about_cons_neg hv]

/-- While the ban is on, every visit is rejected and the ban stays. -/
theorem banned_run {g c : EventConfig} {X : Nat} (hX : X ≠ 0) {t : Int} {h : List (Visit σ)} : ∀ {w w' : World σ} {r : Route}, Proper w → Fair g h → Runs w h w' →
    w.T.get? X = some r → Banned r t → c = configOf g (r.event.or w.T.defaultEvent) → (∀ v ∈ about X h, StillOn c t v) →
    (∀ v ∈ about X h, v.reply.ares.getLsbD 1 = true) ∧
    ∀ r', w'.T.get? X = some r' → Banned r' t ∧ Kept w w' r r' ∧
      ((∀ v ∈ about X h, ¬ Refused c v) → recordOf r' = tally c (recordOf r) (about X h)) := by
  induction h with
  | nil =>
    intro w w' r hP _ hr hg hb _ _
    cases hr
    refine ⟨fun v hv => by simp [about] at hv, fun r' hr' => ?_⟩
    rw [hg] at hr'; cases hr'
    exact ⟨hb, ⟨rfl, fun _ _ _ => rfl, ⟨rfl, rfl, rfl⟩⟩, fun _ => rfl⟩
  | cons v h ih =>
    intro w w' r hP hF hr hg hb hc hon
    obtain ⟨h1, w1, h2, h3⟩ := hr
    obtain ⟨hE, hEg⟩ := hF v (List.mem_cons_self ..)
    have hF' : Fair g h := fun u hu => hF u (List.mem_cons_of_mem _ hu)
    have st := run_step (X := X) hE hP hX h2
    by_cases hv : v.reply.about = X
    · obtain ⟨r1, e1, e2, e3, e4⟩ := st.judged r hg hv
      rw [cfg_eq hc hEg] at e4
      have hson := hon v (by rw [about_cons_pos hv]; exact List.mem_cons_self ..)
      have hheld : BoxHeld c (clockNow v.ask.env.clock) r (charge c v) :=
        ⟨hb.1, fun hx => hson.1 (by unfold BoxElapsed at hx; rw [hb.2] at hx; exact hx), hson.2⟩
      have hout : Banned r1 t ∧ v.reply.ares.getLsbD 1 = true ∧ (¬ OverLimit c r (charge c v) → recordOf r1 = (recordOf r).add c (charge c v)) := by
        by_cases ho : OverLimit c r (charge c v)
        · obtain ⟨j1, j2, j3⟩ := e4.refused ho
          exact ⟨⟨j1.trans hb.1, j2.trans hb.2⟩, j3, fun hx => absurd ho hx⟩
        · obtain ⟨j1, j2, j3, j4⟩ := e4.held ho hheld
          exact ⟨⟨j1, j2.trans hb.2⟩, j4, fun _ => j3⟩
      have k1 : Kept w w1 r r1 := ⟨e2, e3, st.settings⟩
      have := ih st.proper hF' h3 e1 hout.1 (k1.cfg hc) (fun u hu => hon u (by rw [about_cons_pos hv]; exact List.mem_cons_of_mem _ hu))
      rw [about_cons_pos hv]
      refine ⟨fun u hu => ?_, fun r' hr' => ?_⟩
      · rcases List.mem_cons.1 hu with rfl | hu
        · exact hout.2.1
        · exact this.1 u hu
      · obtain ⟨a1, a2, a3⟩ := this.2 r' hr'
        refine ⟨a1, k1.trans a2, fun hnr => ?_⟩
        rw [a3 (fun u hu => hnr u (List.mem_cons_of_mem _ hu)),
          hout.2.2 (fun ho => hnr v (List.mem_cons_self ..) ⟨r, by rw [h1, hv]; exact hg, ho⟩)]
        rfl
    · rw [about_cons_neg hv] at hon ⊢
      rcases st.kept_other hg hv with e | ⟨r1, e1, k1, e2, e3, e4⟩
      · have hgone := gone_run hX st.proper hF' h3 e
        refine ⟨fun u hu => (by rw [hgone.2] at hu; cases hu), fun r' hr' => by rw [hgone.1] at hr'; cases hr'⟩
      · have := ih st.proper hF' h3 e1 ⟨e2.trans hb.1, e4.trans hb.2⟩ (k1.cfg hc) hon
        refine ⟨this.1, fun r' hr' => ?_⟩
        obtain ⟨a1, a2, a3⟩ := this.2 r' hr'
        exact ⟨a1, k1.trans a2, fun hnr => by rw [a3 hnr, e3]⟩

/-- The visited rule was there, and the verdict on it. -/
theorem visit_judged {g c : EventConfig} {X : Nat} (hX : X ≠ 0) {w w1 : World σ} (hP : Proper w) {v : Visit σ}
    (hE : Observing v.ask.env) (hEg : v.ask.env.g = g) (hb : v.before = w) (hrun : v.ask.run w = some (w1, v.reply)) (hv : v.reply.about = X)
    (hc : ∀ r, w.T.get? X = some r → c = configOf g (r.event.or w.T.defaultEvent)) :
    ∃ r r1, v.before.T.get? X = some r ∧ w.T.get? X = some r ∧ w1.T.get? X = some r1 ∧ Kept w w1 r r1 ∧
      Judged c w.T.defaultPolicy (clockNow v.ask.env.clock) v.ask.env.boxClock r (charge c v) r1 v.reply.ares := by
  have st := run_step (X := X) hE hP hX hrun
  cases hg : w.T.get? X with
  | none => exact absurd hv (st.gone hg).2
  | some r =>
    obtain ⟨r1, e1, e2, e3, e4⟩ := st.judged r hg hv
    rw [cfg_eq (hc r hg) hEg] at e4
    exact ⟨r, r1, by rw [hb]; exact hg, rfl, e1, ⟨e2, e3, st.settings⟩, e4⟩

end WS.Off
