import Verif.Spec.Connections
import Verif.Proof.Offender2
/-
The connection count of a rule over a history (C90).
-/
namespace WS.Con
open WS WS.Spec WS.Spec.Off WS.Off WS.Spec.Con

variable {σ : Type} {c : EventConfig}

theorem ledger_append (n : Nat) (h h' : List (Visit σ)) : ledger c n (h ++ h') = ledger c (ledger c n h) h' := by
  unfold ledger; rw [List.foldl_append]

theorem enter_le {n : Nat} (hn : n ≤ c.maxConnectionCount) (v : Visit σ) : enter c n v ≤ c.maxConnectionCount := by
  unfold enter; (repeat' split) <;> omega

theorem ledger_le {h : List (Visit σ)} : ∀ {n : Nat}, n ≤ c.maxConnectionCount → ledger c n h ≤ c.maxConnectionCount := by
  induction h with
  | nil => intro n hn; exact hn
  | cons v h ih => intro n hn; exact ih (enter_le hn v)

/-- What the verdict does to the count is one entry in the ledger. -/
theorem judged_enter (hm : c.maxConnectionCount ≤ 65535) {pol : Flags} {now : Int} {clk : Except Err Int} {r r' : Route} {v : Visit σ} {a' : Flags}
    (hr : Counts r) (hj : Judged c pol now clk r (charge c v) r' a') : r'.data.connectionCount = enter c r.data.connectionCount v := by
  rw [hj.connections]
  unfold enter OverLimit connectionsNow Opens Closes
  have h23 : r.flags.getLsbD 23 = false := hr
  by_cases hc : Charged (charge c v)
  · by_cases h2 : (charge c v).getLsbD 2 = true
    · simp only [hc, h23, h2, true_and, and_self, if_true]
      by_cases hl : r.data.connectionCount < c.maxConnectionCount
      · rw [if_neg (by omega), if_pos hl]; omega
      · rw [if_pos (by omega), if_neg hl]
    · have h2' : (charge c v).getLsbD 2 = false := by simpa using h2
      by_cases h3 : (charge c v).getLsbD 3 = true
      · simp only [hc, h23, h2', h3, true_and, and_true, false_and, if_true, if_false, Bool.false_eq_true]
      · simp only [hc, h23, h2', h3, true_and, and_false, false_and, if_true, if_false, Bool.false_eq_true]
  · simp only [hc, false_and, if_false]

theorem con_run {g : EventConfig} {X : Nat} (hX : X ≠ 0) (hm : c.maxConnectionCount ≤ 65535) {h : List (Visit σ)} : ∀ {w w' : World σ} {r : Route}, Proper w → Fair g h →
    Runs w h w' → w.T.get? X = some r → Counts r → c = configOf g (r.event.or w.T.defaultEvent) →
    Proper w' ∧ (w'.T.get? X = none ∨ ∃ r', w'.T.get? X = some r' ∧ r'.data.connectionCount = ledger c r.data.connectionCount (about X h) ∧ Kept w w' r r') := by
  induction h with
  | nil =>
    intro w w' r hP _ hr hg _ _
    cases hr
    exact ⟨hP, .inr ⟨r, hg, rfl, ⟨rfl, fun _ _ _ => rfl, ⟨rfl, rfl, rfl⟩⟩⟩⟩
  | cons v h ih =>
    intro w w' r hP hF hr hg hf hc
    obtain ⟨h1, w1, h2, h3⟩ := hr
    obtain ⟨hE, hEg⟩ := hF v (List.mem_cons_self ..)
    have hF' : Fair g h := fun u hu => hF u (List.mem_cons_of_mem _ hu)
    have st := run_step (X := X) hE hP hX h2
    by_cases hv : v.reply.about = X
    · obtain ⟨r1, e1, e2, e3, e4⟩ := st.judged r hg hv
      rw [cfg_eq hc hEg] at e4
      have k1 : Kept w w1 r r1 := ⟨e2, e3, st.settings⟩
      have hj := judged_enter hm hf e4
      obtain ⟨i1, i2⟩ := ih st.proper hF' h3 e1 ((e3 23 (by decide) (by decide)).trans hf) (k1.cfg hc)
      refine ⟨i1, i2.imp id ?_⟩
      rintro ⟨r', a1, a2, a3⟩
      refine ⟨r', a1, ?_, k1.trans a3⟩
      rw [a2, hj, about_cons_pos hv]; rfl
    · rcases st.other r hg hv with e | ⟨r1, e1, ha⟩
      · exact ⟨proper_run st.proper hF' h3, .inl (gone_run hX st.proper hF' h3 e).1⟩
      · have k1 : Kept w w1 r r1 := ⟨ha.2.1, fun k _ h22 => ha.2.2.1 k h22, st.settings⟩
        obtain ⟨i1, i2⟩ := ih st.proper hF' h3 e1 ((ha.2.2.1 23 (by decide)).trans hf) (k1.cfg hc)
        refine ⟨i1, i2.imp id ?_⟩
        rintro ⟨r', a1, a2, a3⟩
        refine ⟨r', a1, ?_, k1.trans a3⟩
        rw [a2, ha.2.2.2, about_cons_neg hv]

/-- A charge without offence or commendation leaves a clean record clean. -/
theorem add_clean {s : Flags} (h4 : s.getLsbD 4 = false) (h5 : s.getLsbD 5 = false) : (⟨0, 0⟩ : Tally).add c s = ⟨0, 0⟩ := by
  unfold Tally.add; rw [h4, h5]; split <;> rfl

theorem not_guilty : ¬ Guilty c ⟨0, 0⟩ := by
  unfold Guilty
  rintro ⟨h1, h2⟩
  split at h2 <;> simp only at h2 <;> omega

/-- Without offences a rule stays unbanned and its record clean, whether connections are refused or not. -/
theorem peace_run {g : EventConfig} {X : Nat} (hX : X ≠ 0) {h : List (Visit σ)} : ∀ {w w' : World σ} {r : Route}, Proper w → Fair g h →
    Runs w h w' → w.T.get? X = some r → Free r → recordOf r = ⟨0, 0⟩ → c = configOf g (r.event.or w.T.defaultEvent) →
    (∀ v ∈ about X h, (charge c v).getLsbD 4 = false ∧ (charge c v).getLsbD 5 = false) →
    w'.T.get? X = none ∨ ∃ r', w'.T.get? X = some r' ∧ Free r' ∧ recordOf r' = ⟨0, 0⟩ ∧ Kept w w' r r' := by
  induction h with
  | nil =>
    intro w w' r hP _ hr hg hf hrec _ _
    cases hr
    exact .inr ⟨r, hg, hf, hrec, ⟨rfl, fun _ _ _ => rfl, ⟨rfl, rfl, rfl⟩⟩⟩
  | cons v h ih =>
    intro w w' r hP hF hr hg hf hrec hc hpl
    obtain ⟨h1, w1, h2, h3⟩ := hr
    obtain ⟨hE, hEg⟩ := hF v (List.mem_cons_self ..)
    have hF' : Fair g h := fun u hu => hF u (List.mem_cons_of_mem _ hu)
    have st := run_step (X := X) hE hP hX h2
    by_cases hv : v.reply.about = X
    · obtain ⟨r1, e1, e2, e3, e4⟩ := st.judged r hg hv
      rw [cfg_eq hc hEg] at e4
      have k1 : Kept w w1 r r1 := ⟨e2, e3, st.settings⟩
      obtain ⟨h4, h5⟩ := hpl v (by rw [about_cons_pos hv]; exact List.mem_cons_self ..)
      change Judged _ _ _ _ _ (charge c v) _ _ at e4
      have hout : Free r1 ∧ recordOf r1 = ⟨0, 0⟩ := by
        by_cases ho : OverLimit c r (charge c v)
        · refine ⟨(e4.refused ho).1.trans hf, ?_⟩
          have := e4.refusedRecord ho
          simp only [h4, hrec, Bool.false_eq_true, if_false] at this
          exact this
        · have hnb : ¬ BoxHeld c (clockNow v.ask.env.clock) r (charge c v) := fun hb => by have := hb.1; rw [hf] at this; cases this
          obtain ⟨j1, _, j3, _⟩ := e4.clean ho hnb (by rw [hrec, add_clean h4 h5]; exact not_guilty)
          exact ⟨j1, by rw [j3, hrec, add_clean h4 h5]⟩
      rcases ih st.proper hF' h3 e1 hout.1 hout.2 (k1.cfg hc) (fun u hu => hpl u (by rw [about_cons_pos hv]; exact List.mem_cons_of_mem _ hu)) with e | ⟨r', a1, a2, a3, a4⟩
      · exact .inl e
      · exact .inr ⟨r', a1, a2, a3, k1.trans a4⟩
    · rcases st.kept_other hg hv with e | ⟨r1, e1, k1, e2, e3, e4⟩
      · exact .inl (gone_run hX st.proper hF' h3 e).1
      · rcases ih st.proper hF' h3 e1 (e2.trans hf) (e3.trans hrec) (k1.cfg hc) (fun u hu => hpl u (by rw [about_cons_neg hv]; exact hu)) with e | ⟨r', a1, a2, a3, a4⟩
        · exact .inl e
        · exact .inr ⟨r', a1, a2, a3, k1.trans a4⟩

end WS.Con
