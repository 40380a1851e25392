import Verif.Proof.Offender2
/-
C87: an offender is banned, for the time configured, and then let in again — over any history of
dispatches.
-/
namespace WS.Props
open WS WS.Spec WS.Spec.Off WS.Off

variable {σ : Type}

/-- C87 (no ban without cause).  In any history of dispatches during which the offences on the record of
the rule `X` never called for a ban, the rule — if it has not expired — is not banned at the end and its
record is what the visits to it add up to, whatever was dispatched in between on other traffic. -/
theorem C87_no_ban_without_cause {g c : EventConfig} {X : Nat} (hX : X ≠ 0) {h : List (Visit σ)} {w w' : World σ} {r : Route}
    (hP : Proper w) (hF : Fair g h) (hrun : Runs w h w') (hr : w.T.get? X = some r) (hfree : Free r)
    (hc : c = configOf g (r.event.or w.T.defaultEvent)) (hnr : ∀ v ∈ about X h, ¬ Refused c v)
    (hclean : ∀ p, p <+: h → ¬ Guilty c (tally c (recordOf r) (about X p))) :
    w'.T.get? X = none ∨ ∃ r', w'.T.get? X = some r' ∧ Free r' ∧ recordOf r' = tally c (recordOf r) (about X h) := by
  cases hg : w'.T.get? X with
  | none => exact .inl rfl
  | some r' =>
    obtain ⟨a1, a2, _⟩ := (clean_run hX hP hF hrun hr hfree hc hnr hclean).2 r' hg
    exact .inr ⟨r', rfl, a1, a2⟩

/-- C87 (the visits of a rule with a clean record).  A further visit that leaves the record clean is rejected
only if the caller, the configuration or the default policy says so. -/
theorem C87_clean_visit {g c : EventConfig} {X : Nat} (hX : X ≠ 0) {h : List (Visit σ)} {v : Visit σ} {w w' : World σ} {r : Route}
    (hP : Proper w) (hF : Fair g (h ++ [v])) (hrun : Runs w (h ++ [v]) w') (hr : w.T.get? X = some r) (hfree : Free r)
    (hc : c = configOf g (r.event.or w.T.defaultEvent)) (hnr : ∀ u ∈ about X (h ++ [v]), ¬ Refused c u)
    (hclean : ∀ p, p <+: h ++ [v] → ¬ Guilty c (tally c (recordOf r) (about X p))) (hv : v.reply.about = X) :
    v.reply.ares.getLsbD 1 = true ↔ PlainReject w.T.defaultPolicy r (charge c v) := by
  obtain ⟨w1, e1, e2, e3⟩ := runs_append hrun
  have hFh : Fair g h := fun u hu => hF u (List.mem_append_left _ hu)
  obtain ⟨hE, hEg⟩ := hF v (List.mem_append_right _ (List.mem_singleton.2 rfl))
  have hav : about X (h ++ [v]) = about X h ++ [v] := by rw [about_append, about_cons_pos hv]; rfl
  rw [hav] at hnr
  have hcl := clean_run hX hP hFh e1 hr hfree hc (fun u hu => hnr u (List.mem_append_left _ hu))
    (fun p hp => hclean p (hp.trans (List.prefix_append ..)))
  obtain ⟨x, x1, b1, b2, _, _, j⟩ := visit_judged (c := c) hX hcl.1 hE hEg e2 e3 hv (fun y hy => ((hcl.2 y hy).2.2.2).cfg hc)
  obtain ⟨c1, c2, _, c4⟩ := hcl.2 x b2
  have hno : ¬ OverLimit c x (charge c v) := fun ho =>
    hnr v (List.mem_append_right _ (List.mem_singleton.2 rfl)) ⟨x, by rw [hv]; exact b1, ho⟩
  have hnb : ¬ BoxHeld c (clockNow v.ask.env.clock) x (charge c v) := fun hb => by have := hb.1; rw [c1] at this; cases this
  have hng : ¬ Guilty c ((recordOf x).add c (charge c v)) := by
    have := hclean (h ++ [v]) (List.prefix_refl _)
    rw [hav, tally_append] at this
    rw [c2]; exact this
  rw [(j.clean hno hnb hng).2.2.2, c4.settings.1]
  unfold PlainReject
  rw [c4.flags 21 (by decide) (by decide)]

/-- C87 (the ban).  The visit with which the record first calls for a ban is rejected, and leaves the rule
banned since the time read at that moment, with a fresh record. -/
theorem C87_banned {g c : EventConfig} {X : Nat} (hX : X ≠ 0) {h : List (Visit σ)} {v : Visit σ} {w w' : World σ} {r : Route}
    (hP : Proper w) (hF : Fair g (h ++ [v])) (hrun : Runs w (h ++ [v]) w') (hr : w.T.get? X = some r) (hfree : Free r)
    (hc : c = configOf g (r.event.or w.T.defaultEvent)) (hnr : ∀ u ∈ about X (h ++ [v]), ¬ Refused c u)
    (hclean : ∀ p, p <+: h → ¬ Guilty c (tally c (recordOf r) (about X p)))
    (hv : v.reply.about = X) (hguilty : Guilty c (tally c (recordOf r) (about X (h ++ [v])))) :
    v.reply.ares.getLsbD 1 = true ∧
    ∃ r', w'.T.get? X = some r' ∧ recordOf r' = ⟨0, 0⟩ ∧ r'.flags.getLsbD 20 = true ∧
      ∀ t, v.ask.env.boxClock = .ok t → Banned r' t := by
  obtain ⟨w1, e1, e2, e3⟩ := runs_append hrun
  have hFh : Fair g h := fun u hu => hF u (List.mem_append_left _ hu)
  obtain ⟨hE, hEg⟩ := hF v (List.mem_append_right _ (List.mem_singleton.2 rfl))
  have hav : about X (h ++ [v]) = about X h ++ [v] := by rw [about_append, about_cons_pos hv]; rfl
  rw [hav] at hnr
  have hcl := clean_run hX hP hFh e1 hr hfree hc (fun u hu => hnr u (List.mem_append_left _ hu)) hclean
  obtain ⟨x, x1, b1, b2, b3, _, j⟩ := visit_judged (c := c) hX hcl.1 hE hEg e2 e3 hv (fun y hy => ((hcl.2 y hy).2.2.2).cfg hc)
  obtain ⟨c1, c2, _, c4⟩ := hcl.2 x b2
  have hno : ¬ OverLimit c x (charge c v) := fun ho =>
    hnr v (List.mem_append_right _ (List.mem_singleton.2 rfl)) ⟨x, by rw [hv]; exact b1, ho⟩
  have hnb : ¬ BoxHeld c (clockNow v.ask.env.clock) x (charge c v) := fun hb => by have := hb.1; rw [c1] at this; cases this
  have hg : Guilty c ((recordOf x).add c (charge c v)) := by
    rw [hav, tally_append] at hguilty
    rw [c2]; exact hguilty
  obtain ⟨j1, j2, j3, j4⟩ := j.guilty hno hnb hg
  exact ⟨j4, x1, b3, j2, j1, fun t ht => ⟨j1, j3 t ht⟩⟩

/-- C87 (the ban holds).  As long as the duration has not passed and no commendation lifts it, every visit to
a banned rule is rejected — also over the connection limit, also of green-listed rules, whatever the policy
— and the rule stays banned since the same time; the visits go on record.  If no duration is configured, or
the time of the ban is unknown (0), it never ends by itself. -/
theorem C87_ban_holds {g c : EventConfig} {X : Nat} (hX : X ≠ 0) {t : Int} {h : List (Visit σ)} {w w' : World σ} {r : Route}
    (hP : Proper w) (hF : Fair g h) (hrun : Runs w h w') (hr : w.T.get? X = some r) (hban : Banned r t)
    (hc : c = configOf g (r.event.or w.T.defaultEvent)) (hon : ∀ v ∈ about X h, StillOn c t v) :
    (∀ v ∈ about X h, v.reply.ares.getLsbD 1 = true) ∧
    (w'.T.get? X = none ∨ ∃ r', w'.T.get? X = some r' ∧ Banned r' t ∧
      ((∀ v ∈ about X h, ¬ Refused c v) → recordOf r' = tally c (recordOf r) (about X h))) := by
  obtain ⟨b1, b2⟩ := banned_run hX hP hF hrun hr hban hc hon
  refine ⟨b1, ?_⟩
  cases hg : w'.T.get? X with
  | none => exact .inl rfl
  | some r' => exact .inr ⟨r', rfl, (b2 r' hg).1, (b2 r' hg).2.2⟩

/-- C87 (the ban ends).  The first visit after the duration — or the first commendation, where those lift
bans — finds the rule released: it is rejected only if the caller, the configuration or the default policy
says so, unless the offences committed during the ban and with this visit call for a ban themselves, in which
case a new ban begins. -/
theorem C87_ban_ends {g c : EventConfig} {X : Nat} (hX : X ≠ 0) {t : Int} {h : List (Visit σ)} {v : Visit σ} {w w' : World σ} {r : Route}
    (hP : Proper w) (hF : Fair g (h ++ [v])) (hrun : Runs w (h ++ [v]) w') (hr : w.T.get? X = some r) (hban : Banned r t)
    (hc : c = configOf g (r.event.or w.T.defaultEvent)) (hnr : ∀ u ∈ about X (h ++ [v]), ¬ Refused c u)
    (hon : ∀ u ∈ about X h, StillOn c t u) (hv : v.reply.about = X) (hoff : ¬ StillOn c t v) :
    (¬ Guilty c (tally c (recordOf r) (about X (h ++ [v]))) →
      (v.reply.ares.getLsbD 1 = true ↔ PlainReject w.T.defaultPolicy r (charge c v)) ∧
      ∃ r', w'.T.get? X = some r' ∧ Free r' ∧ recordOf r' = tally c (recordOf r) (about X (h ++ [v]))) ∧
    (Guilty c (tally c (recordOf r) (about X (h ++ [v]))) →
      v.reply.ares.getLsbD 1 = true ∧ ∃ r', w'.T.get? X = some r' ∧ r'.flags.getLsbD 20 = true ∧ recordOf r' = ⟨0, 0⟩ ∧
        ∀ t', v.ask.env.boxClock = .ok t' → Banned r' t') := by
  obtain ⟨w1, e1, e2, e3⟩ := runs_append hrun
  have hFh : Fair g h := fun u hu => hF u (List.mem_append_left _ hu)
  obtain ⟨hE, hEg⟩ := hF v (List.mem_append_right _ (List.mem_singleton.2 rfl))
  have hav : about X (h ++ [v]) = about X h ++ [v] := by rw [about_append, about_cons_pos hv]; rfl
  rw [hav] at hnr ⊢
  have hb := banned_run hX hP hFh e1 hr hban hc hon
  obtain ⟨x, x1, b1, b2, b3, _, j⟩ := visit_judged (c := c) hX (proper_run hP hFh e1) hE hEg e2 e3 hv (fun y hy => ((hb.2 y hy).2.1).cfg hc)
  obtain ⟨c1, c4, c5⟩ := hb.2 x b2
  have c2 := c5 (fun u hu => hnr u (List.mem_append_left _ hu))
  have hno : ¬ OverLimit c x (charge c v) := fun ho =>
    hnr v (List.mem_append_right _ (List.mem_singleton.2 rfl)) ⟨x, by rw [hv]; exact b1, ho⟩
  have hnb : ¬ BoxHeld c (clockNow v.ask.env.clock) x (charge c v) := fun hbx => by
    refine hoff ⟨fun hx => hbx.2.1 ?_, hbx.2.2⟩
    unfold BoxElapsed; rw [c1.2]; exact hx
  have ht : tally c (recordOf r) (about X h ++ [v]) = (recordOf x).add c (charge c v) := by rw [tally_append, ← c2]; rfl
  rw [ht]
  refine ⟨fun hng => ?_, fun hg => ?_⟩
  · obtain ⟨j1, _, j3, j4⟩ := j.clean hno hnb hng
    refine ⟨?_, x1, b3, j1, j3⟩
    rw [j4, c4.settings.1]
    unfold PlainReject
    rw [c4.flags 21 (by decide) (by decide)]
  · obtain ⟨j1, j2, j3, j4⟩ := j.guilty hno hnb hg
    exact ⟨j4, x1, b3, j1, j2, fun t ht => ⟨j1, j3 t ht⟩⟩

/-- C87 (innocent bystanders).  A history in which no call was about the rule `X` leaves its record and its ban
as they were, or the rule has expired. -/
theorem C87_bystander {g : EventConfig} {X : Nat} (hX : X ≠ 0) {h : List (Visit σ)} : ∀ {w w' : World σ} {r : Route},
    Proper w → Fair g h → Runs w h w' → w.T.get? X = some r → about X h = [] →
    w'.T.get? X = none ∨ ∃ r', w'.T.get? X = some r' ∧ recordOf r' = recordOf r ∧ r'.flags.getLsbD 20 = r.flags.getLsbD 20 ∧
      r'.data.lastPenaltyboxTime = r.data.lastPenaltyboxTime ∧ r'.data.connectionCount = r.data.connectionCount := by
  induction h with
  | nil => intro w w' r _ _ hrun hr _; cases hrun; exact .inr ⟨r, hr, rfl, rfl, rfl, rfl⟩
  | cons v h ih =>
    intro w w' r hP hF hrun hr ha
    obtain ⟨h1, w1, h2, h3⟩ := hrun
    have hF' : Fair g h := fun u hu => hF u (List.mem_cons_of_mem _ hu)
    have st := run_step (X := X) (hF v (List.mem_cons_self ..)).1 hP hX h2
    have hv : v.reply.about ≠ X := fun hv => by rw [about_cons_pos hv] at ha; cases ha
    rw [about_cons_neg hv] at ha
    rcases st.other r hr hv with e | ⟨r1, e1, hal⟩
    · exact .inl (gone_run hX st.proper hF' h3 e).1
    · rcases ih st.proper hF' h3 e1 ha with e | ⟨r', a0, a1, a2, a3, a4⟩
      · exact .inl e
      · exact .inr ⟨r', a0, a1.trans (hitAlike_record hal), a2.trans (hal.2.2.1 20 (by decide)), a3.trans (by rw [hal.2.2.2]),
          a4.trans (by rw [hal.2.2.2])⟩

/-! ## Concrete histories -/

/-- Make the calls. -/
def play : World σ → List (Ask σ) → Option (List (Visit σ) × World σ)
  | w, [] => some ([], w)
  | w, q :: qs =>
    match q.run w with
    | none => none
    | some (w1, rep) => (play w1 qs).map (fun x => ({ ask := q, before := w, reply := rep } :: x.1, x.2))

theorem play_runs {qs : List (Ask σ)} : ∀ {w w' : World σ} {h : List (Visit σ)}, play w qs = some (h, w') → Runs w h w' ∧ h.map (·.ask) = qs := by
  induction qs with
  | nil => intro w w' h hp; cases hp; exact ⟨rfl, rfl⟩
  | cons q qs ih =>
    intro w w' h hp
    unfold play at hp
    split at hp
    · cases hp
    · rename_i w1 rep hq
      cases hx : play w1 qs with
      | none => rw [hx] at hp; cases hp
      | some x =>
        rw [hx] at hp
        cases hp
        obtain ⟨i1, i2⟩ := ih (h := x.1) (w' := x.2) hx
        exact ⟨⟨rfl, w1, hq, i1⟩, by rw [List.map_cons, i2]⟩

/-- The quiet surroundings at another time. -/
def envAt (t : Int) : DispEnv Unit := { envQuiet with clock := .ok t, boxClock := .ok t }
theorem envAt_observing (t : Int) : Observing (envAt t) := fun _ _ _ _ _ => ⟨rfl, rfl, rfl, fun _ _ => rfl⟩

/-- A report about rule 1 at a time. -/
def tell (t : Int) (a : Flags) : Ask Unit := .rule (envAt t) (fun _ => .error .itemNotFound) 1 none a

/-- What came of some calls: answers rejected, and whether rule 1 is banned at the end, since when. -/
def upshot (w : World Unit) (qs : List (Ask Unit)) : Option (List Bool × Option (Bool × Int)) :=
  (play w qs).map (fun x => (x.1.map (fun v => v.reply.ares.getLsbD 1), (x.2.T.get? 1).map (fun r => (r.flags.getLsbD 20, r.data.lastPenaltyboxTime))))

/-- Threshold 2, duration 50.  Two offences ban the rule; it is rejected until 1051, and let in at 1052. -/
example : upshot (worldF 0 {}) [tell 1000 (bit 4), tell 1001 (bit 4)] = some ([false, true], some (true, 1001)) ∧
    upshot (worldF 0 {}) [tell 1000 (bit 4), tell 1001 (bit 4), tell 1002 0, tell 1051 0] = some ([false, true, true, true], some (true, 1001)) ∧
    upshot (worldF 0 {}) [tell 1000 (bit 4), tell 1001 (bit 4), tell 1051 0, tell 1052 0] = some ([false, true, true, false], some (false, 1001)) := by decide

/-- A commendation in between postpones the ban; two offences during the ban begin a new one at its end. -/
example : upshot (worldF 0 {}) [tell 1000 (bit 4), tell 1001 (bit 5), tell 1002 (bit 4)] = some ([false, false, false], some (false, 0)) ∧
    upshot (worldF 0 {}) [tell 1000 (bit 4), tell 1001 (bit 4), tell 1010 (bit 4), tell 1020 (bit 4), tell 1060 0] =
      some ([false, true, true, true, true], some (true, 1060)) := by decide

theorem worldF_proper (d : RouteMeta) : Proper (worldF 0 d) where
  ids := by simp [worldF]
  inTable := by
    intro r hr
    have : r = ruleF 0 d := by simpa [worldF] using hr
    subst this
    show (bit 10 ||| bit 14 ||| 0#32 : Flags).getLsbD 14 = true
    decide

/-- The hypotheses of `C87_banned` are met by the history of two offences. -/
example : ∃ (h : List (Visit Unit)) (v : Visit Unit) (w' : World Unit), Runs (worldF 0 {}) (h ++ [v]) w' ∧ Fair envQuiet.g (h ++ [v]) ∧
    Proper (worldF 0 {}) ∧ Free (ruleF 0 {}) ∧ v.reply.about = 1 ∧ (∀ p, p <+: h → ¬ Guilty envQuiet.g (tally envQuiet.g ⟨0, 0⟩ (about 1 p))) ∧
    (∀ u ∈ about 1 (h ++ [v]), ¬ Refused envQuiet.g u) ∧ Guilty envQuiet.g (tally envQuiet.g ⟨0, 0⟩ (about 1 (h ++ [v]))) := by
  obtain ⟨w1, rep1, e1⟩ : ∃ w1 rep1, (tell 1000 (bit 4)).run (worldF 0 {}) = some (w1, rep1) := ⟨_, _, rfl⟩
  obtain ⟨w2, rep2, e2⟩ : ∃ w2 rep2, (tell 1001 (bit 4)).run w1 = some (w2, rep2) := by cases e1; exact ⟨_, _, rfl⟩
  have a1 : rep1.about = 1 := by cases e1; decide
  have a2 : rep2.about = 1 := by cases e1; cases e2; decide
  refine ⟨[{ ask := tell 1000 (bit 4), before := worldF 0 {}, reply := rep1 }], { ask := tell 1001 (bit 4), before := w1, reply := rep2 }, w2,
    ⟨rfl, w1, e1, rfl, w2, e2, rfl⟩, ?_, worldF_proper {}, show _ = _ by decide, a2, ?_, ?_, ?_⟩
  · intro v hv
    rcases List.mem_cons.1 hv with rfl | hv
    · exact ⟨envAt_observing _, rfl⟩
    · rw [List.mem_singleton.1 hv]; exact ⟨envAt_observing _, rfl⟩
  · intro p hp
    rcases p with _ | ⟨x, p⟩
    · decide
    · obtain ⟨rfl, hp2⟩ := List.cons_prefix_cons.1 hp
      cases List.prefix_nil.1 hp2
      rw [about_cons_pos a1]
      simp only [about, tally, List.filter_nil, List.foldl_cons, List.foldl_nil]
      show ¬ Guilty envQuiet.g (Tally.add envQuiet.g ⟨0, 0⟩ (starting envQuiet.g (.ok 1000) (bit 4)))
      decide
  · intro u hu ⟨r, hr, ho⟩
    have h2 : (charge envQuiet.g u).getLsbD 2 = false := by
      have hu' := (List.mem_filter.1 hu).1
      rcases List.mem_cons.1 hu' with rfl | hu'
      · show (starting envQuiet.g (.ok 1000) (bit 4)).getLsbD 2 = false; decide
      · rw [List.mem_singleton.1 hu']; show (starting envQuiet.g (.ok 1001) (bit 4)).getLsbD 2 = false; decide
    rw [ho.2.2.1] at h2; cases h2
  · show Guilty envQuiet.g (tally envQuiet.g ⟨0, 0⟩ (about 1 [_, _]))
    rw [about_cons_pos a1, about_cons_pos a2]
    simp only [about, tally, List.filter_nil, List.foldl_cons, List.foldl_nil]
    show Guilty envQuiet.g (Tally.add envQuiet.g (Tally.add envQuiet.g ⟨0, 0⟩ (starting envQuiet.g (.ok 1000) (bit 4))) (starting envQuiet.g (.ok 1001) (bit 4)))
    decide

/-- Surroundings where bans are long and idle rules expire early. -/
def envIdle (t : Int) : DispEnv Unit :=
  { envAt t with g := { penaltyboxDuration := 1000000000, derogatoryThreshold := 2, maxConnectionCount := 1, routeIdleTimeForPurge := 10 } }

/-- Rule 1 for 10.0.0.9, which expires when idle, and another rule. -/
def worldTwo : World Unit :=
  { T := { ents := [{ ruleF 0 { purgeAfter := 60001000 } with family := 2, proto := 6, remote := { port := 443, bits := 32, addr := [10, 0, 0, 9] }, loc := { port := 80, bits := 32, addr := [10, 0, 0, 1] } },
                    { ruleF 0 {} with id := 2, family := 2, proto := 6, remote := { port := 444, bits := 32, addr := [10, 0, 0, 9] }, loc := { port := 80, bits := 32, addr := [10, 0, 0, 1] } }],
           purgeList := [1], highestPriority := 0, defaultPolicy := bit 0 }, ext := () }

/-- C87, finding: the ban is forgotten when the rule expires.  A banned offender (ban of 1000 s) stays quiet for
a minute; a dispatch on other traffic then purges the idle rule, and the offender is let in. -/
theorem C87_ban_lost_by_expiry :
    (play worldTwo [.traffic (envIdle 1000) (fun _ => .error .itemNotFound) pktRemote pktLocal (bit 10) none (bit 4) 5,
        .traffic (envIdle 1001) (fun _ => .error .itemNotFound) pktRemote pktLocal (bit 10) none (bit 4) 5,
        .rule (envIdle 60002000) (fun _ => .error .itemNotFound) 2 none 0,
        .traffic (envIdle 60002001) (fun _ => .error .itemNotFound) pktRemote pktLocal (bit 10) none 0 5]).map
      (fun x => x.1.map (fun v => (v.reply.about, v.reply.ares.getLsbD 0, v.reply.ares.getLsbD 1))) =
      some [(1, true, false), (1, false, true), (2, true, false), (0, true, false)] := by decide

/-- The clock fails at the moment of the ban. -/
def tellBlind (t : Int) (a : Flags) : Ask Unit :=
  .rule { envAt t with boxClock := .error .sysOpFailed } (fun _ => .error .itemNotFound) 1 none a

/-- C87, finding: if the clock cannot be read at the moment of the ban, the ban has no time, and by
`C87_ban_holds` (`StillOn` with time 0) no duration ever ends it: here it holds a million seconds later. -/
theorem C87_blind_ban :
    upshot (worldF 0 {}) [tell 1000 (bit 4), tellBlind 1001 (bit 4)] = some ([false, true], some (true, 0)) ∧
    upshot (worldF 0 {}) [tell 1000 (bit 4), tellBlind 1001 (bit 4), tell 1000000000000 0] = some ([false, true, true], some (true, 0)) := by decide

end WS.Props
