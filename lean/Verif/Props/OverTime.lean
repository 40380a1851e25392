import Verif.Proof.OverTime2
import Verif.Props.Firewall
/-
C89: a loaded configuration over time.
-/
namespace WS.Props
open WS WS.Conf WS.Sax WS.LT WS.Spec WS.Spec.LT WS.Spec.Ld WS.Ld WS.Spec.Load WS.Spec.Fw WS.Fw WS.Spec.Off WS.Off WS.Spec.Ot WS.Ot

section
variable {σ : Type} {issued : Nat → Nat → Prop} {old : List Nat} {c : Cx} {p : Packet} {a : Flags} {g : EventConfig} {w w' : WS.World σ} {h : List (Visit σ)}

/-- C89: whatever is dispatched, in a context in order, by a program whose handlers only observe: no rule is new, none that never expires is gone, and
what is left is as it was but for bans and times of expiry. -/
theorem C89_rules_left (hG : Good issued old c) (hT : w.T = c.routes) (hF : Fair g h) (hr : Runs w h w') : Left (view c) (view (later c w'.T)) :=
  left_of hG hT hF hr

theorem runs_split {h1 h2 : List (Visit σ)} : ∀ {w w' : WS.World σ}, Runs w (h1 ++ h2) w' → ∃ w1, Runs w h1 w1 ∧ Runs w1 h2 w' := by
  induction h1 with
  | nil => intro w w' h; exact ⟨w, rfl, h⟩
  | cons v h1 ih =>
    rintro w w' ⟨hb, w1, hq, hr⟩
    obtain ⟨w2, h3, h4⟩ := ih hr
    exact ⟨w2, ⟨hb, w1, hq, h3⟩, h4⟩

/-- A call on traffic for which the lookup finds a rule is about that rule. -/
theorem about_found {E : DispEnv σ} (hE : Observing E) {resolve : List Byte → Except Err Event} {label : Option (List Byte)} {trig : Option Event} {fuel : Nat}
    (hk : Kempt w.T) (hp : Definite p) (htrig : triggerOf resolve p.flags label = .ok trig) {r : Route} {inx : Flags}
    (hl : lookup w.T (targetOf trig p) false (some a) fuel = some (.ok (r, inx))) {rep : Reply}
    (h : (Ask.traffic E resolve p.from p.to p.flags label a fuel).run w = some (w', rep)) : rep.about = r.id := by
  have hag := aged_run (q := .traffic E resolve p.from p.to p.flags label a fuel) hE hk h
  unfold Ask.run at h
  simp only at h
  cases hd : E.dispatch1 resolve w p.from p.to p.flags label a fuel with
  | none => rw [hd] at h; cases h
  | some d =>
    rw [hd] at h
    simp only [Option.map_some, Option.some.injEq, Prod.mk.injEq] at h
    obtain ⟨hw, hrep⟩ := h
    have hret := found_ok hp htrig hl hd
    have hab : rep.about = d.id := by rw [← hrep]; simp only; rw [hret]
    rw [hab]
    subst hw
    clear hrep hab hret
    unfold DispEnv.dispatch1 at hd
    simp only [htrig, init_packet hp, hl] at hd
    split at hd
    · cases hd
    · rename_i w2 a2 res hd0
      split at hd
      · cases hd
      · rename_i r2 hg2
        cases hd
        obtain ⟨hm, hid⟩ := get?_some hg2
        have h14 := hag.kempt.core.inTable r2 hm
        show (if r2.flags.hasAll RF.IN_TABLE then r2.id else 0) = r.id
        rw [hasAll_of_bit (m := RF.IN_TABLE) (k := 14) rfl (by decide), h14, if_pos rfl, hid]

/-- What the search answers when a call on traffic returned. -/
theorem searched {E : DispEnv σ} {resolve : List Byte → Except Err Event} {label : Option (List Byte)} {trig : Option Event} {fuel : Nat}
    (hp : Definite p) (htrig : triggerOf resolve p.flags label = .ok trig) {rep : Reply}
    (h : (Ask.traffic E resolve p.from p.to p.flags label a fuel).run w = some (w', rep)) : ∃ res, lookup w.T (targetOf trig p) false (some a) fuel = some res := by
  cases hl : lookup w.T (targetOf trig p) false (some a) fuel with
  | some res => exact ⟨res, rfl⟩
  | none =>
    unfold Ask.run DispEnv.dispatch1 at h
    simp only [htrig, init_packet hp, hl] at h
    cases h

/-- C89: after any such history, a call on a fully known packet is still decided by the rules: it is about one of those left that cover the packet and
come first, or there is none and the default policy answers.  Missing for the full property: as in `C86_decided_partial`. -/
theorem C89_decided_partial (hG : Good issued old c) (hT : w.T = c.routes) (hF : Fair g h) (hr : Runs w h w') (hfit : Fit (view c) p) (hp : Definite p)
    (hx : ¬ (a.getLsbD 4 = true ∧ a.getLsbD 5 = true)) {E : DispEnv σ} (hE : Observing E) {resolve : List Byte → Except Err Event} {label : Option (List Byte)}
    {trig : Option Event} {fuel : Nat} (htrig : triggerOf resolve p.flags label = .ok trig) (hpost : ∀ x, trig.or c.routes.defaultEvent = some x → x.postActions = [])
    {w2 : WS.World σ} {rep : Reply} (hq : (Ask.traffic E resolve p.from p.to p.flags label a fuel).run w' = some (w2, rep)) :
    (∃ r ∈ w'.T.ents, First (view (later c w'.T)) a p (seen r) ∧ rep.about = r.id) ∨
    Uncovered (view (later c w'.T)) a p ∧ rep.about = 0 ∧ Default (view c).policy a rep.ares := by
  have hag := aged_runs (by rw [hT]; exact kempt_of hG) hF hr
  rw [hT] at hag
  have hset := settings_runs (proper_of hG hT) hF hr
  rw [hT] at hset
  obtain ⟨res, hl⟩ := searched hp htrig hq
  rcases found_later hG hfit hp hx hag hl with ⟨r, inx, rfl, hm, hf⟩ | ⟨⟨e, rfl⟩, hu⟩
  · exact .inl ⟨r, hm, hf, about_found hE hag.kempt hp htrig hl hq⟩
  · refine .inr ⟨hu, ?_⟩
    unfold Ask.run at hq
    simp only at hq
    cases hd : E.dispatch1 resolve w' p.from p.to p.flags label a fuel with
    | none => rw [hd] at hq; cases hq
    | some d =>
      rw [hd] at hq
      simp only [Option.map_some, Option.some.injEq, Prod.mk.injEq] at hq
      obtain ⟨_, rfl⟩ := hq
      obtain ⟨h1, _, _, h4⟩ := C23_no_rule_default_policy htrig (init_packet hp trig) hl (by rw [hset.2.1]; exact hpost) hd
      refine ⟨by simp only; rw [h1], fun k => ?_⟩
      show d.ares.getLsbD k = _
      rw [h4 k, reported_silent hx, hset.1]; rfl

end

section
variable {σ : Type} {issued : Nat → Nat → Prop} {c : Cx} {p : Packet} {a : Flags} {w w' : WS.World σ} {r : Route} {n : Nat}

theorem asks_plain {q : Ask σ} (h : AsksAbout q p a) : Modest q ∧ q.says = a ∧ ¬ (a.getLsbD 4 = true ∧ a.getLsbD 5 = true) := by
  obtain ⟨⟨E, resolve, label, trig, fuel, rfl, _⟩, hk⟩ := h
  have hx : ¬ (a.getLsbD 4 = true ∧ a.getLsbD 5 = true) := by rw [hk 5 (by decide)]; rintro ⟨_, g⟩; cases g
  have hs : (Ask.traffic E resolve p.from p.to p.flags label a fuel).says = a := reported_silent hx
  exact ⟨by unfold Modest; rw [hs]; exact ⟨hk 2 (by decide), hk 5 (by decide), hk 8 (by decide), hk 10 (by decide)⟩, hs, hx⟩

/-- A call on a packet for which the rule alone answers is about the rule, after any history. -/
theorem asks_about (hG : Good issued [] c) (hfit : Fit (view c) p) (hp : Definite p) (hag : Aged c.routes w.T) (hr : r ∈ c.routes.ents) (h0 : r.data.purgeAfter = 0)
    (hs : Sole (view c) a p (seen r)) {q : Ask σ} (hE : Observing q.env) (hq : AsksAbout q p a) {rep : Reply} (h : q.run w = some (w', rep)) : rep.about = r.id := by
  have hx := (asks_plain hq).2.2
  obtain ⟨⟨E, resolve, label, trig, fuel, rfl, htrig⟩, hk⟩ := hq
  obtain ⟨res, hl⟩ := searched hp htrig h
  obtain ⟨r', inx, rfl, hm, e⟩ := sole_found hG hfit hp hx hag hr h0 hs hl
  rw [about_found hE hag.kempt hp htrig hl h, e.id]

theorem plain_all {X : Nat} {h : List (Visit σ)} {v : Visit σ} (hpl : ∀ u ∈ about X h, Modest u.ask) (hv : Modest v.ask) : ∀ u ∈ about X (h ++ [v]), Modest u.ask := by
  intro u hu
  rw [about_append] at hu
  rcases List.mem_append.1 hu with hu | hu
  · exact hpl u hu
  · have := (List.mem_filter.1 hu).1
    rw [List.mem_singleton.1 this]; exact hv

theorem clean_prefixes (hw : Watched c r n) {X : Nat} {h : List (Visit σ)} (hpl : ∀ u ∈ about X h, Modest u.ask) (hlt : strikes X h < n) :
    ∀ q, q <+: h → ¬ Guilty (confFor c r) (tally (confFor c r) ⟨0, 0⟩ (about X q)) := by
  intro q hq hgu
  have hle := strikes_prefix (X := X) hq
  have hfit := hw.fits
  rw [tally_modest hw.neutral X 0 (fun u hu => hpl u (by
    obtain ⟨t, rfl⟩ := hq; rw [about_append]; exact List.mem_append_left _ hu)) (by omega), guilty_modest, hw.threshold] at hgu
  omega

theorem watched_get (hG : Good issued [] c) (hT : w.T = c.routes) (hw : Watched c r n) : w.T.get? r.id = some r := by
  rw [hT]; exact get?_mem hG.table.core.ids hw.mem

/-- C89: counting.  A call about a packet for which the rule alone answers is about the rule.  As long as fewer than `n` offences have been reported about
the rule, with this call, the packet is rejected only by the default policy, and not if the rule is green-listed; the call with the `n`-th offence is
rejected and bans the rule, whatever other calls were made in between.  Missing: rules not of the ordinary kind (C86); commendations and connections
(C87 covers them for one rule); rules that expire. -/
theorem C89_strikes_partial (hG : Good issued [] c) (hT : w.T = c.routes) (hw : Watched c r n) (hfit : Fit (view c) p) (hp : Definite p)
    (hs : Sole (view c) a p (seen r)) {h : List (Visit σ)} {v : Visit σ} (hF : Fair c.global (h ++ [v])) (hrun : Runs w (h ++ [v]) w')
    (hpl : ∀ u ∈ about r.id h, Modest u.ask) (hask : AsksAbout v.ask p a) :
    v.reply.about = r.id ∧
    (strikes r.id (h ++ [v]) < n → (v.reply.ares.getLsbD 1 = true ↔ r.flags.getLsbD 21 = false ∧ c.routes.defaultPolicy.getLsbD 1 = true)) ∧
    (strikes r.id h < n → strikes r.id (h ++ [v]) = n → v.reply.ares.getLsbD 1 = true ∧
      ∃ r', w'.T.get? r.id = some r' ∧ recordOf r' = ⟨0, 0⟩ ∧ r'.flags.getLsbD 20 = true ∧ ∀ t, v.ask.env.boxClock = .ok t → Banned r' t) := by
  have hX : r.id ≠ 0 := hG.table.core.nonzero r hw.mem
  have hP := proper_of hG hT
  obtain ⟨w1, hr1, hb, hq⟩ := runs_append hrun
  have hF1 : Fair c.global h := fun u hu => hF u (List.mem_append_left _ hu)
  have hag := aged_runs (by rw [hT]; exact kempt_of hG) hF1 hr1
  rw [hT] at hag
  have hEv := (hF v (List.mem_append_right _ (List.mem_singleton.2 rfl))).1
  have hab := asks_about hG hfit hp hag hw.mem hw.lasting hs hEv hask hq
  obtain ⟨hvp, hsays, hx⟩ := asks_plain hask
  have hpl' := plain_all hpl hvp
  have hnr : ∀ u ∈ about r.id (h ++ [v]), ¬ Refused (confFor c r) u := fun u hu => not_refused hw.neutral (hpl' u hu)
  have hget := watched_get hG hT hw
  have hcfg : confFor c r = configOf c.global (r.event.or w.T.defaultEvent) := by unfold confFor; rw [hT]
  refine ⟨hab, fun hlt => ?_, fun hlt heq => ?_⟩
  · have := C87_clean_visit hX hP hF hrun hget hw.free hcfg hnr (by rw [hw.clean]; exact clean_prefixes hw hpl' hlt) hab
    rw [this, hT]
    have e := fun k hk => starting_neutral hw.neutral v.ask.env.clock v.ask.says k hk
    have e0 : (charge (confFor c r) v).getLsbD 0 = false := (e 0 (by decide)).trans (by rw [hsays]; exact hask.2 0 (by decide))
    have e1 : (charge (confFor c r) v).getLsbD 1 = false := (e 1 (by decide)).trans (by rw [hsays]; exact hask.2 1 (by decide))
    unfold PlainReject
    rw [e0, e1]
    simp
  · refine C87_banned hX hP hF hrun hget hw.free hcfg hnr (by rw [hw.clean]; exact clean_prefixes hw hpl hlt) hab ?_
    have hfits := hw.fits
    rw [hw.clean, tally_modest hw.neutral r.id 0 hpl' (by omega), guilty_modest, hw.threshold]
    have := hw.some_
    omega

/-- C89: the ban.  A rule banned since `t`, at whatever point of whatever history: as long as no call about it has come after the configured time (for
ever, if none is configured), the packet is rejected.  The first call after that time, about a packet for which the rule alone answers, is treated like
any other unless there have been `n` offences during the ban. -/
theorem C89_ban_partial (hG : Good issued [] c) (hT : w.T = c.routes) (hw : Watched c r n) (hfit : Fit (view c) p) (hp : Definite p)
    (hs : Sole (view c) a p (seen r)) {h0 h : List (Visit σ)} {v : Visit σ} (hF : Fair c.global (h0 ++ (h ++ [v]))) {w0 : WS.World σ} (hrun0 : Runs w h0 w0)
    {r0 : Route} {t : Int} (hg0 : w0.T.get? r.id = some r0) (hban : Banned r0 t) (hclean : recordOf r0 = ⟨0, 0⟩) (hrun : Runs w0 (h ++ [v]) w')
    (hpl : ∀ u ∈ about r.id h, Modest u.ask) (hask : AsksAbout v.ask p a)
    (hin : ∀ u ∈ about r.id h, 0 < (confFor c r).penaltyboxDuration → t ≠ 0 → clockNow u.ask.env.clock - t ≤ (confFor c r).penaltyboxDuration) :
    v.reply.about = r.id ∧
    ((0 < (confFor c r).penaltyboxDuration → t ≠ 0 → clockNow v.ask.env.clock - t ≤ (confFor c r).penaltyboxDuration) → v.reply.ares.getLsbD 1 = true) ∧
    (0 < (confFor c r).penaltyboxDuration → t ≠ 0 → (confFor c r).penaltyboxDuration < clockNow v.ask.env.clock - t → strikes r.id (h ++ [v]) < n →
      (v.reply.ares.getLsbD 1 = true ↔ r.flags.getLsbD 21 = false ∧ c.routes.defaultPolicy.getLsbD 1 = true) ∧
      ∃ r', w'.T.get? r.id = some r' ∧ Free r' ∧ recordOf r' = ⟨strikes r.id (h ++ [v]), 0⟩) := by
  have hX : r.id ≠ 0 := hG.table.core.nonzero r hw.mem
  have hF0 : Fair c.global h0 := fun u hu => hF u (List.mem_append_left _ hu)
  have hF1 : Fair c.global (h ++ [v]) := fun u hu => hF u (List.mem_append_right _ hu)
  have hP := proper_run (proper_of hG hT) hF0 hrun0
  have hag0 := aged_runs (by rw [hT]; exact kempt_of hG) hF0 hrun0
  have hset := settings_runs (proper_of hG hT) hF0 hrun0
  rw [hT] at hag0 hset
  have hsame : SameRule r r0 := by
    obtain ⟨hm, hid⟩ := get?_some hg0
    obtain ⟨r1, h1, e1⟩ := hag0.old r0 hm
    rw [id_inj hG.table.core.ids h1 hw.mem (e1.id.symm.trans hid)] at e1
    exact e1
  obtain ⟨w1, hr1, hb, hq⟩ := runs_append hrun
  have hag := hag0.trans (aged_runs hag0.kempt (fun u hu => hF1 u (List.mem_append_left _ hu)) hr1)
  have hab := asks_about hG hfit hp hag hw.mem hw.lasting hs (hF1 v (List.mem_append_right _ (List.mem_singleton.2 rfl))).1 hask hq
  obtain ⟨hvp, hsays, hx⟩ := asks_plain hask
  have hpl' := plain_all hpl hvp
  have hnr : ∀ u ∈ about r.id (h ++ [v]), ¬ Refused (confFor c r) u := fun u hu => not_refused hw.neutral (hpl' u hu)
  have hcfg : confFor c r = configOf c.global (r0.event.or w0.T.defaultEvent) := by unfold confFor; rw [hsame.event, hset.2.1]
  have hno5 : ∀ u : Visit σ, Modest u.ask → ¬ ((charge (confFor c r) u).getLsbD 5 = true ∧ (confFor c r).flags.getLsbD 1 = true) := by
    rintro u hu ⟨h5, _⟩
    have := (starting_neutral hw.neutral u.ask.env.clock u.ask.says 5 (by decide)).trans hu.2.1
    unfold charge at h5
    rw [this] at h5; cases h5
  have hon : ∀ u ∈ about r.id h, StillOn (confFor c r) t u := fun u hu =>
    ⟨fun ⟨g1, g2, g3⟩ => by have := hin u hu g1 g2; omega, hno5 u (hpl u hu)⟩
  refine ⟨hab, fun hv => ?_, fun hd ht hlate hlt => ?_⟩
  · refine (C87_ban_holds hX hP hF1 hrun hg0 hban hcfg (fun u hu => ?_)).1 v ?_
    · rw [about_append] at hu
      rcases List.mem_append.1 hu with hu | hu
      · exact hon u hu
      · have := (List.mem_filter.1 hu).1
        rw [List.mem_singleton.1 this]
        exact ⟨fun ⟨g1, g2, g3⟩ => by have := hv g1 g2; omega, hno5 v hvp⟩
    · exact List.mem_filter.2 ⟨List.mem_append_right _ (List.mem_singleton.2 rfl), by simpa using hab⟩
  · have hfits := hw.fits
    have hta : tally (confFor c r) (recordOf r0) (about r.id (h ++ [v])) = ⟨strikes r.id (h ++ [v]), 0⟩ := by
      rw [hclean, tally_modest hw.neutral r.id 0 hpl' (by omega)]; congr 1; omega
    have := (C87_ban_ends hX hP hF1 hrun hg0 hban hcfg hnr hon hab (fun hso => hso.1 ⟨hd, ht, hlate⟩)).1 (by
      rw [hta, guilty_modest, hw.threshold]; omega)
    rw [hta] at this
    refine ⟨this.1.trans ?_, this.2⟩
    have e := fun k hk => starting_neutral hw.neutral v.ask.env.clock v.ask.says k hk
    have e0 : (charge (confFor c r) v).getLsbD 0 = false := (e 0 (by decide)).trans (by rw [hsays]; exact hask.2 0 (by decide))
    have e1 : (charge (confFor c r) v).getLsbD 1 = false := (e 1 (by decide)).trans (by rw [hsays]; exact hask.2 1 (by decide))
    unfold PlainReject
    rw [e0, e1, hset.1, hsame.flags 21 (by decide) (by decide)]
    simp

end

section
variable {H : Host} {issued : Nat → Nat → Prop} {tail : Tail} {f : LoadFlags} {json : Option Config} {w : LT.World} {chunks : List (List Byte)}

/-- What a context promises from now on, whatever is dispatched by programs whose handlers only observe: the rules stay (`Left`); and if a rule that does
not expire and is not banned is to be banned after `n` offences, by a configuration that decides nothing by itself, then a call about a fully known packet
for which this rule alone answers is about the rule; it is rejected only by the default policy until there have been `n` offences; the `n`-th is rejected
and bans the rule. -/
def Steady (c : Cx) : Prop :=
  ∀ (σ : Type) (wd wd' : WS.World σ) (h : List (Visit σ)) (v : Visit σ), wd.T = c.routes → Fair c.global (h ++ [v]) → Runs wd (h ++ [v]) wd' →
    Left (view c) (view (later c wd'.T)) ∧
    ∀ (r : Route) (n : Nat) (p : Packet) (a : Flags), r ∈ c.routes.ents → r.data.purgeAfter = 0 → Free r → Neutral (confFor c r) →
      (confFor c r).derogatoryThreshold = n → 0 < n → n ≤ 65535 → Definite p → (∀ s ∈ (view c).rules, Ordinary s ∧ Fitting s p) → Sole (view c) a p (seen r) →
      (∀ u ∈ about r.id h, Modest u.ask) → AsksAbout v.ask p a →
      v.reply.about = r.id ∧
      (strikes r.id (h ++ [v]) < n → (v.reply.ares.getLsbD 1 = true ↔ r.flags.getLsbD 21 = false ∧ c.routes.defaultPolicy.getLsbD 1 = true)) ∧
      (strikes r.id h < n → strikes r.id (h ++ [v]) = n → v.reply.ares.getLsbD 1 = true ∧
        ∃ r', wd'.T.get? r.id = some r' ∧ recordOf r' = ⟨0, 0⟩ ∧ r'.flags.getLsbD 20 = true ∧ ∀ t, v.ask.env.boxClock = .ok t → Banned r' t)

theorem watched_of {c : Cx} (hU : AllFresh c.routes) {r : Route} {n : Nat} (hr : r ∈ c.routes.ents) (h0 : r.data.purgeAfter = 0) (hf : Free r)
    (hN : Neutral (confFor c r)) (hn : (confFor c r).derogatoryThreshold = n) (h1 : 0 < n) (h2 : n ≤ 65535) : Watched c r n :=
  ⟨hr, h0, hf, by unfold recordOf; rw [(hU r hr).2.1, (hU r hr).2.2.2], hN, hn, h1, h2⟩

theorem fit_of {c : Cx} {p : Packet} (hN : ∀ s ∈ (view c).rules, Neat s) (hord : ∀ s ∈ (view c).rules, Ordinary s ∧ Fitting s p) : Fit (view c) p :=
  ⟨fun s hs => (hord s hs).1, fun s hs => (hord s hs).2, fun s hs => ⟨(hN s hs).1 (hord s hs).1.remote, (hN s hs).2 (hord s hs).1.loc⟩⟩

theorem steady_of {c : Cx} (hG : Good issued [] c) (hN : ∀ s ∈ (view c).rules, Neat s) (hU : AllFresh c.routes) : Steady c := by
  intro σ wd wd' h v hT hF hrun
  refine ⟨C89_rules_left hG hT hF hrun, ?_⟩
  intro r n p a hr h0 hf hNe hn h1 h2 hp hord hs hpl hask
  exact C89_strikes_partial hG hT (watched_of hU hr h0 hf hNe hn h1 h2) (fit_of hN hord) hp hs hF hrun hpl hask

/-- C89: a document that has been loaded in place keeps its promises (`Steady`), and the rules they are about are those of the document, as in
`C86_document_partial`. -/
theorem C89_document_partial (hM : Mild H.acts) (hS : Still H.acts) (hI : Issues H issued) (hG : Good issued [] w.cx)
    (hR : Readable tail json chunks) (hd : f.dryRun = false) (hc : f.thenCommit = false) (hn : f.noRules = false) (hf : f.noFlush = false)
    (h : (use H tail f json w chunks).res = none) :
    let c := (use H tail f json w chunks).world.cx
    (∃ j calls, TextOf (json.getD defaultJson) chunks.flatten j ∧ Pairs (AsksFor H.env) (ruleObjects j) (calls.filter isRuleCall) ∧
      Done H.store calls (startInPlace f (view w.cx)) (view c) ∧
      ((view w.cx).limit = 0 → (∀ n, Call.maxPurgeableRoutes n ∉ calls) → RulesOf H calls (startInPlace f (view w.cx)) (view c))) ∧
    Steady c := by
  intro c
  obtain ⟨h1, h2, h3, h4⟩ := document_facts hM hS hI hG hR hd hc hn hf h
  exact ⟨h1, steady_of h2 h3 h4⟩

/-- C89: the same for LOAD_THEN_COMMIT. -/
theorem C89_commit_partial (hM : Mild H.acts) (hS : Still H.acts) (hI : Issues H issued) (hG : Good issued [] w.cx)
    (hR : Readable tail json chunks) (hd : f.dryRun = false) (hc : f.thenCommit = true) (hn : f.noRules = false) (hf : f.noFlush = false)
    (h : (use H tail f json w chunks).res = none) :
    let c := (use H tail f json w chunks).world.cx
    let start := startOnClone f (ofCfg (cfgGet w.cx.config0)) (view w.cx)
    (∃ j calls v1, TextOf (json.getD defaultJson) chunks.flatten j ∧ Pairs (AsksFor H.env) (ruleObjects j) (calls.filter isRuleCall) ∧
      Done H.store calls start v1 ∧ view c = enabledView v1 ∧
      (start.limit = 0 → (∀ n, Call.maxPurgeableRoutes n ∉ calls) → RulesOf H calls start (view c))) ∧
    Steady c := by
  intro c start
  obtain ⟨h1, h2, h3, h4⟩ := commit_facts hM hS hI hG hR hd hc hn hf h
  exact ⟨h1, steady_of h2 h3 h4⟩

end

/-! ### Example -/

/-- Default policy ACCEPT.  Three offences against the rule for inbound TCP to port 22 ban it for one hour; two connections at a time. -/
def otText : List Byte := ascii
  "{\"wolfsentry-config-version\":1,\"default-policies\":{\"default-policy\":\"accept\"},\"events\":[{\"label\":\"ssh\",\"priority\":1,\"config\":{\"max-connection-count\":2,\"derog-thresh-for-penalty-boxing\":3,\"penalty-box-duration\":\"1h\"}}],\"routes\":[{\"parent-event\":\"ssh\",\"family\":2,\"direction-in\":true,\"protocol\":6,\"local\":{\"port\":22}}]}"

def otConf : EventConfig := { maxConnectionCount := 2, derogatoryThreshold := 3, penaltyboxDuration := 3600000000 }
def otEvent : Event := { label := ascii "ssh", priority := 1, config := some otConf }
def otRule : Route := { id := 12, event := some otEvent, flags := 0x000046f2#32, family := 2, proto := 6, remote := {}, loc := { port := 22 }, data := { insertTime := 1000 } }
def otTable : RouteTable := { ents := [otRule], defaultPolicy := bit 0, highestPriority := 1 }

theorem otFacts : (fun o : Outcome => (o.res, o.world.cx.routes, o.world.cx.config.config.resAdd, o.world.cx.config.config.resClear,
    o.world.cx.events)) (use rsHost plainTail {} none rsFresh [otText]) = (none, otTable, 0, 0, [otEvent]) := by decide +kernel

/-- The rule alone answers for connections to port 22. -/
theorem ot_alone {o : Outcome} (ho : o = use rsHost plainTail {} none rsFresh [otText]) (src : List Byte) (a : Flags) :
    otRule ∈ o.world.cx.routes.ents ∧ Neutral (confFor o.world.cx otRule) ∧ (∀ s ∈ (view o.world.cx).rules, Ordinary s ∧ Fitting s (fwPacket src 22)) ∧
    Sole (view o.world.cx) a (fwPacket src 22) (seen otRule) := by
  have hfacts := otFacts
  rw [← ho] at hfacts
  obtain ⟨f1, f2, f3, f4, f5⟩ := fwSplit hfacts
  have hrules : (view o.world.cx).rules = [seen otRule] := by rw [view_rules, f2]; rfl
  have hcf : confFor o.world.cx otRule = otConf := rfl
  have hzero : ∀ k, (0 : Flags).getLsbD k = false := fun k => BitVec.getLsbD_zero
  refine ⟨by rw [f2]; exact List.mem_singleton.2 rfl, by rw [hcf]; exact fun k _ => ⟨hzero k, hzero k⟩, ?_, ?_⟩
  · rw [hrules]; intro s hs; rw [List.mem_singleton.1 hs]
    exact ⟨⟨by decide, by decide, by decide, by decide⟩, fun _ => ⟨show 0 ≤ 32 by decide, show 0 ≤ 32 by decide⟩⟩
  · refine ⟨by rw [hrules]; exact List.mem_singleton.2 rfl, ?_, ?_, ?_, ?_⟩
    · exact ⟨.inl ⟨by decide, show (bit 10 : Flags).getLsbD 10 = true by decide⟩, .inr rfl, .inl (by decide), .inr rfl, .inr rfl, .inl (by decide), .inl (by decide),
        .inl (by decide), .inl (by decide)⟩
    · intro l e g hl he hg
      have hm : e ∈ o.world.cx.events := List.mem_of_find?_eq_some he
      rw [f5, List.mem_singleton] at hm
      subst hm
      cases hg
      refine fun k _ => ⟨fun hk => ?_, fun hk => ?_⟩
      · rw [show otConf.filterBitsSet = 0 from rfl, hzero k] at hk; cases hk
      · rw [show otConf.filterBitsUnset = 0 from rfl, hzero k] at hk; cases hk
    · intro hex
      have := hex.remoteBits
      exact absurd this (by show ¬ (0 = 32); decide)
    · rw [hrules]; intro x hx hne; exact absurd (List.mem_singleton.1 hx) hne

/-- In the loaded context, whatever else happens, from whatever sources: connections to port 22 are accepted until the third offence. -/
theorem ot_applies {o : Outcome} (ho : o = use rsHost plainTail {} none rsFresh [otText]) {σ : Type} {wd wd' : WS.World σ} {h : List (Visit σ)} {v : Visit σ}
    (hT : wd.T = o.world.cx.routes) (hF : Fair o.world.cx.global (h ++ [v])) (hrun : Runs wd (h ++ [v]) wd') (hpl : ∀ u ∈ about 12 h, Modest u.ask)
    {src : List Byte} (hsrc : src.length = 4) {a : Flags} (hask : AsksAbout v.ask (fwPacket src 22) a) :
    v.reply.about = 12 ∧ (strikes 12 (h ++ [v]) < 3 → v.reply.ares.getLsbD 1 = false) ∧
    (strikes 12 h < 3 → strikes 12 (h ++ [v]) = 3 → v.reply.ares.getLsbD 1 = true ∧ ∃ r', wd'.T.get? 12 = some r' ∧ r'.flags.getLsbD 20 = true) := by
  have hfacts := otFacts
  rw [← ho] at hfacts
  obtain ⟨f1, f2, f3, f4, f5⟩ := fwSplit hfacts
  have hload := f1
  rw [ho] at hload
  have hdoc := (C89_document_partial rsHost_mild rsHost_still rsHost_issues (C84_lived rsHost_mild rsHost_issues rsFresh_lived) (tail := plainTail) (f := {}) (json := none)
    (w := rsFresh) (chunks := [otText]) (closed_readable (by decide +kernel)) rfl rfl rfl rfl hload).2
  rw [← ho] at hdoc
  obtain ⟨q1, q2, q3, q4⟩ := ot_alone ho src a
  obtain ⟨c1, c2, c3⟩ := (hdoc σ wd wd' h v hT hF hrun).2 otRule 3 (fwPacket src 22) a q1 rfl rfl q2 rfl (by decide) (by decide) (fwPacket_definite src 22 hsrc) q3 q4
    hpl hask
  refine ⟨c1, fun hlt => ?_, fun g1 g2 => ?_⟩
  · have := c2 hlt
    rw [f2] at this
    cases hx : v.reply.ares.getLsbD 1 with
    | false => rfl
    | true => exact absurd (this.1 hx).2 (by decide)
  · obtain ⟨d1, r', d2, _, d3, _⟩ := c3 g1 g2
    exact ⟨d1, r', d2, d3⟩

/-- A call at a time about a TCP packet to port 22, reporting `a`. -/
def otAsk (t : Int) (src : List Byte) (a : Flags) : Ask Unit :=
  .traffic { fwEnv {} with clock := .ok t, boxClock := .ok t } (fun _ => .error .itemNotFound) (fwPacket src 22).from (fwPacket src 22).to (bit 10) none a 9

/-- Such calls meet the hypotheses. -/
theorem otAsk_asks (t : Int) (src : List Byte) : AsksAbout (otAsk t src (bit 4)) (fwPacket src 22) (bit 4) ∧ Modest (otAsk t src (bit 4)) ∧ Observing (otAsk t src (bit 4)).env := by
  have h : AsksAbout (otAsk t src (bit 4)) (fwPacket src 22) (bit 4) :=
    ⟨⟨_, _, _, none, _, rfl, rfl⟩, by rintro k (rfl | rfl | rfl | rfl | rfl | rfl) <;> decide⟩
  exact ⟨h, (asks_plain h).1, fun _ _ _ _ _ => ⟨rfl, rfl, rfl, fun _ _ => rfl⟩⟩

/-- What came of some calls in the loaded context: rules they were about, answers rejected. -/
def otPlay (qs : List (Ask Unit)) : Option (List (Nat × Bool)) :=
  (play { T := otTable, ext := () } qs).map (fun x => x.1.map (fun v => (v.reply.about, v.reply.ares.getLsbD 1)))

/-- Offences from three sources: the third is rejected; the ban holds for an hour (times in µs), then connections are accepted again. -/
example : otPlay [otAsk 1000 [10, 0, 0, 1] (bit 4), otAsk 2000 [10, 0, 0, 2] (bit 4), otAsk 2500 [10, 0, 0, 9] 0, otAsk 3000 [10, 0, 0, 3] (bit 4),
      otAsk 4000 [10, 0, 0, 9] 0, otAsk 3600003000 [10, 0, 0, 9] 0, otAsk 3600003001 [10, 0, 0, 9] 0] =
    some [(12, false), (12, false), (12, false), (12, true), (12, true), (12, true), (12, false)] := by decide +kernel

end WS.Props
