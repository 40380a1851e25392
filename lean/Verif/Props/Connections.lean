import Verif.Proof.Connections
import Verif.Props.OverTime
/-
C90: the limit on connections, over time.
-/
namespace WS.Props
open WS WS.Conf WS.Sax WS.LT WS.Spec WS.Spec.LT WS.Spec.Ld WS.Ld WS.Spec.Load WS.Spec.Fw WS.Fw WS.Spec.Off WS.Off WS.Spec.Ot WS.Ot WS.Spec.Con WS.Con

section
variable {σ : Type} {g c : EventConfig} {X : Nat} {w w' : WS.World σ} {r : Route} {h : List (Visit σ)}

/-- C90: over any history a rule that counts connections has as many as the ledger says, unless it is gone. -/
theorem C90_ledger (hX : X ≠ 0) (hm : c.maxConnectionCount ≤ 65535) (hP : Proper w) (hF : Fair g h) (hrun : Runs w h w') (hr : w.T.get? X = some r)
    (hcn : Counts r) (hc : c = configOf g (r.event.or w.T.defaultEvent)) :
    w'.T.get? X = none ∨ ∃ r', w'.T.get? X = some r' ∧ r'.data.connectionCount = ledger c r.data.connectionCount (about X h) :=
  (con_run hX hm hP hF hrun hr hcn hc).2.imp id fun ⟨r', a, b, _⟩ => ⟨r', a, b⟩

/-- C90: never more than the limit. -/
theorem C90_limit (hX : X ≠ 0) (hm : c.maxConnectionCount ≤ 65535) (hP : Proper w) (hF : Fair g h) (hrun : Runs w h w') (hr : w.T.get? X = some r)
    (hcn : Counts r) (hc : c = configOf g (r.event.or w.T.defaultEvent)) (hle : r.data.connectionCount ≤ c.maxConnectionCount) {r' : Route}
    (hr' : w'.T.get? X = some r') : r'.data.connectionCount ≤ c.maxConnectionCount := by
  rcases C90_ledger hX hm hP hF hrun hr hcn hc with e | ⟨r1, e, h1⟩
  · rw [e] at hr'; cases hr'
  · rw [e] at hr'; cases hr'
    rw [h1]; exact ledger_le hle

/-- C90: a connection over the limit is rejected; the count, the ban and its time stay. -/
theorem C90_over_limit_rejected (hX : X ≠ 0) (hm : c.maxConnectionCount ≤ 65535) (hP : Proper w) {v : Visit σ} (hF : Fair g (h ++ [v])) (hrun : Runs w (h ++ [v]) w')
    (hr : w.T.get? X = some r) (hcn : Counts r) (hc : c = configOf g (r.event.or w.T.defaultEvent)) (hv : v.reply.about = X) (ho : Opens c v)
    (hfull : c.maxConnectionCount ≤ ledger c r.data.connectionCount (about X h)) :
    v.reply.ares.getLsbD 1 = true ∧ ∃ r0 r', v.before.T.get? X = some r0 ∧ w'.T.get? X = some r' ∧ r'.data.connectionCount = r0.data.connectionCount ∧
      r'.flags.getLsbD 20 = r0.flags.getLsbD 20 ∧ r'.data.lastPenaltyboxTime = r0.data.lastPenaltyboxTime := by
  obtain ⟨w1, h1, h2, h3⟩ := runs_append hrun
  have hFh : Fair g h := fun u hu => hF u (List.mem_append_left _ hu)
  obtain ⟨hP1, hcase⟩ := con_run hX hm hP hFh h1 hr hcn hc
  have hEv := hF v (List.mem_append_right _ (List.mem_singleton.2 rfl))
  obtain ⟨r0, r1, b1, b2, b3, _, j⟩ := visit_judged hX hP1 hEv.1 hEv.2 h2 h3 hv (fun r0 hg0 => by
    rcases hcase with e | ⟨r2, e, _, k⟩
    · rw [e] at hg0; cases hg0
    · rw [e] at hg0; cases hg0; exact k.cfg hc)
  rcases hcase with e | ⟨r2, e, hl, k⟩
  · rw [e] at b2; cases b2
  rw [e] at b2; cases b2
  have hov : OverLimit c r0 (charge c v) := ⟨ho.1, (k.flags 23 (by decide) (by decide)).trans hcn, ho.2, by rw [hl]; exact hfull⟩
  obtain ⟨j1, j2, j3⟩ := j.refused hov
  refine ⟨j3, r0, r1, b1, b3, ?_, j1, j2⟩
  rw [j.connections, if_pos hov]

/-- C90: whether a call about a rule that is not banned, and about which no offence has been reported, is rejected: for the limit, or for what decides
calls of any kind (the caller, the configuration, the default policy). -/
theorem C90_rejected_iff (hX : X ≠ 0) (hm : c.maxConnectionCount ≤ 65535) (hP : Proper w) {v : Visit σ} (hF : Fair g (h ++ [v])) (hrun : Runs w (h ++ [v]) w')
    (hr : w.T.get? X = some r) (hcn : Counts r) (hfree : Free r) (hrec : recordOf r = ⟨0, 0⟩) (hc : c = configOf g (r.event.or w.T.defaultEvent))
    (hpl : ∀ u ∈ about X (h ++ [v]), (charge c u).getLsbD 4 = false ∧ (charge c u).getLsbD 5 = false) (hv : v.reply.about = X) :
    v.reply.ares.getLsbD 1 = true ↔
      (Opens c v ∧ c.maxConnectionCount ≤ ledger c r.data.connectionCount (about X h)) ∨ PlainReject w.T.defaultPolicy r (charge c v) := by
  obtain ⟨w1, h1, h2, h3⟩ := runs_append hrun
  have hFh : Fair g h := fun u hu => hF u (List.mem_append_left _ hu)
  obtain ⟨hP1, hcase⟩ := con_run hX hm hP hFh h1 hr hcn hc
  have hpeace := peace_run hX hP hFh h1 hr hfree hrec hc (fun u hu => hpl u (by rw [about_append]; exact List.mem_append_left _ hu))
  have hEv := hF v (List.mem_append_right _ (List.mem_singleton.2 rfl))
  obtain ⟨r0, r1, b1, b2, b3, _, j⟩ := visit_judged hX hP1 hEv.1 hEv.2 h2 h3 hv (fun r0 hg0 => by
    rcases hcase with e | ⟨r2, e, _, k⟩
    · rw [e] at hg0; cases hg0
    · rw [e] at hg0; cases hg0; exact k.cfg hc)
  rcases hcase with e | ⟨r2, e, hl, k⟩
  · rw [e] at b2; cases b2
  rw [e] at b2; cases b2
  rcases hpeace with e' | ⟨r3, e', p1, p2, _⟩
  · rw [e] at e'; cases e'
  rw [e] at e'; cases e'
  have h23 : r0.flags.getLsbD 23 = false := (k.flags 23 (by decide) (by decide)).trans hcn
  have hiff : OverLimit c r0 (charge c v) ↔ Opens c v ∧ c.maxConnectionCount ≤ ledger c r.data.connectionCount (about X h) := by
    unfold OverLimit Opens
    rw [hl]
    exact ⟨fun ⟨g1, _, g3, g4⟩ => ⟨⟨g1, g3⟩, g4⟩, fun ⟨⟨g1, g3⟩, g4⟩ => ⟨g1, h23, g3, g4⟩⟩
  rw [← hiff]
  obtain ⟨h4, h5⟩ := hpl v (by
    rw [about_append]; exact List.mem_append_right _ (by rw [about_cons_pos hv]; exact List.mem_cons_self ..))
  by_cases ho : OverLimit c r0 (charge c v)
  · exact ⟨fun _ => .inl ho, fun _ => (j.refused ho).2.2⟩
  · have hnb : ¬ BoxHeld c (clockNow v.ask.env.clock) r0 (charge c v) := fun hb => by have := hb.1; rw [p1] at this; cases this
    obtain ⟨_, _, _, j4⟩ := j.clean ho hnb (by rw [p2, add_clean h4 h5]; exact not_guilty)
    rw [j4]
    unfold PlainReject
    rw [k.settings.1, k.flags 21 (by decide) (by decide)]
    exact ⟨fun hx => .inr hx, fun hx => hx.resolve_left ho⟩

/-- The ledger of callers that keep to the limit: what was there, plus connections asked for, less connections ended. -/
theorem ledger_balance (n : Nat) : ∀ (k : Nat) (h : List (Visit σ)), h.length = k → (∀ p, p <+: h → closed c p ≤ n + opened c p ∧ n + opened c p ≤ closed c p + c.maxConnectionCount) →
    ledger c n h + closed c h = n + opened c h := by
  intro k
  induction k with
  | zero =>
    intro h hk _
    have : h = [] := List.length_eq_zero_iff.1 hk
    subst this; rfl
  | succ k ih =>
    intro h hk hp
    rcases List.eq_nil_or_concat h with rfl | ⟨h0, v, rfl⟩
    · cases hk
    have i := ih h0 (by simpa using hk) (fun p hpp => hp p (hpp.trans ⟨[v], by simp⟩))
    have hall := hp (h0.concat v) ⟨[], by simp⟩
    rw [List.concat_eq_append] at hall ⊢
    rw [ledger_append]
    unfold opened closed at *
    simp only [List.filter_append, List.length_append] at *
    have e : ledger c (ledger c n h0) [v] = enter c (ledger c n h0) v := rfl
    rw [e]
    unfold enter
    by_cases ho : Opens c v
    · have hnc : ¬ Closes c v := fun hc => by have := hc.2.1; rw [ho.2] at this; cases this
      simp only [ho, hnc, decide_true, decide_false, List.filter_cons, List.filter_nil, if_true, Bool.false_eq_true, if_false, List.length_cons, List.length_nil] at *
      split <;> omega
    · by_cases hcl : Closes c v
      · simp only [ho, hcl, decide_true, decide_false, List.filter_cons, List.filter_nil, if_true, Bool.false_eq_true, if_false, List.length_cons, List.length_nil] at *
        omega
      · simp only [ho, hcl, decide_false, List.filter_cons, List.filter_nil, Bool.false_eq_true, if_false, List.length_nil] at *
        omega

/-- C90: for callers that keep to the limit there is always room for a connection they ask for. -/
theorem C90_room {n : Nat} {q : List (Visit σ)} {v : Visit σ} (hk : ∀ p, p <+: q ++ [v] → closed c p ≤ n + opened c p ∧ n + opened c p ≤ closed c p + c.maxConnectionCount)
    (ho : Opens c v) : ledger c n q < c.maxConnectionCount := by
  have hb := ledger_balance n _ q rfl (fun p hp => hk p (hp.trans ⟨[v], rfl⟩))
  have hv := (hk (q ++ [v]) ⟨[], by simp⟩).2
  have hnc : ¬ Closes c v := fun hc => by have := hc.2.1; rw [ho.2] at this; cases this
  unfold opened closed at *
  simp only [List.filter_append, List.length_append, ho, hnc, decide_true, decide_false, List.filter_cons, List.filter_nil, if_true, Bool.false_eq_true, if_false,
    List.length_cons, List.length_nil] at hv
  omega

/-- C90: callers that keep to the limit, and end no connection they have not opened, are never refused for the limit, and the count is what is open. -/
theorem C90_within_limit (hX : X ≠ 0) (hm : c.maxConnectionCount ≤ 65535) (hP : Proper w) (hF : Fair g h) (hrun : Runs w h w') (hr : w.T.get? X = some r)
    (hcn : Counts r) (hc : c = configOf g (r.event.or w.T.defaultEvent))
    (hk : ∀ p, p <+: about X h → closed c p ≤ r.data.connectionCount + opened c p ∧ r.data.connectionCount + opened c p ≤ closed c p + c.maxConnectionCount) :
    w'.T.get? X = none ∨ ∃ r', w'.T.get? X = some r' ∧ r'.data.connectionCount + closed c (about X h) = r.data.connectionCount + opened c (about X h) :=
  (C90_ledger hX hm hP hF hrun hr hcn hc).imp id fun ⟨r', a, b⟩ => ⟨r', a, by rw [b]; exact ledger_balance _ _ _ rfl hk⟩

end

section
variable {σ : Type} {issued : Nat → Nat → Prop} {c : Cx} {p : Packet} {a : Flags} {w w' : WS.World σ} {r : Route} {n : Nat}

/-- A call on a packet for which the rule alone answers is about the rule, after any history. -/
theorem of_about (hG : Good issued [] c) (hfit : Fit (view c) p) (hp : Definite p) (hag : Aged c.routes w.T) (hr : r ∈ c.routes.ents) (h0 : r.data.purgeAfter = 0)
    (hx : ¬ (a.getLsbD 4 = true ∧ a.getLsbD 5 = true)) (hs : Sole (view c) a p (seen r)) {q : Ask σ} (hE : Observing q.env) (hq : Of q p a) {rep : Reply}
    (h : q.run w = some (w', rep)) : rep.about = r.id := by
  obtain ⟨E, resolve, label, trig, fuel, rfl, htrig⟩ := hq
  obtain ⟨res, hl⟩ := searched hp htrig h
  obtain ⟨r', inx, rfl, hm, e⟩ := sole_found hG hfit hp hx hag hr h0 hs hl
  rw [about_found hE hag.kempt hp htrig hl h, e.id]

/-- What a peaceful caller says is what is charged. -/
theorem peaceful_charge {g : EventConfig} (hN : Neutral g) {v : Visit σ} (hv : Peaceful v.ask) :
    Charged (charge g v) ∧ (charge g v).getLsbD 4 = false ∧ (charge g v).getLsbD 5 = false ∧ (charge g v).getLsbD 0 = false ∧ (charge g v).getLsbD 1 = false ∧
    (charge g v).getLsbD 2 = v.ask.says.getLsbD 2 ∧ (charge g v).getLsbD 3 = v.ask.says.getLsbD 3 := by
  have e := fun k hk => starting_neutral hN v.ask.env.clock v.ask.says k hk
  exact ⟨⟨(e 8 (by decide)).trans (hv 8 (by decide)), (e 10 (by decide)).trans (hv 10 (by decide))⟩, (e 4 (by decide)).trans (hv 4 (by decide)),
    (e 5 (by decide)).trans (hv 5 (by decide)), (e 0 (by decide)).trans (hv 0 (by decide)), (e 1 (by decide)).trans (hv 1 (by decide)), e 2 (by decide), e 3 (by decide)⟩

theorem held_ledger {g : EventConfig} (hN : Neutral g) (hn : g.maxConnectionCount = n) {X : Nat} {h : List (Visit σ)} (hpl : ∀ u ∈ about X h, Peaceful u.ask) :
    ledger g 0 (about X h) = held n X h := by
  unfold ledger held
  generalize about X h = l at hpl
  generalize (0 : Nat) = m
  induction l generalizing m with
  | nil => rfl
  | cons v l ih =>
    rw [List.foldl_cons, List.foldl_cons]
    have hent : enter g m v = (if v.ask.says.getLsbD 2 = true then (if m < n then m + 1 else m) else if v.ask.says.getLsbD 3 = true then m - 1 else m) := by
      obtain ⟨p1, _, _, _, _, p2, p3⟩ := peaceful_charge hN (hpl v (List.mem_cons_self ..))
      have hop : Opens g v ↔ v.ask.says.getLsbD 2 = true := by unfold Opens; rw [p2]; exact ⟨fun hh => hh.2, fun hh => ⟨p1, hh⟩⟩
      have hcl : Closes g v ↔ v.ask.says.getLsbD 2 = false ∧ v.ask.says.getLsbD 3 = true := by
        unfold Closes; rw [p2, p3]; exact ⟨fun hh => hh.2, fun hh => ⟨p1, hh⟩⟩
      unfold enter
      rw [hn]
      by_cases h2 : v.ask.says.getLsbD 2 = true
      · rw [if_pos (hop.2 h2), if_pos h2]
      · have h2' : v.ask.says.getLsbD 2 = false := by simpa using h2
        rw [if_neg (fun hh => h2 (hop.1 hh)), if_neg h2]
        by_cases h3 : v.ask.says.getLsbD 3 = true
        · rw [if_pos (hcl.2 ⟨h2', h3⟩), if_pos h3]
        · rw [if_neg (fun hh => h3 (hcl.1 hh).2), if_neg h3]
    rw [hent]
    exact ih (fun u hu => hpl u (List.mem_cons_of_mem _ hu)) _

/-- C90: counting in a loaded context.  Callers that report connections only: a call about a packet for which the rule alone answers is about the rule; it
is rejected if it asks for a connection when there are `n`, or by the default policy if the rule is not green-listed, and never else; the rule has as many
connections as are held.  Missing: rules not of the ordinary kind (C86), rules that expire, reports of offences (C87, C89). -/
theorem C90_calls_partial (hG : Good issued [] c) (hT : w.T = c.routes) (hr : r ∈ c.routes.ents) (h0 : r.data.purgeAfter = 0) (hfree : Free r) (hcn : Counts r)
    (hrec : recordOf r = ⟨0, 0⟩) (hz : r.data.connectionCount = 0) (hN : Neutral (confFor c r)) (hn : (confFor c r).maxConnectionCount = n) (h65 : n ≤ 65535)
    (hfit : Fit (view c) p) (hp : Definite p) (hs : Sole (view c) a p (seen r)) {h : List (Visit σ)} {v : Visit σ} (hF : Fair c.global (h ++ [v]))
    (hrun : Runs w (h ++ [v]) w') (hpl : ∀ u ∈ about r.id (h ++ [v]), Peaceful u.ask) (hpv : Peaceful v.ask)
    (hx : ¬ (a.getLsbD 4 = true ∧ a.getLsbD 5 = true)) (hask : Of v.ask p a) :
    v.reply.about = r.id ∧
    (v.reply.ares.getLsbD 1 = true ↔ (v.ask.says.getLsbD 2 = true ∧ n ≤ held n r.id h) ∨ (r.flags.getLsbD 21 = false ∧ c.routes.defaultPolicy.getLsbD 1 = true)) ∧
    held n r.id h ≤ n ∧ ∃ r', w'.T.get? r.id = some r' ∧ r'.data.connectionCount = held n r.id (h ++ [v]) := by
  have hX : r.id ≠ 0 := hG.table.core.nonzero r hr
  have hP := proper_of hG hT
  obtain ⟨w1, hr1, hb, hq⟩ := runs_append hrun
  have hF1 : Fair c.global h := fun u hu => hF u (List.mem_append_left _ hu)
  have hag := aged_runs (by rw [hT]; exact kempt_of hG) hF1 hr1
  rw [hT] at hag
  have hEv := (hF v (List.mem_append_right _ (List.mem_singleton.2 rfl))).1
  have hab := of_about hG hfit hp hag hr h0 hx hs hEv hask hq
  have hget : w.T.get? r.id = some r := by rw [hT]; exact get?_mem hG.table.core.ids hr
  have hcfg : confFor c r = configOf c.global (r.event.or w.T.defaultEvent) := by unfold confFor; rw [hT]
  have hm : (confFor c r).maxConnectionCount ≤ 65535 := by omega
  have hplh : ∀ u ∈ about r.id h, Peaceful u.ask := fun u hu => hpl u (by rw [about_append]; exact List.mem_append_left _ hu)
  have e1 : ledger (confFor c r) r.data.connectionCount (about r.id h) = held n r.id h := by rw [hz]; exact held_ledger hN hn hplh
  have e2 : ledger (confFor c r) r.data.connectionCount (about r.id (h ++ [v])) = held n r.id (h ++ [v]) := by rw [hz]; exact held_ledger hN hn hpl
  refine ⟨hab, ?_, ?_, ?_⟩
  · rw [C90_rejected_iff hX hm hP hF hrun hget hcn hfree hrec hcfg (fun u hu => by
      obtain ⟨_, g4, g5, _⟩ := peaceful_charge hN (hpl u hu); exact ⟨g4, g5⟩) hab, e1, hn, hT]
    obtain ⟨p1, _, _, g0, g1, g2, _⟩ := peaceful_charge hN hpv
    unfold Opens PlainReject
    rw [g0, g1, g2]
    simp [p1]
  · rw [← e1, ← hn]; exact ledger_le (by omega)
  · rcases C90_ledger hX hm hP hF hrun hget hcn hcfg with e | ⟨r', e, h2⟩
    · have hag2 := aged_runs (by rw [hT]; exact kempt_of hG) hF hrun
      rw [hT] at hag2
      have hnp : r.id ∉ c.routes.purgeList := fun hc => by
        obtain ⟨r2, hr2, e, h2⟩ := (hG.table.purge.mem r.id).1 hc
        rw [id_inj hG.table.core.ids hr2 hr e] at h2
        exact h2 h0
      obtain ⟨_, r2, hm2, hs2⟩ := hag2.stay r hr hnp
      exact absurd hs2.id (get?_none e r2 hm2)
    · exact ⟨r', e, by rw [h2, e2]⟩

end

section
variable {H : Host} {issued : Nat → Nat → Prop} {tail : Tail} {f : LoadFlags} {json : Option Config} {w : LT.World} {chunks : List (List Byte)}

/-- A context keeps its limits on connections, whatever is dispatched by programs whose handlers only observe: for a rule that counts connections, does not
expire and is not banned, with a limit of `n` and a configuration that decides nothing by itself, when only connections are reported to it, a call about a
fully known packet for which the rule alone answers is about the rule, and is rejected exactly if it asks for a connection when `n` are held, or by the
default policy; and never more than `n` are held. -/
def Limits (c : Cx) : Prop :=
  ∀ (σ : Type) (wd wd' : WS.World σ) (h : List (Visit σ)) (v : Visit σ), wd.T = c.routes → Fair c.global (h ++ [v]) → Runs wd (h ++ [v]) wd' →
    ∀ (r : Route) (n : Nat) (p : Packet) (a : Flags), r ∈ c.routes.ents → r.data.purgeAfter = 0 → Free r → Counts r → Neutral (confFor c r) →
      (confFor c r).maxConnectionCount = n → n ≤ 65535 → Definite p → (∀ s ∈ (view c).rules, Ordinary s ∧ Fitting s p) → Sole (view c) a p (seen r) →
      (∀ u ∈ about r.id (h ++ [v]), Peaceful u.ask) → Peaceful v.ask → ¬ (a.getLsbD 4 = true ∧ a.getLsbD 5 = true) → Of v.ask p a →
      v.reply.about = r.id ∧
      (v.reply.ares.getLsbD 1 = true ↔ (v.ask.says.getLsbD 2 = true ∧ n ≤ held n r.id h) ∨ (r.flags.getLsbD 21 = false ∧ c.routes.defaultPolicy.getLsbD 1 = true)) ∧
      held n r.id h ≤ n ∧ ∃ r', wd'.T.get? r.id = some r' ∧ r'.data.connectionCount = held n r.id (h ++ [v])

theorem limits_of {c : Cx} (hG : Good issued [] c) (hN : ∀ s ∈ (view c).rules, Neat s) (hU : AllFresh c.routes) : Limits c := by
  intro σ wd wd' h v hT hF hrun r n p a hr h0 hfree hcn hNe hn h65 hp hord hs hpl hpv hx hask
  obtain ⟨u1, u2, _, u4⟩ := hU r hr
  exact C90_calls_partial hG hT hr h0 hfree hcn (by unfold recordOf; rw [u2, u4]) u1 hNe hn h65 (fit_of hN hord) hp hs hF hrun hpl hpv hx hask

/-- C90: a document that has been loaded in place has its limits on connections kept; the rules are those of the document (`C86_document_partial`). -/
theorem C90_document_partial (hM : Mild H.acts) (hS : Still H.acts) (hI : Issues H issued) (hG : Good issued [] w.cx)
    (hR : Readable tail json chunks) (hd : f.dryRun = false) (hc : f.thenCommit = false) (hn : f.noRules = false) (hf : f.noFlush = false)
    (h : (use H tail f json w chunks).res = none) : Limits (use H tail f json w chunks).world.cx := by
  obtain ⟨_, h2, h3, h4⟩ := document_facts hM hS hI hG hR hd hc hn hf h
  exact limits_of h2 h3 h4

/-- C90: the same for LOAD_THEN_COMMIT. -/
theorem C90_commit_partial (hM : Mild H.acts) (hS : Still H.acts) (hI : Issues H issued) (hG : Good issued [] w.cx)
    (hR : Readable tail json chunks) (hd : f.dryRun = false) (hc : f.thenCommit = true) (hn : f.noRules = false) (hf : f.noFlush = false)
    (h : (use H tail f json w chunks).res = none) : Limits (use H tail f json w chunks).world.cx := by
  obtain ⟨_, h2, h3, h4⟩ := commit_facts hM hS hI hG hR hd hc hn hf h
  exact limits_of h2 h3 h4

end

/-! ### Example -/

/-- Threshold 2, ban 50, at most 1 connection.  The second connection is refused until the first has ended. -/
example : upshot (worldF 0 {}) [tell 1000 (bit 2), tell 1001 (bit 2), tell 1002 (bit 3), tell 1003 (bit 2)] = some ([false, true, false, false], some (false, 0)) := by decide

/-- The connections of rule 1 after some calls. -/
def connsAfter (w : World Unit) (qs : List (Ask Unit)) : Option (Option Nat) := (play w qs).map (fun x => (x.2.T.get? 1).map (·.data.connectionCount))

/-- In the context loaded from `otText` (limit 2): while only connections are reported to port 22, a call is rejected exactly if it asks for a third. -/
theorem cn_applies {o : Outcome} (ho : o = use rsHost plainTail {} none rsFresh [otText]) {σ : Type} {wd wd' : WS.World σ} {h : List (Visit σ)} {v : Visit σ}
    (hT : wd.T = o.world.cx.routes) (hF : Fair o.world.cx.global (h ++ [v])) (hrun : Runs wd (h ++ [v]) wd') (hpl : ∀ u ∈ about 12 (h ++ [v]), Peaceful u.ask)
    {src : List Byte} (hsrc : src.length = 4) {a : Flags} (hx : ¬ (a.getLsbD 4 = true ∧ a.getLsbD 5 = true)) (hpv : Peaceful v.ask) (hask : Of v.ask (fwPacket src 22) a) :
    v.reply.about = 12 ∧ (v.reply.ares.getLsbD 1 = true ↔ v.ask.says.getLsbD 2 = true ∧ 2 ≤ held 2 12 h) := by
  have hfacts := otFacts
  rw [← ho] at hfacts
  obtain ⟨f1, f2, f3, f4, f5⟩ := fwSplit hfacts
  have hload := f1
  rw [ho] at hload
  have hdoc := C90_document_partial rsHost_mild rsHost_still rsHost_issues (C84_lived rsHost_mild rsHost_issues rsFresh_lived) (tail := plainTail) (f := {}) (json := none)
    (w := rsFresh) (chunks := [otText]) (closed_readable (by decide +kernel)) rfl rfl rfl rfl hload
  rw [← ho] at hdoc
  obtain ⟨q1, q2, q3, q4⟩ := ot_alone ho src a
  obtain ⟨c1, c2, _⟩ := hdoc σ wd wd' h v hT hF hrun otRule 2 (fwPacket src 22) a q1 rfl rfl rfl q2 rfl (by decide) (fwPacket_definite src 22 hsrc) q3 q4
    hpl hpv hx hask
  refine ⟨c1, c2.trans ⟨fun hh => hh.resolve_right (fun g => ?_), .inl⟩⟩
  have := g.2
  rw [f2] at this
  exact absurd this (by decide)

/-- Calls that report a connection meet the hypotheses. -/
theorem otAsk_peaceful (t : Int) (src : List Byte) : Of (otAsk t src (bit 2)) (fwPacket src 22) (bit 2) ∧ Peaceful (otAsk t src (bit 2)) :=
  ⟨⟨_, _, _, none, _, rfl, rfl⟩, by
    have he : (otAsk t src (bit 2)).says = (otAsk 0 [] (bit 2)).says := rfl
    unfold Peaceful
    rw [he]
    rintro k (rfl | rfl | rfl | rfl | rfl | rfl) <;> decide⟩

/-- Two connections are let in, a third is not, until one has ended. -/
example : otPlay [otAsk 1000 [10, 0, 0, 1] (bit 2), otAsk 2000 [10, 0, 0, 2] (bit 2), otAsk 2500 [10, 0, 0, 9] (bit 2), otAsk 3000 [10, 0, 0, 1] (bit 3),
      otAsk 4000 [10, 0, 0, 9] (bit 2)] =
    some [(12, false), (12, false), (12, true), (12, false), (12, false)] := by decide +kernel

/-- C90, finding: a connection that is rejected for another reason than the limit is counted all the same.  Here the rule is banned (until 1051); a
connection is rejected at 1010 and nobody has anything to end; at 1060, when the ban is over and no connection exists, one is refused for the limit. -/
theorem C90_rejected_is_counted :
    upshot (worldF 0 {}) [tell 1000 (bit 4), tell 1001 (bit 4), tell 1010 (bit 2), tell 1060 (bit 2)] = some ([false, true, true, true], some (true, 1001)) ∧
    connsAfter (worldF 0 {}) [tell 1000 (bit 4), tell 1001 (bit 4), tell 1010 (bit 2)] = some (some 1) := by decide

end WS.Props
