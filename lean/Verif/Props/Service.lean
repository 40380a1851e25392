import Verif.Props.Connections
import Verif.Props.LoadedClone
/-
C91: a context in service: traffic, edits and loads in any order.
-/
namespace WS.Props
open WS WS.Conf WS.Sax WS.LT WS.Spec WS.Spec.LT WS.Spec.Ld WS.Ld WS.Spec.Load WS.Spec.Fw WS.Fw WS.Spec.Off WS.Off WS.Spec.Ot WS.Ot WS.Spec.Con WS.Con

/-- The purge queue holds the rules that expire, each once, latest expiry first. -/
def Orderly (T : RouteTable) : Prop := PurgeInv T ∧ PurgeSorted T

/-- No rule expires. -/
def Lasting (T : RouteTable) : Prop := ∀ r ∈ T.ents, r.data.purgeAfter = 0

/-- A program's context after traffic. -/
def after (w : LT.World) (T : RouteTable) : LT.World := { w with cx := later w.cx T }

section
variable {σ : Type} {issued : Nat → Nat → Prop} {old : List Nat} {c : Cx} {g : EventConfig} {wd wd' : WS.World σ} {h : List (Visit σ)}

/-- A context that has seen traffic: rules in order (but not, perhaps, the queue of those that expire), linked to events of the table; the rest as in `Good`. -/
structure Worn (issued : Nat → Nat → Prop) (c : Cx) : Prop where
  kempt : Kempt c.routes
  linked : ∀ r ∈ c.routes.ents, ∀ e, r.event = some e → e ∈ c.events
  usable : Usable issued c

theorem worn_of (hG : Good issued old c) : Worn issued c := ⟨kempt_of hG, hG.linked, hG.usable⟩

theorem aged_of (hG : Worn issued c) (hT : wd.T = c.routes) (hF : Fair g h) (hr : Runs wd h wd') : Aged c.routes wd'.T := by
  have := aged_runs (by rw [hT]; exact hG.kempt) hF hr
  rwa [hT] at this

/-- Traffic leaves it so. -/
theorem worn_runs (hG : Worn issued c) (hT : wd.T = c.routes) (hF : Fair g h) (hr : Runs wd h wd') : Worn issued (later c wd'.T) := by
  have ha := aged_of hG hT hF hr
  refine ⟨ha.kempt, fun r' hr' e he => ?_, hG.usable.events, hG.usable.actions, fun r' hr' => ?_⟩
  · obtain ⟨r, h1, h2⟩ := ha.old r' hr'
    exact hG.linked r h1 e (h2.event ▸ he)
  · obtain ⟨r, h1, h2⟩ := ha.old r' hr'
    rw [h2.id]; exact hG.usable.ids r h1

theorem good_of (hG : Worn issued c) (ho : Orderly c.routes) : Good issued [] c :=
  ⟨⟨hG.kempt.core, ho.1⟩, ho.2, hG.linked, hG.usable.events, hG.usable.actions, fun r hr => ⟨hG.usable.ids r hr, fun h => by cases h⟩, fun i hi => by cases hi⟩

/-- C91: traffic leaves a table of rules that never expire in order, and all of the rules in the table. -/
theorem C91_lasting (hG : Good issued old c) (hl : Lasting c.routes) (hT : wd.T = c.routes) (hF : Fair g h) (hr : Runs wd h wd') :
    Orderly wd'.T ∧ Lasting wd'.T ∧ Left (view c) (view (later c wd'.T)) := by
  have ha := aged_of (worn_of hG) hT hF hr
  have hnil : c.routes.purgeList = [] := by
    refine List.eq_nil_iff_forall_not_mem.2 fun i hi => ?_
    obtain ⟨r, h1, _, h2⟩ := (hG.table.purge.mem i).1 hi
    exact h2 (hl r h1)
  have hnil' : wd'.T.purgeList = [] := List.eq_nil_iff_forall_not_mem.2 fun i hi => by
    have := ha.queue i hi
    rw [hnil] at this; cases this
  have hlast : Lasting wd'.T := fun r' hr' => by
    obtain ⟨r, h1, h2⟩ := ha.old r' hr'
    exact h2.expiry (hl r h1)
  refine ⟨⟨⟨by rw [hnil']; exact List.nodup_nil, fun i => ?_⟩, ?_⟩, hlast, left_of hG hT hF hr⟩
  · rw [hnil']
    refine ⟨fun hc => (by cases hc), fun ⟨r, h1, _, h2⟩ => absurd (hlast r h1) h2⟩
  · unfold PurgeSorted; rw [hnil']; exact List.Pairwise.nil

/-- C91: after traffic a context is in order, as every load and call supposes. -/
theorem C91_in_order (hG : Good issued old c) (hT : wd.T = c.routes) (hF : Fair g h) (hr : Runs wd h wd') (ho : Orderly wd'.T) :
    Good issued [] (later c wd'.T) := good_of (worn_runs (worn_of hG) hT hF hr) ho

/-- Traffic changes what is in force at most in the rules. -/
theorem view_later (hG : Worn issued c) (hT : wd.T = c.routes) (hF : Fair g h) (hr : Runs wd h wd') :
    view (later c wd'.T) = { view c with rules := wd'.T.ents.map seen } := by
  have ha := aged_of hG hT hF hr
  have hset := settings_runs ⟨by rw [hT]; exact hG.kempt.core.ids, by rw [hT]; exact hG.kempt.core.inTable⟩ hF hr
  rw [hT] at hset
  unfold view later
  simp only [View.mk.injEq, true_and, and_true]
  exact ⟨hset.1, ha.limits.1, ha.limits.2, by rw [hset.2.1]⟩

/-- What a load on an empty draft starts from does not depend on the traffic there has been. -/
theorem start_later (hG : Worn issued c) (hT : wd.T = c.routes) (hF : Fair g h) (hr : Runs wd h wd') (f : LoadFlags) (b : EventConfig) :
    startOnClone f b (view (later c wd'.T)) = startOnClone f b (view c) := by
  rw [view_later hG hT hF hr]; rfl

end

section
variable {H : Host} {issued : Nat → Nat → Prop} {tail : Tail} {f : LoadFlags} {json : Option Config} {w : LT.World} {chunks : List (List Byte)}
variable {σ : Type} {wd wd' : WS.World σ} {h : List (Visit σ)}

/-- C91: a new configuration loaded with LOAD_THEN_COMMIT in service.  A context has seen any traffic; then a document is loaded and committed.  What is in
force afterwards is what the document's calls make of the same start as if there had been no traffic (`start` is about the context before the traffic);
nothing is charged to any rule; and from then on the context decides by the new rules, bans after as many offences as they say and keeps their limits
on connections.  Missing: as in C84, C86, C89 and C90. -/
theorem C91_reload_partial (hM : Mild H.acts) (hS : Still H.acts) (hI : Issues H issued) (hG : Worn issued w.cx) (hT : wd.T = w.cx.routes)
    (hF : Fair w.cx.global h) (hrun : Runs wd h wd') (hR : Readable tail json chunks) (hd : f.dryRun = false)
    (hc : f.thenCommit = true) (hn : f.noRules = false) (hf : f.noFlush = false) (hok : (use H tail f json (after w wd'.T) chunks).res = none) :
    let c := (use H tail f json (after w wd'.T) chunks).world.cx
    let start := startOnClone f (ofCfg (cfgGet w.cx.config0)) (view w.cx)
    (∃ j calls v1, TextOf (json.getD defaultJson) chunks.flatten j ∧ Pairs (AsksFor H.env) (ruleObjects j) (calls.filter isRuleCall) ∧
      Done H.store calls start v1 ∧ view c = enabledView v1 ∧
      (start.limit = 0 → (∀ n, Call.maxPurgeableRoutes n ∉ calls) → RulesOf H calls start (view c))) ∧
    (∀ r ∈ c.routes.ents, r.data.connectionCount = 0 ∧ recordOf r = ⟨0, 0⟩ ∧ r.data.lastPenaltyboxTime = 0) ∧
    Good issued [] c ∧ Governs c ∧ Steady c ∧ Limits c := by
  intro c start
  have hW := worn_runs hG hT hF hrun
  obtain ⟨h1, h2, h3, h4⟩ := commit_usable hM hS hI (w := after w wd'.T) hW.usable hR hd hc hn hf hok
  have hst : startOnClone f (ofCfg (cfgGet (after w wd'.T).cx.config0)) (view (after w wd'.T).cx) = start := start_later hG hT hF hrun f _
  rw [hst] at h1
  exact ⟨h1, fun r hr => ⟨(h4 r hr).1, by unfold recordOf; rw [(h4 r hr).2.1, (h4 r hr).2.2.2], (h4 r hr).2.2.1⟩, h2, governs_of h2 h3 h4, steady_of h2 h3 h4, limits_of h2 h3 h4⟩

/-- C91: the same for a load in place.  Missing besides: if rules expire, the traffic must have left the purge queue in order (C16_hit_breaks_order). -/
theorem C91_reload_in_place_partial (hM : Mild H.acts) (hS : Still H.acts) (hI : Issues H issued) (hG : Good issued [] w.cx) (hT : wd.T = w.cx.routes)
    (hF : Fair w.cx.global h) (hrun : Runs wd h wd') (ho : Lasting w.cx.routes ∨ Orderly wd'.T) (hR : Readable tail json chunks) (hd : f.dryRun = false)
    (hc : f.thenCommit = false) (hn : f.noRules = false) (hf : f.noFlush = false) (hok : (use H tail f json (after w wd'.T) chunks).res = none) :
    let c := (use H tail f json (after w wd'.T) chunks).world.cx
    (∃ j calls, TextOf (json.getD defaultJson) chunks.flatten j ∧ Pairs (AsksFor H.env) (ruleObjects j) (calls.filter isRuleCall) ∧
      Done H.store calls (startInPlace f (view w.cx)) (view c) ∧
      ((view w.cx).limit = 0 → (∀ n, Call.maxPurgeableRoutes n ∉ calls) → RulesOf H calls (startInPlace f (view w.cx)) (view c))) ∧
    (∀ r ∈ c.routes.ents, r.data.connectionCount = 0 ∧ recordOf r = ⟨0, 0⟩ ∧ r.data.lastPenaltyboxTime = 0) ∧
    Governs c ∧ Steady c ∧ Limits c := by
  intro c
  have hG' := C91_in_order hG hT hF hrun (ho.elim (fun hl => (C91_lasting hG hl hT hF hrun).1) id)
  obtain ⟨h1, h2, h3, h4⟩ := document_facts hM hS hI (w := after w wd'.T) hG' hR hd hc hn hf hok
  have hv : view (after w wd'.T).cx = { view w.cx with rules := wd'.T.ents.map seen } := view_later (worn_of hG) hT hF hrun
  have hst : startInPlace f (view (after w wd'.T).cx) = startInPlace f (view w.cx) := by rw [hv]; unfold startInPlace; simp only [hf]; rfl
  have hl : (view (after w wd'.T).cx).limit = (view w.cx).limit := by rw [hv]
  rw [hst, hl] at h1
  exact ⟨h1, fun r hr => ⟨(h4 r hr).1, by unfold recordOf; rw [(h4 r hr).2.1, (h4 r hr).2.2.2], (h4 r hr).2.2.1⟩, governs_of h2 h3 h4, steady_of h2 h3 h4, limits_of h2 h3 h4⟩

/-- C91: a new configuration that is refused before anything is committed goes unnoticed: rules with all bans, counts and times of expiry, events,
settings and values are as they were, so that traffic goes on as if it had not been tried. -/
theorem C91_refused_reload {e : Err} (hc : f.thenCommit = true) (T : RouteTable) (hbad : (use H tail { f with dryRun := true } json (after w T) chunks).res = some e) :
    (use H tail f json (after w T) chunks).res = some e ∧ (use H tail f json (after w T) chunks).world.cx = later w.cx T := by
  obtain ⟨h1, h2, _⟩ := C83_all_or_nothing H tail json (after w T) chunks f hc e hbad
  exact ⟨h1, h2⟩

/-- What a program does with a context in service: as in `Lived`, but with traffic, dry runs and refused loads at any time, and with loads on top of what
is in force.  The truth value tells that the queue of rules that expire is in order: traffic may leave it otherwise (C16_hit_breaks_order); then the
program changes rules by loading and committing a document only. -/
inductive Served (H : Host) : Bool → LT.World → Prop
  | fresh {w : LT.World} (limit : Nat) (idle : Int) (ft : Option Nat) (p : Flags) : w.cx.events = [] → w.cx.actions = [] →
      w.cx.routes = { maxPurgeableRoutes := limit, maxPurgeableIdleTime := idle, fallthroughRoute := ft, defaultPolicy := p } → Served H true w
  | register {b : Bool} {w : LT.World} {l : List Byte} {a : Nat} : Served H b w → (∀ x ∈ w.cx.actions, x.1 ≠ l) →
      Served H b { w with cx := { w.cx with actions := w.cx.actions ++ [(l, a)] } }
  | call {w w' : LT.World} {k : Call} : Served H true w → Fits k → libCall H w k = (w', none) → Served H true w'
  | load {w : LT.World} {tail : Tail} {f : LoadFlags} {json : Option Config} {chunks : List (List Byte)} : Served H true w → Readable tail json chunks →
      f.dryRun = false → f.thenCommit = false → f.noRules = false → (use H tail f json w chunks).res = none →
      Served H true (use H tail f json w chunks).world
  | commit {b : Bool} {w : LT.World} {tail : Tail} {f : LoadFlags} {json : Option Config} {chunks : List (List Byte)} : Served H b w →
      Readable tail json chunks → f.dryRun = false → f.thenCommit = true → f.noFlush = false → f.noRules = false → (use H tail f json w chunks).res = none →
      Served H true (use H tail f json w chunks).world
  | add {w : LT.World} {tail : Tail} {f : LoadFlags} {json : Option Config} {chunks : List (List Byte)} : Served H true w → Readable tail json chunks →
      BmFits w.cx.routes → (∀ s ∈ (view w.cx).rules, s.flags.getLsbD 15 = false) →
      f.dryRun = false → f.thenCommit = true → f.noFlush = true → f.noRules = false → (use H tail f json w chunks).res = none →
      Served H true (use H tail f json w chunks).world
  | dry {b : Bool} {w : LT.World} {tail : Tail} {f : LoadFlags} {json : Option Config} {chunks : List (List Byte)} : Served H b w → f.dryRun = true →
      Served H b (use H tail f json w chunks).world
  | refused {b : Bool} {w : LT.World} {tail : Tail} {f : LoadFlags} {json : Option Config} {chunks : List (List Byte)} {e : Err} : Served H b w →
      f.thenCommit = true → (use H tail { f with dryRun := true } json w chunks).res = some e → Served H b (use H tail f json w chunks).world
  | traffic {b : Bool} {w : LT.World} {σ : Type} {wd wd' : WS.World σ} {h : List (Visit σ)} : Served H b w → wd.T = w.cx.routes → Fair w.cx.global h →
      Runs wd h wd' → Served H false (after w wd'.T)
  | orderly {w : LT.World} {σ : Type} {wd wd' : WS.World σ} {h : List (Visit σ)} : Served H true w → wd.T = w.cx.routes → Fair w.cx.global h →
      Runs wd h wd' → (Lasting w.cx.routes ∨ Orderly wd'.T) → Served H true (after w wd'.T)

/-- A context in service stays in order. -/
theorem served_order (hM : Mild H.acts) (hS : Still H.acts) (hI : Issues H issued) {b : Bool} (hs : Served H b w) :
    Worn issued w.cx ∧ (b = true → Good issued [] w.cx) := by
  have both : ∀ {c : Cx} {b : Bool}, Good issued [] c → Worn issued c ∧ (b = true → Good issued [] c) := fun h => ⟨worn_of h, fun _ => h⟩
  induction hs with
  | fresh limit idle ft p he ha hr => exact both (C84_lived hM hI (.fresh limit idle ft p he ha hr))
  | @register b w l a _ hn ih =>
    have hacts : ∀ x ∈ w.cx.actions ++ [(l, a)], ∀ y ∈ w.cx.actions ++ [(l, a)], x.1 = y.1 → x = y := by
      intro x hx y hy hxy
      rcases List.mem_append.1 hx with hx | hx <;> rcases List.mem_append.1 hy with hy | hy
      · exact ih.1.usable.actions x hx y hy hxy
      · rw [List.mem_singleton.1 hy] at hxy; exact absurd hxy (hn x hx)
      · rw [List.mem_singleton.1 hx] at hxy; exact absurd hxy.symm (hn y hy)
      · rw [List.mem_singleton.1 hx, List.mem_singleton.1 hy]
    exact ⟨⟨ih.1.kempt, ih.1.linked, ih.1.usable.events, hacts, ih.1.usable.ids⟩, fun hb =>
      have g := ih.2 hb
      ⟨g.table, g.queue, g.linked, g.events, hacts, g.ids, g.past⟩⟩
  | call _ hf hc ih => exact both (C84_call hM hI (ih.2 rfl) hf hc).2
  | @load w tail f json chunks _ hR hd hc hn h ih => exact both (C84_in_place_partial hM hI (ih.2 rfl) hR hd hc hn h).2
  | @commit b w tail f json chunks _ hR hd hc hf hn h ih => exact both (commit_usable hM hS hI ih.1.usable hR hd hc hn hf h).2.1
  | @add w tail f json chunks _ hR hb hA hd hc hf hn h ih =>
    exact both (C84_add_commit_partial hM hI (ih.2 rfl) hb hA hR hd hc hf hn h).2
  | @dry b w tail f json chunks _ hd ih => rw [(C83_dry_run H tail json w chunks f hd).1]; exact ih
  | @refused b w tail f json chunks e _ hc hbad ih => rw [(C83_all_or_nothing H tail json w chunks f hc e hbad).2.1]; exact ih
  | @traffic b w σ wd wd' h _ hT hF hr ih => exact ⟨worn_runs ih.1 hT hF hr, fun h => by cases h⟩
  | @orderly w σ wd wd' h _ hT hF hr ho ih =>
    have g := ih.2 rfl
    exact both (C91_in_order g hT hF hr (ho.elim (fun hl => (C91_lasting g hl hT hF hr).1) id))

/-- C91: what C84, C86, C89 and C90 suppose of a context is true of a context in service. -/
theorem C91_served_partial (hM : Mild H.acts) (hS : Still H.acts) (hI : Issues H issued) (hs : Served H true w) : Good issued [] w.cx :=
  (served_order hM hS hI hs).2 rfl

/-- C91: so a configuration loaded and committed, or loaded in place, into a context in service, whatever has happened to it, is what is in force
afterwards. -/
theorem C91_served_load_partial (hM : Mild H.acts) (hS : Still H.acts) (hI : Issues H issued) {b : Bool} (hs : Served H b w) (hb : b = true ∨ f.thenCommit = true)
    (hR : Readable tail json chunks) (hd : f.dryRun = false) (hn : f.noRules = false) (hf : f.noFlush = false) (hok : (use H tail f json w chunks).res = none) :
    let c := (use H tail f json w chunks).world.cx
    let start := if f.thenCommit then startOnClone f (ofCfg (cfgGet w.cx.config0)) (view w.cx) else startInPlace f (view w.cx)
    (∃ j calls v1, TextOf (json.getD defaultJson) chunks.flatten j ∧ Pairs (AsksFor H.env) (ruleObjects j) (calls.filter isRuleCall) ∧
      Done H.store calls start v1 ∧ view c = (if f.thenCommit then enabledView v1 else v1) ∧
      (start.limit = 0 → (∀ n, Call.maxPurgeableRoutes n ∉ calls) → RulesOf H calls start (view c))) ∧
    Governs c ∧ Steady c ∧ Limits c := by
  intro c start
  have hG := served_order hM hS hI hs
  cases hc : f.thenCommit
  · rw [hc] at hb
    obtain ⟨⟨j, calls, h1, h1', h1'', h1'''⟩, h2, h3, h4⟩ := document_facts hM hS hI (hG.2 (hb.resolve_right (by decide))) hR hd hc hn hf hok
    have e : start = startInPlace f (view w.cx) := by simp only [start, hc]; rfl
    refine ⟨⟨j, calls, view c, h1, h1', by rw [e]; exact h1'', rfl, fun hl hm => ?_⟩, governs_of h2 h3 h4, steady_of h2 h3 h4, limits_of h2 h3 h4⟩
    rw [e] at hl ⊢
    exact h1''' hl hm
  · obtain ⟨h1, h2, h3, h4⟩ := commit_usable hM hS hI hG.1.usable hR hd hc hn hf hok
    have e : start = startOnClone f (ofCfg (cfgGet w.cx.config0)) (view w.cx) := by simp only [start, hc]; rfl
    rw [e]
    exact ⟨h1, governs_of h2 h3 h4, steady_of h2 h3 h4, limits_of h2 h3 h4⟩

end

/-! ### Example -/

/-- The context loaded from `otText`. -/
def svWorld : LT.World := (use rsHost plainTail {} none rsFresh [otText]).world

/-- Its table after some calls. -/
def svAfter (qs : List (Ask Unit)) : RouteTable := ((play { T := otTable, ext := () } qs).map (·.2.T)).getD {}

/-- The same document loaded with LOAD_THEN_COMMIT after these calls. -/
def svReload (qs : List (Ask Unit)) : Outcome := use rsHost plainTail { thenCommit := true } none (after svWorld (svAfter qs)) [otText]

/-- Calls after that: rules they were about, answers rejected. -/
def svPlay (T : RouteTable) (qs : List (Ask Unit)) : Option (List (Nat × Bool)) :=
  (play { T := T, ext := () } qs).map (fun x => x.1.map (fun v => (v.reply.about, v.reply.ares.getLsbD 1)))

/-- A ban of the rule: three offences. -/
def svOffences : List (Ask Unit) := [otAsk 1000 [10, 0, 0, 1] (bit 4), otAsk 2000 [10, 0, 0, 2] (bit 4), otAsk 3000 [10, 0, 0, 3] (bit 4)]

/-- Two connections, the most the document allows. -/
def svTwo : List (Ask Unit) := [otAsk 1000 [10, 0, 0, 1] (bit 2), otAsk 2000 [10, 0, 0, 2] (bit 2)]

/-- A rule for an event that does not exist: refused. -/
def svBad : List Byte := ascii "{\"wolfsentry-config-version\":1,\"routes\":[{\"parent-event\":\"nobody\",\"family\":2,\"direction-in\":true}]}"

theorem sv_facts : (use rsHost plainTail {} none rsFresh [otText]).res = none ∧ svWorld.cx.routes = otTable := by
  unfold svWorld
  have h := otFacts
  generalize use rsHost plainTail {} none rsFresh [otText] = o at h ⊢
  obtain ⟨f1, f2, _⟩ := fwSplit h
  exact ⟨f1, f2⟩

/-- A reload after any traffic meets the hypotheses of `C91_reload_partial`. -/
theorem sv_applies {T : RouteTable} {h : List (Visit Unit)} {wd wd' : WS.World Unit} (h0 : wd.T = svWorld.cx.routes) (hF : Fair svWorld.cx.global h)
    (hrun : Runs wd h wd') (hT : wd'.T = T) (hok : (use rsHost plainTail { thenCommit := true } none (after svWorld T) [otText]).res = none) :
    Steady (use rsHost plainTail { thenCommit := true } none (after svWorld T) [otText]).world.cx := by
  have hR : Readable plainTail none [otText] := closed_readable (by decide +kernel)
  have hG : Good (fun s i => i ≤ s) [] svWorld.cx :=
    C91_served_partial rsHost_mild rsHost_still rsHost_issues (.load (.fresh 0 0 none 0 rfl rfl rfl) hR rfl rfl rfl sv_facts.1)
  subst hT
  have key := C91_reload_partial rsHost_mild rsHost_still rsHost_issues (tail := plainTail) (f := { thenCommit := true }) (json := none) (w := svWorld) (chunks := [otText])
    (worn_of hG) h0 hF hrun hR rfl rfl rfl rfl
  exact (key hok).2.2.2.2.1

/-- Its rules never expire. -/
theorem sv_lasting : Lasting svWorld.cx.routes := by
  rw [sv_facts.2]; intro r hr; rw [List.mem_singleton.1 hr]; rfl

example : (svReload svOffences).res = none ∧ (svReload svTwo).res = none := by decide +kernel

example : (play { T := svWorld.cx.routes, ext := () } svOffences).map (fun x => (x.1.map (fun v => v.reply.ares.getLsbD 1), x.2.T.ents.map (·.flags.getLsbD 20))) =
    some ([false, false, true], [true]) := by decide +kernel

/-- A refused configuration changes nothing: the rule stays banned. -/
example : (use rsHost plainTail { thenCommit := true, dryRun := true } none (after svWorld (svAfter svOffences)) [svBad]).res = some .itemNotFound ∧
    svPlay (use rsHost plainTail { thenCommit := true } none (after svWorld (svAfter svOffences)) [svBad]).world.cx.routes [otAsk 4000 [10, 0, 0, 1] 0] = some [(12, true)] := by
  decide +kernel

/-- C91, finding: loading the configuration in force once more ends every ban: the rule is banned, and accepts after the same document has been loaded. -/
theorem C91_reload_ends_bans : svPlay (svAfter svOffences) [otAsk 4000 [10, 0, 0, 1] 0] = some [(12, true)] ∧
    svPlay (svReload svOffences).world.cx.routes [otAsk 4000 [10, 0, 0, 1] 0] = some [(14, false)] := by decide +kernel

/-- C91, finding: and forgets the connections: with two open and a limit of two, two more are let in after the same document has been loaded. -/
theorem C91_reload_forgets_connections : svPlay (svAfter svTwo) [otAsk 4000 [10, 0, 0, 3] (bit 2)] = some [(12, true)] ∧
    svPlay (svReload svTwo).world.cx.routes [otAsk 4000 [10, 0, 0, 3] (bit 2), otAsk 5000 [10, 0, 0, 4] (bit 2), otAsk 6000 [10, 0, 0, 5] (bit 2)] =
      some [(14, false), (14, false), (14, true)] := by decide +kernel

end WS.Props
