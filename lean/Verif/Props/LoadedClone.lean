import Verif.Proof.LoadedClone2
import Verif.Props.Loaded
import Verif.Props.TableState
/-
C84 with NO_FLUSH and LOAD_THEN_COMMIT: the document is added to a copy of the context, which then takes the context's place.
-/
namespace WS.Props
open WS WS.Conf WS.Spec WS.Spec.Load WS.LT WS.Spec.LT WS.Spec.Ld WS.Ld

section
variable {issued : Nat → Nat → Prop} {H : Host}

/-- C83: the copy of the rule table that a load with NO_FLUSH works on keeps its own books right: its rules are those of the original; a family is
matched by bitmask exactly while a rule of it has a bitmask, and counted once for each; every rule that expires is queued once, latest expiry first.
(`BmFits`: the counts of the original are in the range of their types, and no more than its array holds.) -/
theorem C83_copied_table {f : LoadFlags} (hn : f.noFlush = true) {w : World} (hG : Good issued [] w.cx) (hF : BmFits w.cx.routes) :
    let T := (Draft f w).cx.routes
    T.ents = w.cx.routes.ents ∧
    (∀ af, isBitmaskMatching af T.bitmaskAfs = true ↔ ∃ r ∈ w.cx.routes.ents, UsesBitmask r ∧ r.family = af) ∧
    (∀ af n, (af, n) ∈ T.bitmaskAfs → n = (w.cx.routes.ents.filter (fun r => (r.flags.getLsbD 12 || r.flags.getLsbD 13) && r.family == af)).length) ∧
    T.purgeList.Nodup ∧ (∀ id, id ∈ T.purgeList ↔ ∃ r ∈ w.cx.routes.ents, r.id = id ∧ r.data.purgeAfter ≠ 0) ∧
    T.purgeList.Pairwise (fun a b => T.expiry b ≤ T.expiry a) ∧
    (∀ id, T.lastAfWildcard = some id → ∃ r ∈ w.cx.routes.ents, r.id = id ∧ r.flags.getLsbD 0 = true) ∧
    (∀ r ∈ w.cx.routes.ents, T.highestPriority ≤ priority r) := by
  intro T
  have hh : f.how = .none := by unfold LoadFlags.how; rw [hn]; rfl
  have hr : T = cloneRoutes .none w.cx.events w.cx.routes := by show (Draft f w).cx.routes = _; unfold Draft; rw [hh]; rfl
  obtain ⟨h1, h2, h3⟩ := clone_healthy hG.table hF w.cx.events
  rw [← hr] at h1 h2 h3
  have hc := h1.core
  refine ⟨h3, fun af => ?_, fun af n hm => ?_, h1.purge.nodup, fun id => by rw [h1.purge.mem, h3], h2, ?_, ?_⟩
  · rw [← h3, ← bmCount_pos]
    unfold isBitmaskMatching
    rw [List.any_eq_true]
    constructor
    · rintro ⟨⟨a, n⟩, hm, he⟩
      have : a = af := by simpa using he
      subst this
      have := hc.afsCount a n hm
      omega
    · intro hp
      obtain ⟨p, hp, e⟩ := List.mem_map.1 (hc.afsMem af hp)
      exact ⟨p, hp, by simpa using e⟩
  · rw [(hc.afsCount af n hm).1, h3]
    unfold bmCount
    rw [List.countP_eq_length_filter]
    congr 1
    apply List.filter_congr
    intro x _
    rw [hasBitmask_iff]
  · rw [← h3]; exact hc.lastAf
  · intro r hr'
    rw [← effPriority_eq]; exact hc.hpLe r (by rw [h3]; exact hr')

/-- What a load with NO_FLUSH and LOAD_THEN_COMMIT starts from: what is in force, with actions inhibited, and the idle limit 0. -/
def startOnCopy (v : View) : View := { v with config := { v.config with flags := v.config.flags ||| bit 2 }, idle := 0 }

theorem view_copy {f : LoadFlags} (hn : f.noFlush = true) {w : World} (hG : Good issued [] w.cx) (hF : BmFits w.cx.routes) (hw : Whole f w.cx) :
    view (Draft f w).cx = startOnCopy (view w.cx) := by
  have hh : f.how = .none := by unfold LoadFlags.how; rw [hn]; rfl
  have hd := C83_draft w f
  have hents := (C83_copied_table hn hG hF).1
  have hdf : (Draft f w).cx.routes.defaultEvent.map (·.label) = w.cx.routes.defaultEvent.map (·.label) := by
    rw [hd.event, hn]
    simp only [Bool.true_or, if_true]
    have := hw.1 (.inl hn)
    cases hx : w.cx.routes.defaultEvent with
    | none => rfl
    | some e =>
      obtain ⟨x, hx1, hx2⟩ := this e hx
      show (w.cx.events.find? (fun x => x.label == e.label)).map (·.label) = some e.label
      cases hy : w.cx.events.find? (fun x => x.label == e.label) with
      | none => exact absurd hx2 (by have := List.find?_eq_none.1 hy x hx1; simpa using this)
      | some y => have := List.find?_some hy; simp only [beq_iff_eq] at this; rw [Option.map_some, this]
  have hidle : (Draft f w).cx.routes.maxPurgeableIdleTime = 0 := by
    have : ∀ (l : List Route) (T : RouteTable), (l.foldl noteClone T).maxPurgeableIdleTime = T.maxPurgeableIdleTime := by
      intro l
      induction l with
      | nil => intro T; rfl
      | cons r l ih =>
        intro T
        rw [List.foldl_cons, ih]
        unfold noteClone RouteTable.purgeInsert
        simp only
        repeat' split
        all_goals rfl
    unfold Draft; rw [hh]; exact this _ _
  have hcfg : (Draft f w).cx.config = { w.cx.config with config := { w.cx.config.config with cfgFlags := w.cx.config.config.cfgFlags ||| EF.INHIBIT_ACTIONS } } := by
    unfold Draft; rw [hh]; rfl
  unfold view startOnCopy
  rw [hdf, hidle, hents, hcfg, hd.policy, hd.limit, hd.events, hd.actions, hd.values, hn]
  rfl

/-- C84: LOAD_THEN_COMMIT with NO_FLUSH: what is in force afterwards is what the document's calls make of what was in force, with actions enabled
(and the limit on idle time forgotten: C83).  Missing: as in `C84_in_place_partial`; and no rule in force may be marked as to be deleted before
(`C84_finding_revival_undone`). -/
theorem C84_add_commit_partial (hM : Mild H.acts) (hI : Issues H issued) {tail : Tail} {f : LoadFlags} {json : Option Sax.Config} {w : World}
    {chunks : List (List Byte)} (hG : Good issued [] w.cx) (hF : BmFits w.cx.routes) (hA : ∀ s ∈ (view w.cx).rules, s.flags.getLsbD 15 = false)
    (hR : Readable tail json chunks) (hd : f.dryRun = false) (hc : f.thenCommit = true) (hf : f.noFlush = true) (hn : f.noRules = false)
    (h : (use H tail f json w chunks).res = none) :
    let v' := view (use H tail f json w chunks).world.cx
    (∃ j calls v1, TextOf (json.getD defaultJson) chunks.flatten j ∧ Done H.store calls (startOnCopy (view w.cx)) v1 ∧
      Pairs (AsksFor H.env) (ruleObjects j) (calls.filter isRuleCall) ∧ v' = enabledView v1) ∧
    Good issued [] (use H tail f json w chunks).world.cx := by
  intro v'
  obtain ⟨hfi, hj⟩ := use_ok h
  have hcl : f.onClone = true := by unfold LoadFlags.onClone; rw [hc, Bool.or_true]
  have hw : Whole f w.cx := by
    by_cases hw : Whole f w.cx
    · exact hw
    · rw [init_unclonable H tail json w chunks f hfi hj hcl hw] at h; cases h
  have hdry : (use H tail { f with dryRun := true } json w chunks).res = none := by
    cases hx : (use H tail { f with dryRun := true } json w chunks).res with
    | none => rfl
    | some e => have := (C83_all_or_nothing H tail json w chunks f hc e hx).1; rw [h] at this; cases this
  obtain ⟨h0, h1, _⟩ := committed H tail json w chunks f hd hc hdry
  obtain ⟨j, ht, hl⟩ := (C56_text_meaning_partial H.env (noEmptyEvent H) tail hR.place _ hR.strict f.noRules _ chunks hR.whole (Draft f w) _).1 ⟨h0, rfl⟩
  rw [hn] at hl
  obtain ⟨hgd, hcd⟩ := draft_copy hf hG hF
  obtain ⟨calls, hm, hp⟩ := loads_calls hl
  obtain ⟨hg, hdn⟩ := made_done hM hI hm (calls_fit hp) hgd
  have hA' : ∀ z ∈ w.cx.routes.ents, z.flags.getLsbD 15 = false := fun z hz => by
    rw [← seen_bit z 15 (by omega) (by omega)]; exact hA _ (List.mem_map.2 ⟨z, hz, rfl⟩)
  have hcar := made_carried hM hI hA' hm (calls_fit hp) hgd hcd
  rw [view_copy hf hG hF hw] at hdn
  obtain ⟨hg', hr⟩ := commit_copy hM hf hg hcar
  have he : (use H tail f json w chunks).world.cx =
      { preCommit f w.cx (load H.env tail (json.getD defaultJson) false (ofCfg (cfgGet (Draft f w).cx.config)) (Draft f w) chunks).user.1.cx with
        routes := (bulkInsertActions (preCommit f w.cx (load H.env tail (json.getD defaultJson) false (ofCfg (cfgGet (Draft f w).cx.config)) (Draft f w) chunks).user.1.cx).global
          H.acts (preCommit f w.cx (load H.env tail (json.getD defaultJson) false (ofCfg (cfgGet (Draft f w).cx.config)) (Draft f w) chunks).user.1.cx).routes 0).1 } := by
    rw [← hn]; exact h1
  refine ⟨⟨j, calls, _, ht, hdn, hp, ?_⟩, by rw [he]; exact hg'⟩
  simp only [v', he]
  have key : ∀ (L : Cx) (es : List Route), staged f w.cx.routes L.routes = { L.routes with ents := (staged f w.cx.routes L.routes).ents } →
      view { preCommit f w.cx L with routes := { staged f w.cx.routes L.routes with ents := es } } =
        { view L with config := { (view L).config with flags := (view L).config.flags &&& ~~~bit 2 }, rules := es.map seen } := by
    intro L es hT
    rw [hT]; rfl
  have hro : ∀ (A B : RouteTable), staged f A B = { B with ents := (staged f A B).ents } := by
    intro A B; unfold staged; split <;> rfl
  refine Eq.trans (key _ _ (hro _ _)) ?_
  unfold enabledView
  have hr' := hr
  unfold view at hr'
  simp only at hr'
  have : ∀ (X : View) (c : EventConfig) (l l' : List Seen), l = l' → X.rules = l' → ({ X with config := c, rules := l } : View) = { X with config := c } := by
    intro X c l l' e1 e2; rw [e1, ← e2]
  exact this _ _ _ _ hr' rfl

end

/-! ### Non-vacuity and findings -/

/-- A rule for another port. -/
def lcMore : List Byte :=
  ascii "{\"wolfsentry-config-version\":1,\"routes\":[{\"family\":2,\"direction-in\":true,\"protocol\":6,\"remote\":{\"port\":9}}]}"

theorem lcMore_readable : Readable plainTail none [lcMore] := by
  refine ⟨plainTail_inPlace, by show Spec.Json.Strict defaultJson; unfold Spec.Json.Strict; decide, fun evs hcut => ?_⟩
  refine (show ¬ Spec.Json.EndsInWord [lcMore].flatten from ?_) (Sax.cutOff_ends hcut)
  rintro ⟨t, c, e, g⟩
  have h1 : ([lcMore].flatten).getLast? = some 0x7d#8 := by decide +kernel
  rw [e, List.getLast?_append] at h1
  simp at h1
  subst h1
  unfold Spec.Json.Digit at g
  revert g
  decide

theorem lcTwo_ok : (use txHost plainTail { noFlush := true, thenCommit := true } none ldOnce [lcMore]).res = none := by decide +kernel

/-- The hypotheses of `C84_add_commit_partial` hold of the sample, and afterwards both rules are in force. -/
theorem lcTwo_ports : (view (use txHost plainTail { noFlush := true, thenCommit := true } none ldOnce [lcMore]).world.cx).rules.map (fun s => s.remote.port) = [7, 9] := by decide +kernel

example : ∃ j calls v1, TextOf (Option.getD none defaultJson) [lcMore].flatten j ∧ Done txHost.store calls (startOnCopy (view ldOnce.cx)) v1 ∧
    Pairs (AsksFor txHost.env) (ruleObjects j) (calls.filter isRuleCall) ∧ view (use txHost plainTail { noFlush := true, thenCommit := true } none ldOnce [lcMore]).world.cx = enabledView v1 :=
  (C84_add_commit_partial txHost_mild txHost_issues (f := { noFlush := true, thenCommit := true }) (C84_lived txHost_mild txHost_issues ldOnce_lived)
    ⟨by decide +kernel, by decide +kernel⟩ (by decide +kernel) lcMore_readable rfl rfl rfl rfl lcTwo_ok).1

/-- A rule with a bitmask, and one that expires: the books of the copy. -/
def lcMasked : World :=
  { cx := { idState := 9, routes := (insert1 {} txHost.acts {} { family := 5, remote := { bits := 16, addr := [1, 1] }, flags := bit 10 ||| bit 12, data := { purgeAfter := 77 } } (.ok 5) (.ok 9) 0).elim {} (·.T) } }

example : isBitmaskMatching 5 (Draft { noFlush := true } lcMasked).cx.routes.bitmaskAfs = true ∧ (Draft { noFlush := true } lcMasked).cx.routes.purgeList = [9] := by
  decide +kernel

/-- A rule is loaded, one connection is open on it, and it is deleted: it is marked and expires a minute after the last hit. -/
def lcOne : World := (use txHost plainTail {} none ldWorld [lcMore]).world
def lcLeaving : World :=
  let T : RouteTable := { lcOne.cx.routes with ents := lcOne.cx.routes.ents.map fun r => { r with data := { r.data with connectionCount := 1 } } }
  { lcOne with cx := { lcOne.cx with routes := (deleteById lcOne.cx.global txHost.acts T 11 0).1 } }

/-- C84, finding: a document that brings back a rule marked as to be deleted does so when loaded in place; but with LOAD_THEN_COMMIT the commit
copies the mark and the expiry of the original over it (src/routes.c:4704-4706).  The load succeeds, the rule is still marked, and it has an expiry
without being in the queue of rules that expire (its deletion unlinks it from a queue it is not in). -/
theorem C84_finding_revival_undone :
    (let o := use txHost plainTail { noFlush := true } none lcLeaving [lcMore]
     o.res = none ∧ (view o.world.cx).rules.map (fun s => (s.flags.getLsbD 15, s.expiry)) = [(false, 0)]) ∧
    (let o := use txHost plainTail { noFlush := true, thenCommit := true } none lcLeaving [lcMore]
     o.res = none ∧ (view o.world.cx).rules.map (fun s => (s.flags.getLsbD 15, s.expiry)) = [(true, 60000000)] ∧ o.world.cx.routes.purgeList = []) := by
  decide +kernel

end WS.Props
