import Verif.Proof.LoadTx6
import Verif.Props.Config
/-
C83: loading a configuration is a transaction (`wolfsentry_config_json_init_ex`, `_feed`, `_fini`, `_oneshot_ex`).
-/
namespace WS.Props
open WS WS.Conf WS.Sax WS.Time WS.ConfNum WS.LT WS.Spec.LT

section
variable (H : Host) (tail : Tail) (json : Option Config) (w : World) (cs : List (List Byte))

theorem init_refused (f : LoadFlags) (h : ¬ (f.fini = false ∧ (json.getD defaultJson).maxKeyLen ≤ 32)) :
    ∃ e, use H tail f json w cs = { world := w, res := some e } ∧ ∀ g : LoadFlags, g.fini = f.fini → use H tail g json w cs = { world := w, res := some e } := by
  have : ∃ e, ∀ g : LoadFlags, g.fini = f.fini → use H tail g json w cs = { world := w, res := some e } := by
    by_cases hk : (json.getD defaultJson).maxKeyLen > 32
    · refine ⟨.numericArgTooBig, fun g _ => ?_⟩
      unfold use initLoad
      simp only [if_pos hk]
    · refine ⟨.invalidArg, fun g hg => ?_⟩
      have hf : g.fini = true := by
        rw [hg]
        cases hf : f.fini with
        | true => rfl
        | false => exact absurd ⟨hf, by omega⟩ h
      unfold use initLoad
      simp only [if_neg hk, if_pos hf]
  obtain ⟨e, he⟩ := this
  exact ⟨e, he f rfl, he⟩

theorem sameLabel_some {l : List Event} {e : Event} : (sameLabel l e).isSome = true ↔ ∃ x ∈ l, x.label = e.label := by
  unfold sameLabel
  rw [List.find?_isSome]
  simp only [beq_iff_eq]

theorem dfltKnown_iff (c : Cx) : dfltKnown c = true ↔ DefaultThere c := by
  unfold dfltKnown DefaultThere
  cases h : c.routes.defaultEvent with
  | none => simp
  | some e => simp only [sameLabel_some, Option.some.injEq, forall_eq']

theorem eventKnown_iff (c : Cx) (r : Route) : eventKnown c r = true ↔ EventThere c r := by
  unfold eventKnown EventThere
  cases h : r.event with
  | none => simp
  | some e => simp only [sameLabel_some, Option.some.injEq, forall_eq']

theorem whole_iff (f : LoadFlags) (c : Cx) : cloneable f.how c = true ↔ Whole f c := by
  unfold cloneable LoadFlags.how Whole
  cases f.noFlush
  · cases f.onlyRoutes
    · simp
    · simp [dfltKnown_iff]
  · simp [dfltKnown_iff, eventKnown_iff, Bool.and_eq_true, List.all_eq_true]

theorem init_unclonable (f : LoadFlags) (h1 : f.fini = false) (h2 : (json.getD defaultJson).maxKeyLen ≤ 32) (hc : f.onClone = true)
    (hw : ¬ Whole f w.cx) :
    use H tail f json w cs = { world := { w with ran := w.ran ++ cloneUndo H.acts f.how w.cx }, res := some .itemNotFound } := by
  unfold use initLoad
  have hn : (f.onClone && !cloneable f.how w.cx) = true := by
    rw [hc, Bool.true_and]
    cases hx : cloneable f.how w.cx
    · rfl
    · exact absurd ((whole_iff f w.cx).1 hx) hw
  simp only [if_neg (show ¬ (json.getD defaultJson).maxKeyLen > 32 by omega), h1, Bool.false_eq_true, if_false, if_pos hn]

/-- What a load on a clone that is not committed leaves. -/
theorem dropped (f : LoadFlags) (ret : Int) (hc : f.onClone = true) (h : ret < 0 ∨ f.dryRun = true) :
    let R := loaded H tail f json (Draft f w).cx.config (Draft f w) cs
    (ending H f w.cx ret R.user).1.cx = w.cx ∧ (ending H f w.cx ret R.user).1.ran = w.ran ∧
      (ending H f w.cx ret R.user).2 = if ret < 0 then some (sessionErr R.user.2) else none := by
  intro R
  have hi := draft_inh H tail f json w cs
  have hr : (contextFree H.acts R.user.1).ran = w.ran := by
    rw [contextFree_inh _ hi.inh, hi.ran]; rfl
  unfold ending
  by_cases hn : ret < 0
  · rw [if_pos hn, if_pos hc, if_pos hn]; exact ⟨rfl, hr, rfl⟩
  · rcases h with h | h
    · exact absurd h hn
    · rw [if_neg hn, if_pos h, if_neg hn]; exact ⟨rfl, hr, rfl⟩

/-- C83: a dry run — whatever the other flags, the text, its chunks and the outcome — changes nothing in the context; and it runs no
handler, if the context can be cloned. -/
theorem C83_dry_run (f : LoadFlags) (hd : f.dryRun = true) :
    (use H tail f json w cs).world.cx = w.cx ∧ (Whole f w.cx → (use H tail f json w cs).world.ran = w.ran) := by
  by_cases h : f.fini = false ∧ (json.getD defaultJson).maxKeyLen ≤ 32
  · have hc : f.onClone = true := by unfold LoadFlags.onClone; rw [hd]; rfl
    by_cases hw : Whole f w.cx
    · have hu := use_eq H tail f h.1 json h.2 w (fun _ => (whole_iff f w.cx).2 hw) cs
      simp only [hc, if_true] at hu
      have := dropped H tail json w cs f (loaded H tail f json (Draft f w).cx.config (Draft f w) cs).ret hc (.inr hd)
      rw [hu.1]
      exact ⟨this.1, fun _ => this.2.1⟩
    · rw [init_unclonable H tail json w cs f h.1 h.2 hc hw]
      exact ⟨rfl, fun h => absurd h hw⟩
  · obtain ⟨e, he, _⟩ := init_refused H tail json w cs f h
    rw [he]; exact ⟨rfl, fun _ => rfl⟩

/-- C83: a dry run predicts LOAD_THEN_COMMIT: every feed returns the same; if the dry run fails, so does the load, with the same
error, and the context is as before and no handler has run. -/
theorem C83_all_or_nothing (f : LoadFlags) (hc : f.thenCommit = true) (e : Err)
    (h : (use H tail { f with dryRun := true } json w cs).res = some e) :
    (use H tail f json w cs).res = some e ∧ (use H tail f json w cs).world.cx = w.cx ∧
      (Whole f w.cx → (use H tail f json w cs).world.ran = w.ran) := by
  by_cases hok : f.fini = false ∧ (json.getD defaultJson).maxKeyLen ≤ 32
  · have hcl : f.onClone = true := by unfold LoadFlags.onClone; rw [hc, Bool.or_true]
    have hcl' : ({ f with dryRun := true } : LoadFlags).onClone = true := rfl
    by_cases hw : Whole f w.cx
    rotate_left
    · rw [init_unclonable H tail json w cs { f with dryRun := true } hok.1 hok.2 hcl' hw] at h
      rw [init_unclonable H tail json w cs f hok.1 hok.2 hcl hw]
      exact ⟨h, rfl, fun h => absurd h hw⟩
    have hu := use_eq H tail f hok.1 json hok.2 w (fun _ => (whole_iff f w.cx).2 hw) cs
    have hv := use_eq H tail { f with dryRun := true } hok.1 json hok.2 w (fun _ => (whole_iff f w.cx).2 hw) cs
    simp only [hcl, hcl', if_true] at hu hv
    have e1 : loaded H tail { f with dryRun := true } json (Draft { f with dryRun := true } w).cx.config (Draft { f with dryRun := true } w) cs =
        loaded H tail f json (Draft f w).cx.config (Draft f w) cs := rfl
    rw [e1] at hv
    have hv2 := (dropped H tail json w cs { f with dryRun := true } (loaded H tail f json (Draft f w).cx.config (Draft f w) cs).ret rfl (.inr rfl)).2.2
    rw [e1] at hv2
    rw [hv.2.1, hv2] at h
    split at h
    · rename_i hn
      have := dropped H tail json w cs f (loaded H tail f json (Draft f w).cx.config (Draft f w) cs).ret hcl (.inl hn)
      rw [hu.1, hu.2.1]
      refine ⟨?_, this.1, fun _ => this.2.1⟩
      rw [this.2.2, if_pos hn]; exact h
    · cases h
  · obtain ⟨e', he, hg⟩ := init_refused H tail json w cs f hok
    rw [hg { f with dryRun := true } rfl] at h
    rw [he]
    exact ⟨h, rfl, fun _ => rfl⟩

/-- C83: the feeds of a LOAD_THEN_COMMIT return what those of a dry run return. -/
theorem C83_dry_run_feeds (f : LoadFlags) (hc : f.thenCommit = true) :
    (use H tail { f with dryRun := true } json w cs).fed = (use H tail f json w cs).fed := by
  have hfl : ∀ (cs : List (List Byte)) (s s' : Session), s'.json = s.json → s'.parser = s.parser → s'.flags.fini = s.flags.fini →
      (feeds H tail s' cs).2 = (feeds H tail s cs).2 := by
    intro cs
    induction cs with
    | nil => intros; rfl
    | cons c cs ih =>
      intro s s' h1 h2 h3
      simp only [feeds]
      have hx : (feedLoad H tail s' c).2 = (feedLoad H tail s c).2 ∧ (feedLoad H tail s' c).1.json = (feedLoad H tail s c).1.json ∧
          (feedLoad H tail s' c).1.parser = (feedLoad H tail s c).1.parser ∧
          (feedLoad H tail s' c).1.flags.fini = (feedLoad H tail s c).1.flags.fini := by
        unfold feedLoad
        rw [h1, h2, h3]
        cases s.flags.fini
        · simp only [Bool.false_eq_true, if_false]
          split
          · exact ⟨rfl, rfl, rfl, rfl⟩
          · exact ⟨rfl, rfl, rfl, h3⟩
        · exact ⟨rfl, h1, h2, h3⟩
      rw [hx.1, ih _ _ hx.2.1 hx.2.2.1 hx.2.2.2]
  have hi : ∀ g : LoadFlags, g.fini = f.fini → g.onClone = true → g.how = f.how → g.noRules = f.noRules →
      (match (initLoad H g json w).2 with | .ok s => some (s.json, s.parser, s.flags.fini) | .error _ => none) =
      (match (initLoad H { f with dryRun := true } json w).2 with | .ok s => some (s.json, s.parser, s.flags.fini) | .error _ => none) := by
    intro g h1 h2 h3 h4
    have hcl' : ({ f with dryRun := true } : LoadFlags).onClone = true := rfl
    have hhow : ({ f with dryRun := true } : LoadFlags).how = f.how := rfl
    unfold initLoad
    simp only [h1, h2, h3, h4, hcl', hhow, if_true, true_or]
    by_cases c1 : (json.getD defaultJson).maxKeyLen > 32
    · simp only [if_pos c1]
    · simp only [if_neg c1]
      by_cases c2 : f.fini = true
      · simp only [if_pos c2]
      · simp only [if_neg c2]
        by_cases c3 : (true && !cloneable f.how w.cx) = true
        · simp only [if_pos c3]
        · simp only [if_neg c3, h1]
  have := hi f rfl (by unfold LoadFlags.onClone; rw [hc, Bool.or_true]) rfl rfl
  unfold use
  rcases hA : initLoad H f json w with ⟨wa, ea | sa⟩ <;> rcases hB : initLoad H { f with dryRun := true } json w with ⟨wb, eb | sb⟩ <;>
    rw [hA, hB] at this <;> simp only at this ⊢
  · cases this
  · cases this
  · injection this with this
    injection this with t1 t2
    injection t2 with t2 t3
    exact hfl cs sa sb t1.symm t2.symm t3.symm

/-- C83: what the clone of a load is (the loader then reads the document into it). -/
theorem C83_draft (f : LoadFlags) : DraftOf f w.cx (Draft f w).cx := by
  have hfold : ∀ (l : List Route) (T : RouteTable), (l.foldl noteClone T).ents = T.ents ∧ (l.foldl noteClone T).defaultPolicy = T.defaultPolicy ∧
      (l.foldl noteClone T).defaultEvent = T.defaultEvent ∧ (l.foldl noteClone T).fallthroughRoute = T.fallthroughRoute ∧
      (l.foldl noteClone T).maxPurgeableRoutes = T.maxPurgeableRoutes := by
    intro l
    induction l with
    | nil => intro T; exact ⟨rfl, rfl, rfl, rfl, rfl⟩
    | cons r l ih =>
      intro T
      rw [List.foldl_cons]
      obtain ⟨h1, h2, h3, h4, h5⟩ := ih (noteClone T r)
      have hn : (noteClone T r).ents = T.ents ∧ (noteClone T r).defaultPolicy = T.defaultPolicy ∧ (noteClone T r).defaultEvent = T.defaultEvent ∧
          (noteClone T r).fallthroughRoute = T.fallthroughRoute ∧ (noteClone T r).maxPurgeableRoutes = T.maxPurgeableRoutes := by
        unfold noteClone RouteTable.purgeInsert
        simp only
        repeat' split
        all_goals exact ⟨rfl, rfl, rfl, rfl, rfl⟩
      exact ⟨h1.trans hn.1, h2.trans hn.2.1, h3.trans hn.2.2.1, h4.trans hn.2.2.2.1, h5.trans hn.2.2.2.2⟩
  have hw : ∀ c : CfgInt, WithInhibit true c { c with config := { c.config with cfgFlags := c.config.cfgFlags ||| EF.INHIBIT_ACTIONS } } := by
    intro c
    refine ⟨rfl, fun k hk => ?_⟩
    have hb : ∀ k : Fin 32, (EF.INHIBIT_ACTIONS : Flags).getLsbD k.val = decide (k.val = 2) := by decide
    show (c.config.cfgFlags ||| EF.INHIBIT_ACTIONS).getLsbD k = _
    rw [BitVec.getLsbD_or, hb ⟨k, hk⟩]
    split
    · rename_i h; simp [h]
    · rename_i h; simp [h]
  unfold Draft LoadFlags.how
  cases h1 : f.noFlush
  · cases h2 : f.onlyRoutes
    · constructor <;> simp only [h1, h2, Bool.or_self, Bool.false_eq_true, if_false] <;> first | exact hw _ | rfl
    · constructor <;> simp only [h1, h2, Bool.or_true, Bool.false_eq_true, if_false, if_true] <;> first | exact hw _ | rfl
  · have hk := hfold w.cx.routes.ents { maxPurgeableRoutes := w.cx.routes.maxPurgeableRoutes, defaultPolicy := w.cx.routes.defaultPolicy, defaultEvent := w.cx.routes.defaultEvent.bind (sameLabel w.cx.events), fallthroughRoute := w.cx.routes.fallthroughRoute, ents := w.cx.routes.ents, highestPriority := w.cx.routes.highestPriority }
    constructor <;> simp only [h1, Bool.true_or, if_true] <;> first | exact hw _ | rfl | exact hk.1 | exact hk.2.1 | exact hk.2.2.1 | exact hk.2.2.2.1 | exact hk.2.2.2.2

/-- When the dry run succeeds: the pieces of the commit. -/
theorem committed (f : LoadFlags) (hd : f.dryRun = false) (hc : f.thenCommit = true)
    (h : (use H tail { f with dryRun := true } json w cs).res = none) :
    let R := loaded H tail f json (Draft f w).cx.config (Draft f w) cs
    let p := preCommit f w.cx R.user.1.cx
    let q := bulkInsertActions p.global H.acts p.routes 0
    0 ≤ R.ret ∧ (use H tail f json w cs).world.cx = { p with routes := q.1 } ∧ (use H tail f json w cs).res = q.2.2.1 ∧
    ∃ D I n, (use H tail f json w cs).world.ran = w.ran ++ (if f.noFlush then I ++ D else D ++ I) ∧
      RunsOf H.acts .delete (DeleteDue H.acts w.cx.global) w.cx.routes.ents D ∧
      RunsOf H.acts .insert (dueOf H.acts p.global .insert) (p.routes.ents.take n) I ∧ (q.2.2.1 = none → p.routes.ents.take n = p.routes.ents) := by
  by_cases hok : f.fini = false ∧ (json.getD defaultJson).maxKeyLen ≤ 32
  · intro R p q
    have hcl : f.onClone = true := by unfold LoadFlags.onClone; rw [hc, Bool.or_true]
    have hcl' : ({ f with dryRun := true } : LoadFlags).onClone = true := rfl
    have hw : Whole f w.cx := by
      by_cases hw : Whole f w.cx
      · exact hw
      · rw [init_unclonable H tail json w cs { f with dryRun := true } hok.1 hok.2 hcl' hw] at h; cases h
    have hu := use_eq H tail f hok.1 json hok.2 w (fun _ => (whole_iff f w.cx).2 hw) cs
    have hv := use_eq H tail { f with dryRun := true } hok.1 json hok.2 w (fun _ => (whole_iff f w.cx).2 hw) cs
    simp only [hcl, hcl', if_true] at hu hv
    have e1 : loaded H tail { f with dryRun := true } json (Draft { f with dryRun := true } w).cx.config (Draft { f with dryRun := true } w) cs = R := rfl
    rw [e1] at hv
    have hv2 := (dropped H tail json w cs { f with dryRun := true } R.ret rfl (.inr rfl)).2.2
    rw [e1] at hv2
    rw [hv.2.1, hv2] at h
    have hret : 0 ≤ R.ret := by
      by_cases hn : R.ret < 0
      · rw [if_pos hn] at h; cases h
      · omega
    have hi := draft_inh H tail f json w cs
    have hD := C83_draft w f
    have he := ending_commit H f hd hc w.cx R.ret hret R.user (hi.hpi.trans hD.hpi) (hi.mkid.trans hD.mkIdCb)
    simp only at he
    rw [hu.1, hu.2.1]
    obtain ⟨h1, h2, D, I, n, h3, h4⟩ := he
    refine ⟨hret, h1, h2, D, I, n, ?_, h4⟩
    have hran : R.user.1.ran = w.ran := hi.ran
    refine h3.trans ?_
    rw [hran]
  · obtain ⟨e', he, hg⟩ := init_refused H tail json w cs f hok
    rw [hg { f with dryRun := true } rfl] at h
    cases h

/-- Two lists of rules, rule by rule. -/
def RuleByRule (R : Route → Route → Prop) (a b : List Route) : Prop :=
  a.length = b.length ∧ ∀ (i : Nat) x y, a[i]? = some x → b[i]? = some y → R x y

theorem bulk_ruleByRule {g : EventConfig} {A : RuleActs} (hA : A.Keeps) : ∀ (l : List Route) (a : Flags), RuleByRule KeepsKey l (bulkInsertLoop g A l a).1 := by
  intro l
  induction l with
  | nil => intro a; exact ⟨rfl, fun i x y h => by cases h⟩
  | cons r l ih =>
    intro a
    have hk := insertActions_keeps hA g r a
    have go : ∀ l', RuleByRule KeepsKey l l' → RuleByRule KeepsKey (r :: l) ((insertActions g A r a).st :: l') := by
      intro l' h
      refine ⟨by rw [List.length_cons, List.length_cons, h.1], fun i x y h1 h2 => ?_⟩
      cases i with
      | zero => injection h1 with h1; injection h2 with h2; rw [← h1, ← h2]; exact hk
      | succ i => exact h.2 i x y h1 h2
    unfold bulkInsertLoop
    simp only
    split
    · split
      · exact go _ (ih _)
      · exact go _ ⟨rfl, fun i x y h1 h2 => by rw [h1] at h2; injection h2 with h2; rw [h2]; exact KeepsKey.refl y⟩
    · exact go _ (ih _)

/-- C83: when the dry run succeeds, LOAD_THEN_COMMIT replaces the contents of the context: the document has been read into the clone
without error, and events, actions, user values, ID generator and table settings are those of the loaded clone; so is the configuration, with actions
enabled; the rules are those of the clone, one for one (with the metadata carried over, C48). -/
theorem C83_commit_contents (f : LoadFlags) (hd : f.dryRun = false) (hc : f.thenCommit = true)
    (h : (use H tail { f with dryRun := true } json w cs).res = none) :
    let R := loaded H tail f json (Draft f w).cx.config (Draft f w) cs
    let L := R.user.1.cx
    let c := (use H tail f json w cs).world.cx
    0 ≤ R.ret ∧ c.hpi = w.cx.hpi ∧ c.mkIdCb = w.cx.mkIdCb ∧ c.idState = L.idState ∧ c.events = L.events ∧ c.actions = L.actions ∧ c.values = L.values ∧
    c.config0 = w.cx.config0 ∧ WithInhibit false L.config c.config ∧
    c.routes = { L.routes with ents := c.routes.ents } ∧
    (H.acts.Keeps → RuleByRule (fun x y => y.id = x.id ∧ y.event = x.event ∧ y.family = x.family ∧ y.proto = x.proto ∧ y.remote = x.remote ∧ y.loc = x.loc)
      L.routes.ents c.routes.ents) := by
  intro R L c
  obtain ⟨h0, h1, h2, h3⟩ := committed H tail json w cs f hd hc h
  have hi := draft_inh H tail f json w cs
  have hD := C83_draft w f
  have hroutes : ∀ A B : RouteTable, staged f A B = { B with ents := (staged f A B).ents } := by
    intro A B; unfold staged; split <;> rfl
  have hkeep : RuleByRule (fun x y => y.id = x.id ∧ y.event = x.event ∧ y.family = x.family ∧ y.proto = x.proto ∧ y.remote = x.remote ∧ y.loc = x.loc)
      L.routes.ents (staged f w.cx.routes L.routes).ents := by
    have hc : ∀ (fs ts : List Route), RuleByRule (fun x y => y.id = x.id ∧ y.event = x.event ∧ y.family = x.family ∧ y.proto = x.proto ∧ y.remote = x.remote ∧ y.loc = x.loc) ts (copyMetaLoop fs ts) := by
      intro fs ts
      have hcons : ∀ (t t' : Route) (l l' : List Route), (t'.id = t.id ∧ t'.event = t.event ∧ t'.family = t.family ∧ t'.proto = t.proto ∧ t'.remote = t.remote ∧ t'.loc = t.loc) →
          RuleByRule (fun x y => y.id = x.id ∧ y.event = x.event ∧ y.family = x.family ∧ y.proto = x.proto ∧ y.remote = x.remote ∧ y.loc = x.loc) l l' →
          RuleByRule (fun x y => y.id = x.id ∧ y.event = x.event ∧ y.family = x.family ∧ y.proto = x.proto ∧ y.remote = x.remote ∧ y.loc = x.loc) (t :: l) (t' :: l') := by
        intro t t' l l' ht h
        refine ⟨by rw [List.length_cons, List.length_cons, h.1], fun i x y h1 h2 => ?_⟩
        cases i with
        | zero => injection h1 with h1; injection h2 with h2; rw [← h1, ← h2]; exact ht
        | succ i => exact h.2 i x y h1 h2
      induction hn : fs.length + ts.length using Nat.strongRecOn generalizing fs ts with
      | ind n ih =>
        subst hn
        unfold copyMetaLoop
        split
        · exact ⟨rfl, fun i x y h1 h2 => by rw [h1] at h2; injection h2 with h2; rw [h2]; exact ⟨rfl, rfl, rfl, rfl, rfl, rfl⟩⟩
        · exact ⟨rfl, fun i x y h => by cases h⟩
        · rename_i f fs t ts
          split
          · exact hcons _ _ _ _ ⟨rfl, rfl, rfl, rfl, rfl, rfl⟩ (ih (fs.length + ts.length) (by simp only [List.length_cons]; omega) fs ts rfl)
          · split
            · exact ih (fs.length + (t :: ts).length) (by simp only [List.length_cons]; omega) fs (t :: ts) rfl
            · exact hcons _ _ _ _ ⟨rfl, rfl, rfl, rfl, rfl, rfl⟩ (ih ((f :: fs).length + ts.length) (by simp only [List.length_cons]; omega) (f :: fs) ts rfl)
            · exact hcons _ _ _ _ ⟨rfl, rfl, rfl, rfl, rfl, rfl⟩ (ih (fs.length + ts.length) (by simp only [List.length_cons]; omega) fs ts rfl)
    unfold staged
    split
    · exact hc _ _
    · have := hc w.cx.routes.ents L.routes.ents
      refine ⟨by show L.routes.ents.length = ((copyMetaLoop w.cx.routes.ents L.routes.ents).map _).length; rw [List.length_map]; exact this.1, fun i x y h1 h2 => ?_⟩
      have h2 : ((copyMetaLoop w.cx.routes.ents L.routes.ents).map (fun r : Route => ({ r with flags := r.flags &&& ~~~RF.INSERT_ACTIONS_CALLED } : Route)))[i]? = some y := h2
      rw [List.getElem?_map] at h2
      obtain ⟨z, hz, rfl⟩ := Option.map_eq_some_iff.1 h2
      exact this.2 i x z h1 hz
  have hc0 : c = { preCommit f w.cx L with routes := (bulkInsertActions (preCommit f w.cx L).global H.acts (preCommit f w.cx L).routes 0).1 } := h1
  rw [hc0]
  refine ⟨h0, rfl, rfl, rfl, rfl, rfl, rfl, hi.cfg0.trans hD.config0, ⟨rfl, fun k hk => ?_⟩, ?_, ?_⟩
  · have hb : ∀ k : Fin 32, (~~~EF.INHIBIT_ACTIONS : Flags).getLsbD k.val = decide (k.val ≠ 2) := by decide
    show (L.config.config.cfgFlags &&& ~~~EF.INHIBIT_ACTIONS).getLsbD k = _
    rw [BitVec.getLsbD_and, hb ⟨k, hk⟩]
    split
    · rename_i e; simp [e]
    · rename_i e; simp [e]
  · show ({ staged f w.cx.routes L.routes with ents := _ } : RouteTable) = _
    conv => lhs; rw [hroutes]
    rfl
  · intro hA
    have hb := bulk_ruleByRule (g := (preCommit f w.cx L).global) hA (staged f w.cx.routes L.routes).ents 0
    refine ⟨hkeep.1.trans hb.1, fun i x y h1 h2 => ?_⟩
    have hlt : i < (staged f w.cx.routes L.routes).ents.length := by
      rw [← hkeep.1]; exact (List.getElem?_eq_some_iff.1 h1).1
    have hz := List.getElem?_eq_getElem hlt
    have k1 := hkeep.2 i x _ h1 hz
    have k2 := hb.2 i _ y hz h2
    exact ⟨k2.id.trans k1.1, k2.event.trans k1.2.1, k2.family.trans k1.2.2.1, k2.proto.trans k1.2.2.2.1, k2.remote.trans k1.2.2.2.2.1, k2.loc.trans k1.2.2.2.2.2⟩

/-- C83: the handlers a successful LOAD_THEN_COMMIT runs, unless NO_FLUSH is given: the delete handlers of the rules that were in
the context, in table order, then the insert handlers of the loaded rules, in table order; none for a rule whose event is muted. -/
theorem C83_commit_handlers_partial (f : LoadFlags) (hd : f.dryRun = false) (hc : f.thenCommit = true) (hn : f.noFlush = false)
    (h : (use H tail { f with dryRun := true } json w cs).res = none) :
    let L := (loaded H tail f json (Draft f w).cx.config (Draft f w) cs).user.1.cx
    ∃ D I n, (use H tail f json w cs).world.ran = w.ran ++ D ++ I ∧
      RunsOf H.acts .delete (DeleteDue H.acts w.cx.global) w.cx.routes.ents D ∧
      RunsOf H.acts .insert (InsertDue H.acts) (L.routes.ents.take n) I ∧
      ((use H tail f json w cs).res = none → L.routes.ents.take n = L.routes.ents) := by
  intro L
  obtain ⟨h0, h1, h2, D, I, n, h3, h4, h5, h6⟩ := committed H tail json w cs f hd hc h
  have hg : inhibits (preCommit f w.cx L).global = false := enable_bit _
  have hmap : (preCommit f w.cx L).routes.ents.map (fun r => (r.id, r.event, dueOf H.acts (preCommit f w.cx L).global .insert r)) =
      L.routes.ents.map (fun r => (r.id, r.event, InsertDue H.acts r)) := by
    have hs := staged_map f w.cx.routes L.routes
    have hdue : ∀ r ∈ (preCommit f w.cx L).routes.ents, dueOf H.acts (preCommit f w.cx L).global .insert r = InsertDue H.acts r := by
      intro r hr
      have hr : r ∈ (staged f w.cx.routes L.routes).ents := hr
      have h16 : r.flags.getLsbD 16 = false := by
        unfold staged at hr
        rw [hn] at hr
        simp only [Bool.false_eq_true, if_false] at hr
        obtain ⟨z, _, rfl⟩ := List.mem_map.1 hr
        show (z.flags &&& ~~~RF.INSERT_ACTIONS_CALLED).getLsbD 16 = false
        rw [BitVec.getLsbD_and]
        have : (~~~RF.INSERT_ACTIONS_CALLED : Flags).getLsbD 16 = false := by decide
        rw [this, Bool.and_false]
      unfold dueOf InsertDue
      rw [hg]
      have : r.flags.getLsbD (calledBit .insert) = false := h16
      rw [this]
      simp
    have e1 : (preCommit f w.cx L).routes.ents.map (fun r => (r.id, r.event, dueOf H.acts (preCommit f w.cx L).global .insert r)) =
        (preCommit f w.cx L).routes.ents.map (fun r => (r.id, r.event, InsertDue H.acts r)) :=
      List.map_congr_left (fun r hr => by rw [hdue r hr])
    rw [e1]
    have hfac : ∀ l : List Route, l.map (fun r => (r.id, r.event, InsertDue H.acts r)) =
        (l.map (fun r => (r.id, r.event))).map (fun p => (p.1, p.2, InsertDue H.acts { id := p.1, event := p.2, flags := 0, family := 0, proto := 0, remote := {}, loc := {}, data := {} })) := by
      intro l
      rw [List.map_map]
      apply List.map_congr_left
      intro r _
      rfl
    rw [hfac, hfac]
    exact congrArg _ hs
  refine ⟨D, I, n, ?_, h4, ?_, fun hres => ?_⟩
  · rw [hn] at h3
    rw [h3, List.append_assoc]; rfl
  · refine runsOf_congr h5 ?_
    rw [List.map_take, List.map_take, hmap]
  · have := h6 (by rw [← h2]; exact hres)
    have hl : (preCommit f w.cx L).routes.ents.length = L.routes.ents.length := by
      have := congrArg List.length hmap
      simpa using this
    have h7 := congrArg List.length this
    rw [List.length_take] at h7
    rw [List.take_of_length_le]
    have h8 : min n (preCommit f w.cx L).routes.ents.length = (preCommit f w.cx L).routes.ents.length := h7
    omega

/-- C83: feeding: all chunks accepted, and fini gives the verdict; or accepted up to a chunk that is refused, with the error that fini
repeats, and every later chunk refused as an invalid argument. -/
theorem C83_feeding (f : LoadFlags) (hf : f.fini = false) (hj : (json.getD defaultJson).maxKeyLen ≤ 32) :
    Feeding (use H tail f json w cs).fed (use H tail f json w cs).res := by
  by_cases hw : f.onClone = true ∧ ¬ Whole f w.cx
  · rw [init_unclonable H tail json w cs f hf hj hw.1 hw.2]
    exact .inl fun _ h => by cases h
  have hu := use_eq H tail f hf json hj w (fun h => (whole_iff f w.cx).2 (Classical.byContradiction fun h' => hw ⟨h, h'⟩)) cs
  simp only at hu
  generalize hR : loaded H tail f json _ _ cs = R at hu
  obtain ⟨_, h2, h3⟩ := hu
  rcases h3 with h3 | ⟨hn, n, k, h3⟩
  · exact .inl h3
  · refine .inr ⟨n, k, _, h3, ?_⟩
    rw [h2]
    unfold ending
    rw [if_pos hn]
    split <;> rfl

/-- C83: the flag that marks a finished load, and keys longer than a label, are refused by init, without any effect. -/
theorem C83_init_refuses (f : LoadFlags) (h : f.fini = true ∨ (json.getD defaultJson).maxKeyLen > 32) :
    ∃ e, (use H tail f json w cs) = { world := w, res := some e } := by
  obtain ⟨e, he, _⟩ := init_refused H tail json w cs f (by
    rintro ⟨h1, h2⟩
    rcases h with h | h
    · rw [h1] at h; cases h
    · omega)
  exact ⟨e, he⟩

/-- C83: loading in one go is init, one feed, fini. -/
theorem C83_oneshot (f : LoadFlags) (text : List Byte) :
    oneshot H tail f json w text = ((use H tail f json w [text]).world, (use H tail f json w [text]).res) := by
  unfold oneshot use
  rcases initLoad H f json w with ⟨w', e | s⟩
  · rfl
  · rfl

/-- C83: what a load in place finds: the context flushed as the flags say; the delete handlers of the rules that go have run, in table
order. -/
theorem C83_flush_first (f : LoadFlags) :
    FlushedTo f w.cx (InPlace H f w).cx ∧
    ∃ D, (InPlace H f w).ran = w.ran ++ D ∧
      RunsOf H.acts .delete (DeleteDue H.acts w.cx.global) (if f.noFlush then [] else w.cx.routes.ents) D := by
  have hset : ∀ (g : EventConfig) (A : RuleActs) (T : RouteTable) (a : Flags), (LT.flush g A T a).1.defaultPolicy = T.defaultPolicy ∧
      (LT.flush g A T a).1.defaultEvent = T.defaultEvent ∧ (LT.flush g A T a).1.fallthroughRoute = T.fallthroughRoute ∧
      (LT.flush g A T a).1.maxPurgeableRoutes = T.maxPurgeableRoutes ∧ (LT.flush g A T a).1.maxPurgeableIdleTime = T.maxPurgeableIdleTime := by
    intro g A T a
    have hd : ∀ (T : RouteTable) (r : Route) (a : Flags), (delete0 g A T r a false).1 = T.removeRule r := by
      intro T r a; unfold delete0; rw [if_neg (by simp)]
    have key : ∀ (l : List Route) (x : RouteTable × Flags × List Ran),
        let y := (l.foldl (fun (x : RouteTable × Flags × List Ran) r =>
          let ares := x.2.1 &&& ~~~AR.STOP
          let d := delete0 g A x.1 r ares false
          (d.1, d.2.1, x.2.2 ++ deleteRuns g A r ares)) x).1
        y.defaultPolicy = x.1.defaultPolicy ∧ y.defaultEvent = x.1.defaultEvent ∧ y.fallthroughRoute = x.1.fallthroughRoute ∧
          y.maxPurgeableRoutes = x.1.maxPurgeableRoutes ∧ y.maxPurgeableIdleTime = x.1.maxPurgeableIdleTime := by
      intro l
      induction l with
      | nil => intro x; exact ⟨rfl, rfl, rfl, rfl, rfl⟩
      | cons r l ih =>
        intro x
        have := ih ((delete0 g A x.1 r (x.2.1 &&& ~~~AR.STOP) false).1, (delete0 g A x.1 r (x.2.1 &&& ~~~AR.STOP) false).2.1, x.2.2 ++ deleteRuns g A r (x.2.1 &&& ~~~AR.STOP))
        simp only [hd] at this ⊢
        rw [List.foldl_cons]
        exact this
    exact key T.ents (T, a, [])
  have hs := hset w.cx.global H.acts w.cx.routes 0
  have he := LT.flush_empty w.cx.global H.acts w.cx.routes 0
  have hr := flush_runs w.cx.global H.acts w.cx.routes 0
  unfold InPlace
  cases h1 : f.noFlush
  · cases h2 : f.onlyRoutes
    · refine ⟨?_, ?_⟩
      · constructor <;> simp only [h1, h2, Bool.or_self, Bool.false_eq_true, if_false] <;>
          first | rfl | exact he | exact hs.1 | exact hs.2.1 | exact hs.2.2.1 | exact hs.2.2.2.1 | exact hs.2.2.2.2
      · exact ⟨_, rfl, hr⟩
    · refine ⟨?_, ?_⟩
      · constructor <;> simp only [h1, h2, Bool.or_true, Bool.false_eq_true, if_false, if_true] <;>
          first | rfl | exact he | exact hs.1 | exact hs.2.1 | exact hs.2.2.1 | exact hs.2.2.2.1 | exact hs.2.2.2.2
      · exact ⟨_, rfl, hr⟩
  · refine ⟨?_, [], by simp, .nil⟩
    constructor <;> simp only [h1, Bool.true_or, if_true] <;> rfl

/-- C83: a load in place leaves exactly what reading the document into that context makes of it, whether it succeeds or not, and fails
when the document does. -/
theorem C83_in_place (f : LoadFlags) (hd : f.dryRun = false) (hc : f.thenCommit = false) (hf : f.fini = false)
    (hj : (json.getD defaultJson).maxKeyLen ≤ 32) :
    let R := loaded H tail f json w.cx.config (InPlace H f w) cs
    (use H tail f json w cs).world = R.user.1 ∧ ((use H tail f json w cs).res = none ↔ 0 ≤ R.ret) := by
  intro R
  have hcl : f.onClone = false := by unfold LoadFlags.onClone; rw [hd, hc]; rfl
  have hu := use_eq H tail f hf json hj w (fun h => by rw [hcl] at h; cases h) cs
  simp only [hcl, Bool.false_eq_true, if_false] at hu
  rw [hu.1, hu.2.1]
  unfold ending
  by_cases hn : R.ret < 0
  · simp only [R] at hn
    rw [if_pos hn, hcl]
    exact ⟨rfl, by simp only [R]; constructor
                   · intro h; cases h
                   · intro h; omega⟩
  · have hn' := hn
    simp only [R] at hn'
    rw [if_neg hn', hd, hc]
    refine ⟨rfl, ?_⟩
    constructor
    · intro _; omega
    · intro _; rfl

/-! ### Findings -/

/-- C83, finding: a LOAD_THEN_COMMIT that flushes everything leaves every event it loaded that has a configuration of its own ("config"
in the document) inhibited for good: the loader starts such a configuration from that of the clone, whose actions are inhibited
during the load (load_config.c:1104, 1803, 1823), and the commit enables only the context's. -/
theorem C83_finding_loaded_events_muted (f : LoadFlags) (hd : f.dryRun = false) (hc : f.thenCommit = true) (hn : f.noFlush = false)
    (ho : f.onlyRoutes = false) (h : (use H tail { f with dryRun := true } json w cs).res = none) :
    ∀ e ∈ (use H tail f json w cs).world.cx.events, ∀ c, e.config = some c → inhibits c = true := by
  have hD := C83_draft w f
  have hk := draft_keeps H tail f json (fun _ => False) w cs (by
    refine ⟨?_, ?_, ?_⟩
    · rw [hD.events, hn, ho]; intro e he; cases he
    · intro x hx; rw [hD.rules, hn] at hx; cases hx
    · intro e he; rw [hD.event, hn, ho] at he; cases he)
  have hcc := C83_commit_contents H tail json w cs f hd hc h
  intro e he c hec
  rw [hcc.2.2.2.2.1] at he
  rcases hk.evs.tbl e he with h1 | h1
  · exact absurd h1 id
  · exact h1 c hec

/-- C83, finding: so no insert handler is run for a loaded rule whose event has a configuration of its own. -/
theorem C83_finding_muted_rules (f : LoadFlags) (hn : f.noFlush = false) (ho : f.onlyRoutes = false) :
    ∀ r ∈ (loaded H tail f json (Draft f w).cx.config (Draft f w) cs).user.1.cx.routes.ents, ∀ e c, r.event = some e → e.config = some c →
      InsertDue H.acts r = false := by
  have hD := C83_draft w f
  have hk := draft_keeps H tail f json (fun _ => False) w cs (by
    refine ⟨?_, ?_, ?_⟩
    · rw [hD.events, hn, ho]; intro e he; cases he
    · intro x hx; rw [hD.rules, hn] at hx; cases hx
    · intro e he; rw [hD.event, hn, ho] at he; cases he)
  intro r hr e c he hec
  rcases hk.evs.rules r hr e he with h1 | h1
  · exact absurd h1 id
  · have h2 : inhibits c = true := h1 c hec
    unfold InsertDue Muted
    rw [he]
    simp only [hec, h2, Bool.not_true, Bool.and_false]

/-- C83, finding: with NO_FLUSH the commit runs the delete handlers of all rules that were in the context, although the context still
has them (they are run for the old copies when the clone is freed, load_config.c:1990, 2004); and after the insert handlers. -/
theorem C83_finding_no_flush_delete_handlers (f : LoadFlags) (hd : f.dryRun = false) (hc : f.thenCommit = true) (hn : f.noFlush = true)
    (h : (use H tail { f with dryRun := true } json w cs).res = none) :
    ∃ I D, (use H tail f json w cs).world.ran = w.ran ++ I ++ D ∧ RunsOf H.acts .delete (DeleteDue H.acts w.cx.global) w.cx.routes.ents D := by
  obtain ⟨_, _, _, D, I, n, h3, h4, _⟩ := committed H tail json w cs f hd hc h
  rw [hn] at h3
  exact ⟨I, D, by rw [h3, List.append_assoc]; rfl, h4⟩

/-- C83, finding: a commit enables actions in the context, also when the user had inhibited them. -/
theorem C83_finding_commit_enables (f : LoadFlags) (hd : f.dryRun = false) (hc : f.thenCommit = true)
    (h : (use H tail { f with dryRun := true } json w cs).res = none) : inhibits (use H tail f json w cs).world.cx.global = false := by
  have hcc := C83_commit_contents H tail json w cs f hd hc h
  have := hcc.2.2.2.2.2.2.2.2.1.2 2 (by decide)
  exact this

/-- C83, finding: a load on a clone — a dry run too — is refused before it starts when the events the clone needs are not all there (a
deleted event that rules or the default still refer to); the context is as before, but delete handlers of rules that are in it have
run: those of the rules copied before the one that cannot be (load_config.c:1800-1805). -/
theorem C83_finding_clone_fails (f : LoadFlags) (hf : f.fini = false) (hj : (json.getD defaultJson).maxKeyLen ≤ 32) (hc : f.onClone = true)
    (hw : ¬ Whole f w.cx) :
    (use H tail f json w cs).res = some .itemNotFound ∧ (use H tail f json w cs).world.cx = w.cx ∧
    ∃ n D, (use H tail f json w cs).world.ran = w.ran ++ D ∧ RunsOf H.acts .delete (DeleteDue H.acts w.cx.global) (w.cx.routes.ents.take n) D ∧
      (n = 0 ∨ f.noFlush = true ∧ DefaultThere w.cx ∧ (∀ r ∈ w.cx.routes.ents.take n, EventThere w.cx r) ∧
        ∃ r, w.cx.routes.ents[n]? = some r ∧ ¬ EventThere w.cx r) := by
  rw [init_unclonable H tail json w cs f hf hj hc hw]
  refine ⟨rfl, rfl, ?_⟩
  unfold cloneUndo
  by_cases h : (decide (f.how = .none) && dfltKnown w.cx) = true
  · have h' := h
    rw [Bool.and_eq_true, decide_eq_true_eq, dfltKnown_iff] at h'
    have hn : f.noFlush = true := by
      have := h'.1
      unfold LoadFlags.how at this
      cases hx : f.noFlush with
      | true => rfl
      | false => rw [hx] at this; cases hy : f.onlyRoutes <;> rw [hy] at this <;> cases this
    have hno : ¬ ∀ r ∈ w.cx.routes.ents, EventThere w.cx r := fun ha => hw ⟨fun _ => h'.2, fun _ => ha⟩
    simp only [if_pos h]
    have key : ∀ l : List Route, (¬ ∀ r ∈ l, EventThere w.cx r) → ∃ n, l.takeWhile (eventKnown w.cx) = l.take n ∧ (∀ r ∈ l.take n, EventThere w.cx r) ∧
        ∃ r, l[n]? = some r ∧ ¬ EventThere w.cx r := by
      intro l
      induction l with
      | nil => intro h; exact absurd (fun r hr => by cases hr) h
      | cons r l ih =>
        intro h
        by_cases hr : eventKnown w.cx r = true
        · obtain ⟨n, h1, h2, h3⟩ := ih (fun ha => h fun x hx => by
            rcases List.mem_cons.1 hx with rfl | hx
            · exact (eventKnown_iff _ _).1 hr
            · exact ha x hx)
          refine ⟨n + 1, by rw [List.takeWhile_cons_of_pos hr, h1]; rfl, fun x hx => ?_, h3⟩
          rcases List.mem_cons.1 hx with rfl | hx
          · exact (eventKnown_iff _ _).1 hr
          · exact h2 x hx
        · exact ⟨0, by rw [List.takeWhile_cons_of_neg hr]; rfl, (fun x hx => by cases hx), r, rfl, fun he => hr ((eventKnown_iff _ _).2 he)⟩
    obtain ⟨n, h1, h2, h3⟩ := key w.cx.routes.ents hno
    refine ⟨n, _, rfl, ?_, .inr ⟨hn, h'.2, h2, h3⟩⟩
    rw [← h1]
    exact flush_runs w.cx.global H.acts { ents := w.cx.routes.ents.takeWhile (eventKnown w.cx) } 0
  · simp only [if_neg h]
    exact ⟨0, [], rfl, .nil, .inl rfl⟩

end
/-! ### Non-vacuity and the remaining findings: concrete loads -/

/-- A library on a usual platform: IDs are counted, the clock stands still, user values are appended, handlers do nothing. -/
def txHost : Host where
  plat := { dataOffset := 200, ptrSize := 8 }
  clock := fun _ => .ok 1000
  newId := fun n => .ok (n + 1, n + 1)
  store := fun l k v => .ok (l ++ [(k, v)])
  ext := yesEnv

/-- A context with action "a", event "o" with a delete handler, one rule of that event, a default policy and a default event. -/
def txWorld : World :=
  let o : Event := { label := ascii "o", insertActions := [1], deleteActions := [1] }
  let r : Route := { id := 7, event := some o, flags := RF.IN_TABLE ||| RF.INSERT_ACTIONS_CALLED ||| RF.DIRECTION_IN, family := 2, proto := 6,
                     remote := {}, loc := {}, data := {} }
  { cx := { idState := 10, events := [o], actions := [(ascii "a", 1)],
            routes := { ents := [r], defaultPolicy := AR.REJECT, defaultEvent := some o, fallthroughRoute := some 3 } } }

/-- An event "n" with an insert handler, and a rule of it. -/
def txText : List Byte := ascii
  "{\"wolfsentry-config-version\":1,\"events\":[{\"label\":\"n\",\"priority\":3,\"insert-actions\":[\"a\"]}],\"routes\":[{\"parent-event\":\"n\",\"family\":2,\"direction-in\":true,\"protocol\":6,\"remote\":{\"port\":7}}]}"

/-- The same with a configuration of the event's own. -/
def txOwnConfig : List Byte := ascii
  "{\"wolfsentry-config-version\":1,\"events\":[{\"label\":\"n\",\"priority\":3,\"config\":{\"max-connection-count\":5},\"insert-actions\":[\"a\"]}],\"routes\":[{\"parent-event\":\"n\",\"family\":2,\"direction-in\":true,\"protocol\":6,\"remote\":{\"port\":7}}]}"

/-- A document whose second rule names an event that does not exist. -/
def txBad : List Byte := ascii
  "{\"wolfsentry-config-version\":1,\"routes\":[{\"family\":2,\"direction-in\":true,\"protocol\":6},{\"parent-event\":\"x\",\"family\":2,\"direction-in\":true}]}"

/-- A dry run of the sample succeeds: the hypothesis of the theorems about the commit. -/
example : (use txHost plainTail { dryRun := true } none txWorld [txText]).res = none ∧
    (use txHost plainTail { dryRun := true, thenCommit := true } none txWorld [txText]).res = none ∧
    (use txHost plainTail { dryRun := true, thenCommit := true, noFlush := true } none txWorld [txText]).res = none := by decide +kernel

/-- The commit: the old rule's delete handler, the new rule's insert handler; the context has the new rule and the new event. -/
example : (use txHost plainTail { thenCommit := true } none txWorld [txText]).res = none ∧
    (use txHost plainTail { thenCommit := true } none txWorld [txText]).world.ran = [⟨.delete, 7, [1]⟩, ⟨.insert, 12, [1]⟩] ∧
    (use txHost plainTail { thenCommit := true } none txWorld [txText]).world.cx.routes.ents.map (·.id) = [12] ∧
    (use txHost plainTail { thenCommit := true } none txWorld [txText]).world.cx.events.map (·.label) = [ascii "n"] := by decide +kernel

/-- A refused document: the dry run fails, and so does the load, in the second of three chunks; the third is not looked at. -/
example : (use txHost plainTail { dryRun := true, thenCommit := true } none txWorld [txBad.take 60, txBad.drop 60, [0x20#8]]).res = some .itemNotFound ∧
    (use txHost plainTail { thenCommit := true } none txWorld [txBad.take 60, txBad.drop 60, [0x20#8]]).fed = [none, some .itemNotFound, some .invalidArg] := by
  decide +kernel

/-- A load in place. -/
example : (use txHost plainTail {} none txWorld [txText]).res = none ∧
    (use txHost plainTail {} none txWorld [txText]).world.cx.routes.ents.map (·.id) = [12] ∧
    (use txHost plainTail { noFlush := true } none txWorld [txText]).world.cx.routes.ents.map (·.id) = [7, 12] := by decide +kernel

/-- C83, finding: a load in place that fails has flushed the context and leaves what it had loaded: rules and events are gone, the
first rule of the document is in force. -/
theorem C83_finding_failed_load_in_place :
    (use txHost plainTail {} none txWorld [txBad]).res = some .itemNotFound ∧
    (use txHost plainTail {} none txWorld [txBad]).world.cx.routes.ents.map (·.id) = [11] ∧
    (use txHost plainTail {} none txWorld [txBad]).world.cx.events = [] := by decide +kernel

/-- C83, finding: with its own configuration, a loaded event is muted by LOAD_THEN_COMMIT, and not by a load in place. -/
theorem C83_finding_muted_event :
    (use txHost plainTail { thenCommit := true } none txWorld [txOwnConfig]).res = none ∧
    (use txHost plainTail { thenCommit := true } none txWorld [txOwnConfig]).world.ran = [⟨.delete, 7, [1]⟩] ∧
    (use txHost plainTail {} none txWorld [txOwnConfig]).world.ran = [⟨.delete, 7, [1]⟩, ⟨.insert, 12, [1]⟩] := by decide +kernel

/-- C83, finding: with NO_FLUSH and LOAD_THEN_COMMIT the insert handlers of the loaded rules are never run, because their insertion into
the inhibited clone has marked them as done (src/actions.c:575-623); and the delete handler of the old rule is run although
the rule is still there. -/
theorem C83_finding_no_flush_no_insert_handlers :
    (use txHost plainTail { thenCommit := true, noFlush := true } none txWorld [txText]).res = none ∧
    (use txHost plainTail { thenCommit := true, noFlush := true } none txWorld [txText]).world.cx.routes.ents.map (·.id) = [7, 12] ∧
    (use txHost plainTail { thenCommit := true, noFlush := true } none txWorld [txText]).world.ran = [⟨.delete, 7, [1]⟩] := by decide +kernel

/-- C83, finding: LOAD_THEN_COMMIT loses the default policy, the default event and the fallthrough rule, which a load in place
keeps (src/wolfsentry_util.c:3905-3917 against 3788-3803). -/
theorem C83_finding_policy_lost :
    ((use txHost plainTail { thenCommit := true } none txWorld [txText]).world.cx.routes.defaultPolicy,
     (use txHost plainTail { thenCommit := true } none txWorld [txText]).world.cx.routes.defaultEvent,
     (use txHost plainTail { thenCommit := true } none txWorld [txText]).world.cx.routes.fallthroughRoute) = (0, none, none) ∧
    ((use txHost plainTail {} none txWorld [txText]).world.cx.routes.defaultPolicy,
     (use txHost plainTail {} none txWorld [txText]).world.cx.routes.defaultEvent.map (·.label),
     (use txHost plainTail {} none txWorld [txText]).world.cx.routes.fallthroughRoute) = (AR.REJECT, some (ascii "o"), some 3) := by decide +kernel

/-- Insert handlers that fail. -/
def txFailing : Host := { txHost with acts := { handler := fun t _ r a => (r, a, if t = .insert then some .sysOpFailed else none) } }

/-- C83, finding: an insert handler that fails during the commit makes the load fail, although the context has been replaced. -/
theorem C83_finding_error_after_commit :
    (use txFailing plainTail { thenCommit := true } none txWorld [txText]).res = some .sysOpFailed ∧
    (use txFailing plainTail { thenCommit := true } none txWorld [txText]).world.cx.routes.ents.map (·.id) = [12] ∧
    (use txFailing plainTail { thenCommit := true } none txWorld [txText]).world.cx.events.map (·.label) = [ascii "n"] := by decide +kernel

/-- The dry run did not foresee it: the handlers are not run in it. -/
example : (use txFailing plainTail { dryRun := true, thenCommit := true } none txWorld [txText]).res = none := by decide +kernel

/-- The context with a second rule whose event "x" has been deleted. -/
def txDangling : World :=
  let r : Route := { id := 8, event := some { label := ascii "x" }, flags := RF.IN_TABLE ||| RF.INSERT_ACTIONS_CALLED ||| RF.DIRECTION_IN, family := 2, proto := 17,
                     remote := {}, loc := {}, data := {} }
  { txWorld with cx := { txWorld.cx with routes := { txWorld.cx.routes with ents := txWorld.cx.routes.ents ++ [r] } } }

/-- C83, finding: such a context cannot be cloned, and a dry run of a good document is refused and runs the delete handler of a rule
that stays. -/
theorem C83_finding_dry_run_runs_handlers :
    ¬ Whole { dryRun := true, noFlush := true } txDangling.cx ∧
    (use txHost plainTail { dryRun := true, noFlush := true } none txDangling [txText]).res = some .itemNotFound ∧
    (use txHost plainTail { dryRun := true, noFlush := true } none txDangling [txText]).world.ran = [⟨.delete, 7, [1]⟩] ∧
    (use txHost plainTail { dryRun := true, noFlush := true } none txDangling [txText]).world.cx.routes.ents.map (·.id) = [7, 8] := by
  refine ⟨fun h => ?_, by decide +kernel, by decide +kernel, by decide +kernel⟩
  exact absurd ((whole_iff _ _).2 h) (by decide +kernel)

/-- C83, finding: a load in place keeps a default event that its flush has just deleted; every later load on a clone that keeps anything
is refused. -/
theorem C83_finding_default_event_dangling :
    (use txHost plainTail {} none txWorld [txText]).res = none ∧
    (use txHost plainTail { thenCommit := true, onlyRoutes := true } none (use txHost plainTail {} none txWorld [txText]).world [txText]).res = some .itemNotFound ∧
    (use txHost plainTail { dryRun := true, noFlush := true } none (use txHost plainTail {} none txWorld [txText]).world [txText]).res = some .itemNotFound := by
  decide +kernel

/-- The sample can be cloned. -/
example : Whole { noFlush := true, thenCommit := true } txWorld.cx := (whole_iff _ _).1 (by decide +kernel)

end WS.Props
