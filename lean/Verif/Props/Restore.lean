import Verif.Proof.Restore3
import Verif.Props.Loaded
import Verif.Props.Dump
/-
C85: rules that have been exported and loaded back are in force again.
-/
namespace WS.Props
open WS WS.Conf WS.Sax WS.Time WS.ConfNum WS.LT WS.Spec WS.Spec.LT WS.Spec.Ld WS.Ld WS.Spec.Load WS.Spec.Rs WS.Rs WS.Spec.Dump WS.Spec.RoundTrip WS.Dump

section
variable {H : Host} {issued : Nat → Nat → Prop}

/-- What is needed of a rule so that it comes back: it can be exported and read back (C57, C72), the export says everything about it, the
settings in force where it is loaded leave its flags alone, and its event has a name. -/
structure Savable (F : FmtEnv) (H : Host) (numeric : Bool) (at_ : List Byte → Nat → List Byte) (v : View) (r : Route) : Prop where
  restorable : Restorable F H.env numeric at_ r
  bare : Bare r
  settled : Settled v.config r
  named : ∀ e, r.event = some e → e.label ≠ []

theorem savable_ready {F : FmtEnv} {numeric : Bool} {at_ : List Byte → Nat → List Byte} {old : List Nat} {c : Cx} (hG : Good issued old c) {v : View}
    (hev : v.events = (view c).events) (hh : Holdable v c.routes.ents) {r : Route} (hr : r ∈ c.routes.ents) (h : Savable F H numeric at_ v r) : Ready v r where
  wf := hG.table.core.sorted.wf r hr
  zero := hG.table.core.wildZero r hr
  sens := hG.table.core.sens r hr
  bare := h.bare
  settled := h.settled
  event := fun e he => ⟨by rw [hev]; exact at_of_mem hG.events (hG.linked r hr e he), h.named e he, (h.restorable.reloadable.label e he).2⟩
  limit := hh.limit.imp_right (fun g => g r hr)

theorem no_twins {old : List Nat} {c : Cx} (hG : Good issued old c) : c.routes.ents.Pairwise (fun x y => ¬ Twin (seen x) (seen y)) := by
  have hs := hG.table.core.sorted
  refine hs.sorted.imp_of_mem (fun {x y} hx hy h ht => ?_)
  rw [(twin_iff hG (hG.linked x hx) (hG.linked y hy) (hs.wf x hx) (hs.wf y hy)).mp ht] at h
  cases h

/-- Reading an export into a context without rules, in which the events and settings are those the rules were made under. -/
theorem read_back (hM : Mild H.acts) (hI : Issues H issued) (hW : Works H) {F : FmtEnv} (hb : ReadsBack F H.env) {tail : Tail} (ht : InPlaceTail tail)
    {numeric : Bool} {at_ : List Byte → Nat → List Byte} {oldA oldB : List Nat} {a : Cx} (hA : Good issued oldA a) {b : World} (hB : Good issued oldB b.cx)
    (hempty : (view b.cx).rules = []) (hev : (view b.cx).events = (view a).events)
    (hh : Holdable (view b.cx) a.routes.ents) (hs : ∀ r ∈ a.routes.ents, Savable F H numeric at_ (view b.cx) r) {cap need : Nat} (hcap : cap < 2147483648)
    (hneed : ∀ r ∈ a.routes.ents, (ruleJson r at_ (familyText F r numeric) (protoText F r numeric)).length + 2 ≤ need)
    {total : List Byte} (hdone : Completed F numeric a.routes.ents cap need total) {chunks : List (List Byte)} (hch : chunks.flatten = total) (conf : EventConfig) :
    0 ≤ (load H.env tail loaderConfig false conf b chunks).ret ∧
    Good issued oldB (load H.env tail loaderConfig false conf b chunks).user.1.cx ∧
    view (load H.env tail loaderConfig false conf b chunks).user.1.cx =
      { view b.cx with rules := (view (load H.env tail loaderConfig false conf b chunks).user.1.cx).rules } ∧
    ∃ back, Pairs Restored (view a).rules back ∧ (view (load H.env tail loaderConfig false conf b chunks).user.1.cx).rules.Perm back := by
  obtain ⟨ks, hks, hall⟩ := C72_export_reloads_partial F H.env hb (noEmptyEvent H) tail ht conf numeric at_ a.routes.ents
    (fun r hr => (hs r hr).restorable) cap need hcap hneed
  obtain ⟨fams, h4, hF⟩ := hh.masks
  obtain ⟨w', back, hper, hG', hv', hp, hperm⟩ := reinsert_all hM hI hW h4 a.routes.ents ks hks [] [] b hB
    (fun r hr => savable_ready hA hev hh hr (hs r hr)) hF hh.count (no_twins hA) .nil (by rw [hempty])
  obtain ⟨h1, h2⟩ := hall total hdone chunks hch b w' hper
  rw [h2]
  exact ⟨h1, hG', hv', back, hp, hperm⟩

/-- C85: the rules of one context, exported in any number of pieces (C72) and loaded, cut up in any way, in place of the rules of another
context with the same events: the load succeeds, every rule is in force again, in the same order, and nothing else has changed.  Missing for
the full property: `Savable` (see the findings) and `Holdable`; handlers that fail or change rules. -/
theorem C85_restored_partial (hM : Mild H.acts) (hI : Issues H issued) (hW : Works H) {F : FmtEnv} (hb : ReadsBack F H.env) {tail : Tail}
    (ht : InPlaceTail tail) {numeric : Bool} {at_ : List Byte → Nat → List Byte} {a b : World} (hA : Good issued [] a.cx) (hB : Good issued [] b.cx)
    (hev : (view b.cx).events = (view a.cx).events) (hh : Holdable (view b.cx) a.cx.routes.ents)
    (hs : ∀ r ∈ a.cx.routes.ents, Savable F H numeric at_ (view b.cx) r) {cap need : Nat} (hcap : cap < 2147483648)
    (hneed : ∀ r ∈ a.cx.routes.ents, (ruleJson r at_ (familyText F r numeric) (protoText F r numeric)).length + 2 ≤ need)
    {total : List Byte} (hdone : Completed F numeric a.cx.routes.ents cap need total) {chunks : List (List Byte)} (hch : chunks.flatten = total) :
    let o := use H tail { onlyRoutes := true } none b chunks
    o.res = none ∧ view o.world.cx = { view b.cx with rules := (view o.world.cx).rules } ∧
      Pairs Restored (view a.cx).rules (view o.world.cx).rules ∧ Good issued [] o.world.cx := by
  intro o
  have hvi := view_inPlace H { onlyRoutes := true } b
  have hgi := inPlace_good H { onlyRoutes := true } hB
  obtain ⟨hw, hres⟩ := C83_in_place H tail none b chunks { onlyRoutes := true } rfl rfl rfl (by decide)
  have hst : startInPlace { onlyRoutes := true } (view b.cx) = { view b.cx with rules := [] } := rfl
  rw [hst] at hvi
  have hj : (none : Option Config).getD defaultJson = loaderConfig := rfl
  unfold loaded at hw hres
  rw [hj] at hw hres
  have hmain := read_back (H := H) hM hI hW hb ht (numeric := numeric) (at_ := at_) hA hgi (by rw [hvi]) (by rw [hvi]; exact hev)
    (by rw [hvi]; exact ⟨hh.masks, hh.count, hh.limit⟩) (fun r hr => by obtain ⟨x, y, z, u⟩ := hs r hr; rw [hvi]; exact ⟨x, y, z, u⟩) hcap hneed hdone hch
    (ofCfg (cfgGet b.cx.config))
  obtain ⟨h1, h2, h3, back, h4, h5⟩ := hmain
  have ho : o.world = _ := hw
  refine ⟨hres.mpr h1, ?_, ?_, ?_⟩
  · rw [ho]
    rw [hvi] at h3
    exact h3
  · rw [ho]
    refine back_in_order hA h2 ?_ h4 h5
    rw [h3, hvi]; exact hev
  · rw [ho]; exact h2

/-- C85: in particular, an export loaded back into the context it comes from leaves what is in force as it was, but for the rules' status
that is not exported. -/
theorem C85_same_context_partial (hM : Mild H.acts) (hI : Issues H issued) (hW : Works H) {F : FmtEnv} (hb : ReadsBack F H.env) {tail : Tail}
    (ht : InPlaceTail tail) {numeric : Bool} {at_ : List Byte → Nat → List Byte} {w : World} (hG : Good issued [] w.cx)
    (hh : Holdable (view w.cx) w.cx.routes.ents) (hs : ∀ r ∈ w.cx.routes.ents, Savable F H numeric at_ (view w.cx) r) {cap need : Nat}
    (hcap : cap < 2147483648) (hneed : ∀ r ∈ w.cx.routes.ents, (ruleJson r at_ (familyText F r numeric) (protoText F r numeric)).length + 2 ≤ need)
    {total : List Byte} (hdone : Completed F numeric w.cx.routes.ents cap need total) {chunks : List (List Byte)} (hch : chunks.flatten = total) :
    let o := use H tail { onlyRoutes := true } none w chunks
    o.res = none ∧ ∃ rules, view o.world.cx = { view w.cx with rules := rules } ∧ Pairs Restored (view w.cx).rules rules := by
  obtain ⟨h1, h2, h3, _⟩ := C85_restored_partial hM hI hW hb ht hG hG rfl hh hs hcap hneed hdone hch
  exact ⟨h1, _, h2, h3⟩

/-! ### With LOAD_THEN_COMMIT -/

/-- Handlers of insert actions do not ask to stop. -/
def NeverStops (A : RuleActs) : Prop := ∀ i r a, a.getLsbD 6 = false → (A.handler .insert i r a).2.1.getLsbD 6 = false

theorem runActions_stop {A : RuleActs} (h : NeverStops A) : ∀ (l : List Nat) (s : Route) (a : Flags), a.getLsbD 6 = false →
    (runActions A.env .insert l s a).ares.getLsbD 6 = false := by
  intro l
  induction l with
  | nil => intro s a ha; exact ha
  | cons i rest ih =>
    intro s a ha
    unfold runActions
    split
    · exact ih s a ha
    · have he : (A.env.handler .insert i (A.env.enter s i) a).2.1.getLsbD 6 = false := h i _ a ha
      generalize A.env.handler .insert i (A.env.enter s i) a = x at he
      obtain ⟨x1, x2, x3⟩ := x
      simp only at he
      simp only
      split
      · exact he
      · split
        · exact he
        · exact ih _ _ he

theorem insertActions_stop {A : RuleActs} (h : NeverStops A) (g : EventConfig) (r : Route) (a : Flags) (ha : a.getLsbD 6 = false) :
    (insertActions g A r a).ares.getLsbD 6 = false := by
  unfold insertActions
  cases r.event with
  | none => exact ha
  | some e =>
    simp only
    split
    · unfold listDispatch
      split
      · exact ha
      · simp only
        split
        · exact ha
        · split
          · exact ha
          · exact runActions_stop h _ _ _ ha
    · exact ha

theorem bulk_never {A : RuleActs} (hf : NeverFails A) (hs : NeverStops A) (g : EventConfig) : ∀ (l : List Route) (a : Flags), a.getLsbD 6 = false →
    (∀ r ∈ l, r.flags.getLsbD 16 = false) → (bulkInsertLoop g A l a).2.2.1 = none
  | [], _, _, _ => rfl
  | r :: l, a, ha, h => by
    unfold bulkInsertLoop
    have h1 := insertActions_never hf g r a (h r (List.mem_cons_self ..)) ha
    have h2 := insertActions_stop hs g r a ha
    simp only [h1]
    exact bulk_never hf hs g l _ h2 (fun x hx => h x (List.mem_cons_of_mem _ hx))

theorem dry_ok {tail : Tail} {f : LoadFlags} {json : Option Config} {w : World} {cs : List (List Byte)} (hf : f.fini = false)
    (hj : (json.getD defaultJson).maxKeyLen ≤ 32) (hw : Whole f w.cx) (h : 0 ≤ (loaded H tail f json (Draft f w).cx.config (Draft f w) cs).ret) :
    (use H tail { f with dryRun := true } json w cs).res = none := by
  have hcl' : ({ f with dryRun := true } : LoadFlags).onClone = true := rfl
  have hv := use_eq H tail { f with dryRun := true } hf json hj w (fun _ => (whole_iff f w.cx).2 hw) cs
  simp only [hcl', if_true] at hv
  have e1 : loaded H tail { f with dryRun := true } json (Draft { f with dryRun := true } w).cx.config (Draft { f with dryRun := true } w) cs =
    loaded H tail f json (Draft f w).cx.config (Draft f w) cs := rfl
  rw [e1] at hv
  have hv2 := (dropped H tail json w cs { f with dryRun := true } (loaded H tail f json (Draft f w).cx.config (Draft f w) cs).ret rfl (.inr rfl)).2.2
  rw [e1] at hv2
  rw [hv.2.1, hv2, if_neg (by omega)]

/-- C85: the same in one transaction (LOAD_THEN_COMMIT).  Besides the rules, actions are enabled and the idle time for purging is 0
afterwards, as after every such load (C83, C84). -/
theorem C85_committed_partial (hM : Mild H.acts) (hI : Issues H issued) (hW : Works H) (hS : NeverStops H.acts) {F : FmtEnv} (hb : ReadsBack F H.env)
    {tail : Tail} (ht : InPlaceTail tail) {numeric : Bool} {at_ : List Byte → Nat → List Byte} {a b : World} (hA : Good issued [] a.cx)
    (hB : Good issued [] b.cx) (hdef : DefaultThere b.cx)
    (hev : (view b.cx).events = (view a.cx).events) (hh : Holdable (view b.cx) a.cx.routes.ents)
    (hs : ∀ r ∈ a.cx.routes.ents, Savable F H numeric at_ (view b.cx) r) {cap need : Nat} (hcap : cap < 2147483648)
    (hneed : ∀ r ∈ a.cx.routes.ents, (ruleJson r at_ (familyText F r numeric) (protoText F r numeric)).length + 2 ≤ need)
    {total : List Byte} (hdone : Completed F numeric a.cx.routes.ents cap need total) {chunks : List (List Byte)} (hch : chunks.flatten = total) :
    let o := use H tail { onlyRoutes := true, thenCommit := true } none b chunks
    o.res = none ∧ view o.world.cx = { enabledView (view b.cx) with idle := 0, rules := (view o.world.cx).rules } ∧
      Pairs Restored (view a.cx).rules (view o.world.cx).rules ∧ Good issued [] o.world.cx := by
  intro o
  let f : LoadFlags := { onlyRoutes := true, thenCommit := true }
  have hw : Whole f b.cx := ⟨fun _ => hdef, fun h => by cases h⟩
  have hvi := view_draft (f := f) rfl hw
  have hgi := draft_good (f := f) rfl hB
  have hst : startOnClone f (ofCfg (cfgGet b.cx.config0)) (view b.cx) =
      { view b.cx with config := { (view b.cx).config with flags := (view b.cx).config.flags ||| bit 2 }, idle := 0, rules := [] } := rfl
  rw [hst] at hvi
  have hmain := read_back (H := H) hM hI hW hb ht (numeric := numeric) (at_ := at_) hA hgi (by rw [hvi]) (by rw [hvi]; exact hev)
    (by rw [hvi]; refine ⟨hh.masks, hh.count, hh.limit.imp_right fun g r hr => ?_⟩
        have := g r hr
        cases he : r.event with
        | none => rw [he] at this; exact this
        | some e => rw [he] at this; unfold inForce at this ⊢; simp only at this ⊢; cases hc : e.config <;> rw [hc] at this <;> exact this)
    (fun r hr => by
      obtain ⟨x, y, z, u⟩ := hs r hr; rw [hvi]
      refine ⟨x, y, ?_, u⟩
      have e1 : ∀ (g : EventConfig) (fl : Flags), (inForce { g with flags := fl } r.event).routeFlagsToAdd = (inForce g r.event).routeFlagsToAdd ∧
          (inForce { g with flags := fl } r.event).routeFlagsToClear = (inForce g r.event).routeFlagsToClear := by
        intro g fl
        cases r.event with
        | none => exact ⟨rfl, rfl⟩
        | some e => unfold inForce; simp only; cases e.config <;> exact ⟨rfl, rfl⟩
      obtain ⟨a1, a2⟩ := e1 (view b.cx).config ((view b.cx).config.flags ||| bit 2)
      exact ⟨by rw [a1, a2]; exact z.flags, by rw [a1]; exact z.sane⟩) hcap hneed hdone hch
    (ofCfg (cfgGet (Draft f b).cx.config))
  obtain ⟨h1, h2, h3, back, h4, h5⟩ := hmain
  have hdry : (use H tail { f with dryRun := true } none b chunks).res = none := dry_ok rfl (by decide) hw h1
  obtain ⟨_, c1, c2, _⟩ := committed H tail none b chunks f rfl rfl hdry
  have hload : loaded H tail f none (Draft f b).cx.config (Draft f b) chunks =
    load H.env tail loaderConfig false (ofCfg (cfgGet (Draft f b).cx.config)) (Draft f b) chunks := rfl
  rw [hload] at c1 c2
  generalize (load H.env tail loaderConfig false (ofCfg (cfgGet (Draft f b).cx.config)) (Draft f b) chunks).user.1.cx = L at h2 h3 h5 c1 c2
  have ho : o.world.cx = _ := c1
  have hgood := (commit_good (f := f) hM rfl h2).1
  have hview := view_committed (f := f) hM rfl h2
  have hord := back_in_order hA h2 (by rw [h3, hvi]; exact hev) h4 h5
  refine ⟨?_, ?_, ?_, ?_⟩
  · show (use H tail f none b chunks).res = none
    rw [c2]
    refine bulk_never hW.handlers hS _ _ _ rfl ?_
    intro r hr
    have hr : r ∈ (staged f b.cx.routes L.routes).ents := hr
    unfold staged at hr
    simp only [f, Bool.false_eq_true, if_false] at hr
    obtain ⟨z, _, rfl⟩ := List.mem_map.1 hr
    show (z.flags &&& ~~~RF.INSERT_ACTIONS_CALLED).getLsbD 16 = false
    rw [BitVec.getLsbD_and]
    have : (~~~RF.INSERT_ACTIONS_CALLED).getLsbD 16 = false := by decide
    rw [this, Bool.and_false]
  · rw [ho, hview, h3, hvi]
    unfold enabledView
    simp only [View.mk.injEq, EventConfig.mk.injEq, and_true, true_and]
    unfold bit
    grind
  · rw [ho, hview]; exact hord
  · rw [ho]; exact hgood

end

theorem view_rules (c : Cx) : (view c).rules = c.routes.ents.map seen := rfl

/-! ### Example -/

/-- `txHost` with the texts of addresses and protocols of `rtEnv`. -/
def rsHost : Host := { txHost with ext := rtEnv }

/-- An event "web" with a rule that is in the penalty box, and a rule without event. -/
def rsText : List Byte := ascii
  "{\"wolfsentry-config-version\":1,\"events\":[{\"label\":\"web\",\"priority\":1}],\"routes\":[{\"parent-event\":\"web\",\"family\":2,\"direction-in\":true,\"tcplike-port-numbers\":true,\"penalty-boxed\":true,\"protocol\":\"tcp\",\"remote\":{\"address\":\"0a000000\",\"prefix-bits\":8},\"local\":{\"port\":443}},{\"family\":2,\"direction-in\":true,\"tcplike-port-numbers\":true,\"protocol\":6,\"local\":{\"port\":443}}]}"

def rsFresh : World := { cx := { idState := 10 } }
def rsWorld : World := (use rsHost plainTail {} none rsFresh [rsText]).world

def rsPlain : Route := { dumpPlain with id := 13, data := { insertTime := 1000 } }
def rsWeb : Route := { rtRule with id := 12, data := { insertTime := 1000 } }

theorem rsWorld_facts : (fun o : Outcome => (o.res, o.world.cx.routes.ents, o.world.cx.config.config.flagsAdd, o.world.cx.config.config.flagsClear,
    o.world.cx.routes.maxPurgeableRoutes)) (use rsHost plainTail {} none rsFresh [rsText]) = (none, [rsPlain, rsWeb], 0, 0, 0) := by decide +kernel

theorem facts5 {o : Outcome} {a : Option Err} {l : List Route} {f g : Flags} {m : Nat}
    (h : (fun o : Outcome => (o.res, o.world.cx.routes.ents, o.world.cx.config.config.flagsAdd, o.world.cx.config.config.flagsClear,
      o.world.cx.routes.maxPurgeableRoutes)) o = (a, l, f, g, m)) :
    o.res = a ∧ o.world.cx.routes.ents = l ∧ (view o.world.cx).config.routeFlagsToAdd = f ∧ (view o.world.cx).config.routeFlagsToClear = g ∧
    (view o.world.cx).limit = m := by
  simp only [Prod.mk.injEq] at h
  exact h

theorem rsWorld_eq : rsWorld = (use rsHost plainTail {} none rsFresh [rsText]).world := by unfold rsWorld; exact Eq.refl _

theorem rsWorld_rules : rsWorld.cx.routes.ents = [rsPlain, rsWeb] := by rw [rsWorld_eq]; exact (facts5 rsWorld_facts).2.1
theorem rsWorld_flags : (view rsWorld.cx).config.routeFlagsToAdd = 0 ∧ (view rsWorld.cx).config.routeFlagsToClear = 0 := by
  rw [rsWorld_eq]; exact ⟨(facts5 rsWorld_facts).2.2.1, (facts5 rsWorld_facts).2.2.2.1⟩
theorem rsWorld_limit : (view rsWorld.cx).limit = 0 := by rw [rsWorld_eq]; exact (facts5 rsWorld_facts).2.2.2.2

theorem rsHost_mild : Mild rsHost.acts := txHost_mild
theorem rsHost_issues : Issues rsHost (fun s i => i ≤ s) := txHost_issues
theorem rsHost_works : Works rsHost := ⟨fun _ => ⟨_, rfl⟩, fun _ => ⟨_, rfl⟩, fun _ _ _ _ => rfl⟩

theorem closed_readable {t : List Byte} (h : t.getLast? = some 0x7d#8) : Readable plainTail none [t] := by
  refine ⟨plainTail_inPlace, by show Spec.Json.Strict defaultJson; unfold Spec.Json.Strict; decide, fun evs hcut => ?_⟩
  refine (show ¬ Spec.Json.EndsInWord [t].flatten from ?_) (Sax.cutOff_ends hcut)
  rintro ⟨t', c, e, g⟩
  have h1 : ([t].flatten).getLast? = some 0x7d#8 := by simpa using h
  rw [e, List.getLast?_append] at h1
  simp at h1
  subst h1
  unfold Spec.Json.Digit at g
  revert g
  decide

theorem rsFresh_lived : Lived rsHost rsFresh := .fresh 0 0 none 0 rfl rfl rfl

theorem rsWorld_lived : Lived rsHost rsWorld := by
  rw [rsWorld_eq]
  exact .load rsFresh_lived (closed_readable (by decide +kernel)) rfl (fun h => by cases h) rfl (facts5 rsWorld_facts).1

theorem rs_good : Good (fun s i => i ≤ s) [] rsWorld.cx := C84_lived rsHost_mild rsHost_issues rsWorld_lived

theorem rs_readsBack : ReadsBack rtFmt rsHost.env := ⟨rt_readsBack.ntop4, rt_readsBack.ntop6, rt_readsBack.family, rt_readsBack.proto⟩

theorem rs_restorable (numeric : Bool) : ∀ r ∈ rsWorld.cx.routes.ents, Restorable rtFmt rsHost.env numeric dumpAt r := by
  rw [rsWorld_rules]
  intro r hr
  have hd := dump_restorable numeric
  rcases List.mem_cons.1 hr with rfl | hr
  · obtain ⟨⟨ev, a, b, f, r0, h1, h2⟩, h3, h4⟩ := hd dumpPlain (by simp)
    exact ⟨⟨ev, a, b, f, r0, h1, ⟨h2.family, h2.proto, h2.remote, h2.loc, h2.flags⟩⟩, ⟨h3.1, h3.2, h3.3⟩, ⟨h4.label, h4.family, h4.tcp, h4.remote, h4.loc⟩⟩
  · rw [List.mem_singleton.1 hr]
    obtain ⟨⟨ev, a, b, f, r0, h1, h2⟩, h3, h4⟩ := hd rtRule (by simp)
    exact ⟨⟨ev, a, b, f, r0, h1, ⟨h2.family, h2.proto, h2.remote, h2.loc, h2.flags⟩⟩, ⟨h3.1, h3.2, h3.3⟩, ⟨h4.label, h4.family, h4.tcp, h4.remote, h4.loc⟩⟩

theorem rs_savable (numeric : Bool) : ∀ r ∈ rsWorld.cx.routes.ents, Savable rtFmt rsHost numeric dumpAt (view rsWorld.cx) r := by
  intro r hr
  have h := rs_restorable numeric r hr
  have hc : (view rsWorld.cx).config.routeFlagsToAdd = 0 ∧ (view rsWorld.cx).config.routeFlagsToClear = 0 := rsWorld_flags
  have hset : inForce (view rsWorld.cx).config r.event = (view rsWorld.cx).config := by
    rw [rsWorld_rules] at hr
    rcases List.mem_cons.1 hr with rfl | hr
    · rfl
    · rw [List.mem_singleton.1 hr]; rfl
  refine ⟨h, ?_, ⟨?_, ?_⟩, ?_⟩
  · rw [rsWorld_rules] at hr
    rcases List.mem_cons.1 hr with rfl | hr
    · exact ⟨by decide, by decide, by decide⟩
    · rw [List.mem_singleton.1 hr]; exact ⟨by decide, by decide, by decide⟩
  · intro k _
    rw [hset, hc.1, hc.2]; simp
  · rw [hset, hc.1]; decide
  · rw [rsWorld_rules] at hr
    rcases List.mem_cons.1 hr with rfl | hr
    · intro e he; cases he
    · rw [List.mem_singleton.1 hr]
      intro e he
      have : e = rtEvent := by injection he with he; exact he.symm
      subst this; decide

theorem rs_holdable : Holdable (view rsWorld.cx) rsWorld.cx.routes.ents := by
  refine ⟨⟨[], by decide, ?_⟩, by rw [rsWorld_rules]; decide, Or.inl rsWorld_limit⟩
  rw [rsWorld_rules]
  intro r hr
  rcases List.mem_cons.1 hr with rfl | hr
  · intro h; unfold UsesBitmask at h; revert h; decide
  · rw [List.mem_singleton.1 hr]; intro h; unfold UsesBitmask at h; revert h; decide

/-- The hypotheses are met: the two rules, exported through a buffer of 600 bytes and loaded byte by byte, are in force again. -/
example (numeric : Bool) : ∃ total, Completed rtFmt numeric rsWorld.cx.routes.ents 600 600 total ∧
    let o := use rsHost plainTail { onlyRoutes := true } none rsWorld (total.map ([·]))
    o.res = none ∧ ∃ rules, view o.world.cx = { view rsWorld.cx with rules := rules } ∧ Pairs Restored [seen rsPlain, seen rsWeb] rules := by
  have hneed : ∀ r ∈ rsWorld.cx.routes.ents, (ruleJson r dumpAt (familyText rtFmt r numeric) (protoText rtFmt r numeric)).length + 2 ≤ 600 := by
    rw [rsWorld_rules]
    intro r hr
    rcases List.mem_cons.1 hr with rfl | hr
    · cases numeric <;> decide +kernel
    · rw [List.mem_singleton.1 hr]; cases numeric <;> decide +kernel
  obtain ⟨total, ht⟩ := C72_export_completes rtFmt numeric dumpAt rsWorld.cx.routes.ents (fun r hr => (rs_restorable numeric r hr).renderable) 600 600
    (by decide) (by decide) (by decide) hneed
  have hfl : ∀ l : List Byte, (l.map ([·])).flatten = l := by
    intro l
    induction l with
    | nil => rfl
    | cons x l ih => rw [List.map_cons, List.flatten_cons, ih]; rfl
  refine ⟨total, ht, ?_⟩
  have := C85_same_context_partial rsHost_mild rsHost_issues rsHost_works rs_readsBack plainTail_inPlace rs_good rs_holdable (rs_savable numeric)
    (by decide) hneed ht (hfl total)
  have hr : (view rsWorld.cx).rules = [seen rsPlain, seen rsWeb] := by rw [view_rules, rsWorld_rules]; rfl
  rw [hr] at this
  exact this

/-! ### Findings -/

/-- Two rules that match the same traffic: any remote address, given as a wildcard with and without a prefix. -/
def rsTwice : List Byte := ascii
  "{\"wolfsentry-config-version\":1,\"routes\":[{\"family\":2,\"direction-in\":true,\"tcplike-port-numbers\":true,\"protocol\":6,\"remote\":{\"address\":\"0a000000\",\"prefix-bits\":8},\"raddr-wild\":true,\"local\":{\"port\":443}},{\"family\":2,\"direction-in\":true,\"tcplike-port-numbers\":true,\"protocol\":6,\"local\":{\"port\":443}}]}"

def rsTwiceWorld : World := (use rsHost plainTail {} none rsFresh [rsTwice]).world

def rsMore : Route := { rsPlain with id := 11, remote := { bits := 8, addr := [0#8] } }
def rsLess : Route := { rsPlain with id := 12 }

/-- Its rules as they are exported, by number. -/
def rsTwiceText : List Byte := wholeText ([rsLess, rsMore].map fun r => ruleJson r dumpAt (familyText rtFmt r true) (protoText rtFmt r true))

theorem rsTwice_facts : (fun o : Outcome => (o.res, o.world.cx.routes.ents,
    (fun q : Outcome => (q.res, q.world.cx.routes.ents.length)) (use rsHost plainTail { onlyRoutes := true } none o.world [rsTwiceText])))
    (use rsHost plainTail {} none rsFresh [rsTwice]) = (none, [rsLess, rsMore], some .itemAlreadyPresent, 1) := by decide +kernel

theorem facts4 {k : World → Outcome} {o : Outcome} {a b : Option Err} {l : List Route} {n : Nat}
    (h : (fun o : Outcome => (o.res, o.world.cx.routes.ents, (fun q : Outcome => (q.res, q.world.cx.routes.ents.length)) (k o.world))) o = (a, l, b, n)) :
    o.res = a ∧ o.world.cx.routes.ents = l ∧ (k o.world).res = b ∧ (k o.world).world.cx.routes.ents.length = n := by
  simp only [Prod.mk.injEq] at h
  exact h

theorem rsTwiceWorld_eq : rsTwiceWorld = (use rsHost plainTail {} none rsFresh [rsTwice]).world := by unfold rsTwiceWorld; exact Eq.refl _

theorem rsTwice_all : (use rsHost plainTail {} none rsFresh [rsTwice]).res = none ∧
    (use rsHost plainTail {} none rsFresh [rsTwice]).world.cx.routes.ents = [rsLess, rsMore] ∧
    (use rsHost plainTail { onlyRoutes := true } none (use rsHost plainTail {} none rsFresh [rsTwice]).world [rsTwiceText]).res = some .itemAlreadyPresent ∧
    (use rsHost plainTail { onlyRoutes := true } none (use rsHost plainTail {} none rsFresh [rsTwice]).world [rsTwiceText]).world.cx.routes.ents.length = 1 :=
  facts4 (k := fun w => use rsHost plainTail { onlyRoutes := true } none w [rsTwiceText]) rsTwice_facts

theorem rsTwice_rules : rsTwiceWorld.cx.routes.ents = [rsLess, rsMore] := by rw [rsTwiceWorld_eq]; exact rsTwice_all.2.1
theorem rsTwice_lived : Lived rsHost rsTwiceWorld := by
  rw [rsTwiceWorld_eq]
  exact .load rsFresh_lived (closed_readable (by decide +kernel)) rfl (fun h => by cases h) rfl rsTwice_all.1

/-- C85, finding: a document is loaded; its rules are exported, and the export cannot be loaded (ITEM_ALREADY_PRESENT): the two rules have
different prefixes under the wildcard for the remote address (src/routes.c:552-569 clears the address only), which are not exported
(src/routes.c:4107-4160).  A rule is lost. -/
theorem C85_finding_export_refused : Lived rsHost rsTwiceWorld ∧ rsTwiceWorld.cx.routes.ents.length = 2 ∧
    ∀ total, Completed rtFmt true rsTwiceWorld.cx.routes.ents 600 600 total →
      (use rsHost plainTail { onlyRoutes := true } none rsTwiceWorld [total]).res = some .itemAlreadyPresent ∧
      (use rsHost plainTail { onlyRoutes := true } none rsTwiceWorld [total]).world.cx.routes.ents.length = 1 := by
  refine ⟨rsTwice_lived, by rw [rsTwice_rules]; rfl, ?_⟩
  intro total h
  have hr : ∀ r ∈ rsTwiceWorld.cx.routes.ents, Renderable rtFmt r true dumpAt := by
    rw [rsTwice_rules]
    have h0 := dumpPlain_renderable true
    intro r hr
    rcases List.mem_cons.1 hr with rfl | hr
    · exact ⟨h0.1, h0.2, h0.3⟩
    · rw [List.mem_singleton.1 hr]
      refine ⟨by unfold FieldsInRange; decide, Or.inr (Or.inr (Or.inr (by decide))), ?_⟩
      intro p hp
      have h : renderedAddrs rsMore = [] := by decide
      rw [h] at hp; cases hp
  have ht := C72_export_is_the_table rtFmt true dumpAt _ hr 600 600 (by decide) (by
    rw [rsTwice_rules]
    intro r hr
    rcases List.mem_cons.1 hr with rfl | hr
    · decide +kernel
    · rw [List.mem_singleton.1 hr]; decide +kernel) total h
  rw [rsTwice_rules] at ht
  have ht' : total = rsTwiceText := ht
  rw [ht', rsTwiceWorld_eq]
  exact rsTwice_all.2.2

/-- Rules that expire after an hour; then the setting is taken back. -/
def rsTakenBack : List Byte := ascii "{\"wolfsentry-config-version\":1,\"config-update\":{\"route-idle-time-for-purge\":0}}"

def rsExpiring : World := (use rsHost plainTail { noFlush := true } none (use rsHost plainTail {} none rsFresh [ldExpiring "0"]).world [rsTakenBack]).world

def rsHour (id port : Nat) : Route :=
  { id := id, flags := 0x46da#32, family := 2, proto := 6, remote := { port := port }, data := { insertTime := 1000, purgeAfter := 3600001000 } }

def rsHourText : List Byte := wholeText ([rsHour 11 7, rsHour 12 8].map fun r => ruleJson r dumpAt (familyText rtFmt r true) (protoText rtFmt r true))

theorem rsExpiring_facts : (fun o : Outcome => (o.world.cx.routes.ents,
    (fun q : Outcome => (q.res, (view q.world.cx).rules.map (·.expiry))) (use rsHost plainTail { onlyRoutes := true } none o.world [rsHourText])))
    (use rsHost plainTail { noFlush := true } none (use rsHost plainTail {} none rsFresh [ldExpiring "0"]).world [rsTakenBack]) =
    ([rsHour 11 7, rsHour 12 8], none, [0, 0]) := by decide +kernel

theorem facts3 {k : World → Outcome} {o : Outcome} {b : Option Err} {l : List Route} {n : List Int}
    (h : (fun o : Outcome => (o.world.cx.routes.ents, (fun q : Outcome => (q.res, (view q.world.cx).rules.map (·.expiry))) (k o.world))) o = (l, b, n)) :
    o.world.cx.routes.ents = l ∧ (k o.world).res = b ∧ (view (k o.world).world.cx).rules.map (·.expiry) = n := by
  simp only [Prod.mk.injEq] at h
  exact h

theorem rsExpiring_eq : rsExpiring =
    (use rsHost plainTail { noFlush := true } none (use rsHost plainTail {} none rsFresh [ldExpiring "0"]).world [rsTakenBack]).world := by
  unfold rsExpiring; exact Eq.refl _

theorem rsExpiring_all :
    (use rsHost plainTail { noFlush := true } none (use rsHost plainTail {} none rsFresh [ldExpiring "0"]).world [rsTakenBack]).world.cx.routes.ents = [rsHour 11 7, rsHour 12 8] ∧
    (use rsHost plainTail { onlyRoutes := true } none
      (use rsHost plainTail { noFlush := true } none (use rsHost plainTail {} none rsFresh [ldExpiring "0"]).world [rsTakenBack]).world [rsHourText]).res = none ∧
    (view (use rsHost plainTail { onlyRoutes := true } none
      (use rsHost plainTail { noFlush := true } none (use rsHost plainTail {} none rsFresh [ldExpiring "0"]).world [rsTakenBack]).world [rsHourText]).world.cx).rules.map (·.expiry) = [0, 0] :=
  facts3 (k := fun w => use rsHost plainTail { onlyRoutes := true } none w [rsHourText]) rsExpiring_facts

theorem rsExpiring_rules : rsExpiring.cx.routes.ents = [rsHour 11 7, rsHour 12 8] := by rw [rsExpiring_eq]; exact rsExpiring_all.1

/-- C85, finding: when a rule expires is not exported: rules that expire come back as rules that do not (src/routes.c:4107-4190). -/
theorem C85_finding_expiry_lost : (view rsExpiring.cx).rules.map (·.expiry) = [3600001000, 3600001000] ∧
    ∀ total, Completed rtFmt true rsExpiring.cx.routes.ents 600 600 total →
      (use rsHost plainTail { onlyRoutes := true } none rsExpiring [total]).res = none ∧
      (view (use rsHost plainTail { onlyRoutes := true } none rsExpiring [total]).world.cx).rules.map (·.expiry) = [0, 0] := by
  refine ⟨by rw [view_rules, rsExpiring_rules]; rfl, ?_⟩
  intro total h
  have hr : ∀ r ∈ rsExpiring.cx.routes.ents, Renderable rtFmt r true dumpAt := by
    rw [rsExpiring_rules]
    have key : ∀ id port, port < 65536 → Renderable rtFmt (rsHour id port) true dumpAt := by
      intro id port hp
      refine ⟨?_, Or.inr (Or.inr (Or.inr (by show ¬ (ProtoLookup.found _ = ProtoLookup.unknown); intro h; cases h))), ?_⟩
      · unfold FieldsInRange; simp [rsHour]; omega
      · intro p hp
        have h : renderedAddrs (rsHour id port) = [] := by
          have h1 : (rsHour id port).flags.getLsbD 1 = true := by show (0x46da#32 : Flags).getLsbD 1 = true; decide
          have h4 : (rsHour id port).flags.getLsbD 4 = true := by show (0x46da#32 : Flags).getLsbD 4 = true; decide
          simp only [renderedAddrs, h1, h4, if_true, List.append_nil]
        rw [h] at hp; cases hp
    intro r hr
    rcases List.mem_cons.1 hr with rfl | hr
    · exact key _ _ (by decide)
    · rw [List.mem_singleton.1 hr]; exact key _ _ (by decide)
  have ht := C72_export_is_the_table rtFmt true dumpAt _ hr 600 600 (by decide) (by
    rw [rsExpiring_rules]
    intro r hr
    rcases List.mem_cons.1 hr with rfl | hr
    · decide +kernel
    · rw [List.mem_singleton.1 hr]; decide +kernel) total h
  rw [rsExpiring_rules] at ht
  have ht' : total = rsHourText := ht
  rw [ht', rsExpiring_eq]
  exact rsExpiring_all.2

end WS.Props
