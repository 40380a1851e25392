import Verif.Proof.Loaded6
import Verif.Props.Lookup
/-
C84: a configuration that has been loaded is what is in force.
-/
namespace WS.Props
open WS WS.Conf WS.Sax WS.Time WS.ConfNum WS.LT WS.Spec WS.Spec.LT WS.Spec.Ld WS.Ld WS.Spec.Load

section
variable {H : Host} {issued : Nat → Nat → Prop}

/-- C84: a call that succeeds does what it says to what is in force, and keeps the context in order. -/
theorem C84_call (hM : Mild H.acts) (hI : Issues H issued) {w w' : World} (hG : Good issued [] w.cx) {k : Call} (hf : Fits k)
    (h : libCall H w k = (w', none)) : Does H.store k (view w.cx) (view w'.cx) ∧ Good issued [] w'.cx :=
  (libCall_does hM hI hG hf h).symm

/-- C84: a document with this meaning (C56) changes what is in force by the calls it stands for: they are done one after the other, and the
calls that ask for a rule are those of the rule objects of the document, in order. -/
theorem C84_document {old : List Nat} (hM : Mild H.acts) (hI : Issues H issued) {c : EventConfig} {j : J} {w w' : World} (hG : Good issued old w.cx)
    (h : Loads H.env false c j w w') :
    (∃ cs, Done H.store cs (view w.cx) (view w'.cx) ∧ Pairs (AsksFor H.env) (ruleObjects j) (cs.filter isRuleCall)) ∧ Good issued old w'.cx := by
  obtain ⟨cs, hm, hp⟩ := loads_calls h
  obtain ⟨h1, h2⟩ := made_done hM hI hm (calls_fit hp) hG
  exact ⟨⟨cs, h2, hp⟩, h1⟩

/-- The hypotheses under which the reader of a text is understood (C56): numbers and strings are read in place, strict JSON, the text
does not break off in a number or literal. -/
structure Readable (tail : Tail) (json : Option Config) (chunks : List (List Byte)) : Prop where
  place : InPlaceTail tail
  strict : Spec.Json.Strict (json.getD defaultJson)
  whole : ∀ evs, ¬ Spec.Json.CutOff (json.getD defaultJson) chunks.flatten evs

/-- What a load in place starts from: what is in force, less the rules, and less events and user values, as the flags say. -/
def startInPlace (f : LoadFlags) (v : View) : View :=
  { v with rules := if f.noFlush then v.rules else []
           events := if f.noFlush || f.onlyRoutes then v.events else fun _ => none
           values := if f.noFlush || f.onlyRoutes then v.values else [] }

theorem view_inPlace (H : Host) (f : LoadFlags) (w : World) : view (InPlace H f w).cx = startInPlace f (view w.cx) := by
  have h := (C83_flush_first H w f).1
  unfold view startInPlace
  simp only [View.mk.injEq]
  refine ⟨by rw [h.config], h.policy, h.limit, h.idle, by rw [h.event], ?_, by rw [h.actions], ?_, h.values⟩
  · rw [h.events]; cases f.noFlush <;> cases f.onlyRoutes <;> rfl
  · rw [h.rules]; cases f.noFlush <;> rfl

theorem use_ok {tail : Tail} {f : LoadFlags} {json : Option Config} {w : World} {chunks : List (List Byte)}
    (h : (use H tail f json w chunks).res = none) : f.fini = false ∧ (json.getD defaultJson).maxKeyLen ≤ 32 := by
  by_cases hok : f.fini = false ∧ (json.getD defaultJson).maxKeyLen ≤ 32
  · exact hok
  · obtain ⟨e, he, _⟩ := init_refused H tail json w chunks f hok
    rw [he] at h; cases h

/-- C84: a load in place that succeeds has read a document, and what is in force afterwards is what its calls make of what was left by the
flush: nothing of the document is lost, nothing else is changed.  Missing for the full property: see `Readable`; handlers that change flags
or keys of rules. -/
theorem C84_in_place_partial (hM : Mild H.acts) (hI : Issues H issued) {tail : Tail} {f : LoadFlags} {json : Option Config} {w : World}
    {chunks : List (List Byte)} (hG : Good issued [] w.cx) (hR : Readable tail json chunks) (hd : f.dryRun = false) (hc : f.thenCommit = false)
    (hn : f.noRules = false) (h : (use H tail f json w chunks).res = none) :
    let v' := view (use H tail f json w chunks).world.cx
    (∃ j calls, TextOf (json.getD defaultJson) chunks.flatten j ∧ Done H.store calls (startInPlace f (view w.cx)) v' ∧
      Pairs (AsksFor H.env) (ruleObjects j) (calls.filter isRuleCall)) ∧
    Good issued [] (use H tail f json w chunks).world.cx := by
  intro v'
  obtain ⟨hf, hj⟩ := use_ok h
  obtain ⟨h1, h2⟩ := C83_in_place H tail json w chunks f hd hc hf hj
  have h3 := h2.1 h
  obtain ⟨j, ht, hl⟩ := (C56_text_meaning_partial H.env (noEmptyEvent H) tail hR.place _ hR.strict f.noRules _ chunks hR.whole (InPlace H f w) _).1 ⟨h3, rfl⟩
  rw [hn] at hl
  obtain ⟨⟨calls, hdn, hp⟩, hg⟩ := C84_document hM hI (inPlace_good H f hG) hl
  rw [view_inPlace] at hdn
  have he : (use H tail f json w chunks).world = (load H.env tail (json.getD defaultJson) f.noRules (ofCfg (cfgGet w.cx.config)) (InPlace H f w) chunks).user.1 := h1
  rw [hn] at he
  refine ⟨⟨j, calls, ht, ?_, hp⟩, ?_⟩
  · simp only [v', he]
    exact hdn
  · rw [he]; exact hg

/-- What a load on a clone without NO_FLUSH starts from: no rules; with FLUSH_ONLY_ROUTES what is in force but for the idle time, else what
was there at creation; actions are inhibited. -/
def startOnClone (f : LoadFlags) (created : EventConfig) (v : View) : View :=
  let g := if f.onlyRoutes then v.config else created
  { config := { g with flags := g.flags ||| bit 2 }
    policy := if f.onlyRoutes then v.policy else 0
    limit := if f.onlyRoutes then v.limit else 0
    idle := 0
    dflt := if f.onlyRoutes then v.dflt else none
    events := if f.onlyRoutes then v.events else fun _ => none
    actions := v.actions
    rules := []
    values := if f.onlyRoutes then v.values else [] }

/-- Actions enabled (bit 2 of the flags cleared). -/
def enabledView (v : View) : View := { v with config := { v.config with flags := v.config.flags &&& ~~~bit 2 } }

theorem view_draft {f : LoadFlags} (hn : f.noFlush = false) {w : World} (hw : Whole f w.cx) :
    view (Draft f w).cx = startOnClone f (ofCfg (cfgGet w.cx.config0)) (view w.cx) := by
  unfold Draft startOnClone
  cases ho : f.onlyRoutes
  · have hh : f.how = .asAtCreation := by unfold LoadFlags.how; rw [hn, ho]; rfl
    rw [hh]; rfl
  · have hh : f.how = .noRoutes := by unfold LoadFlags.how; rw [hn, ho]; rfl
    rw [hh]
    have hd : ((w.cx.routes.defaultEvent.bind (sameLabel w.cx.events)).map (·.label)) = w.cx.routes.defaultEvent.map (·.label) := by
      have := hw.1 (.inr ho)
      cases hx : w.cx.routes.defaultEvent with
      | none => rfl
      | some e =>
        obtain ⟨x, hx1, hx2⟩ := this e hx
        show (w.cx.events.find? (fun x => x.label == e.label)).map (·.label) = some e.label
        cases hy : w.cx.events.find? (fun x => x.label == e.label) with
        | none => exact absurd hx2 (by have := List.find?_eq_none.1 hy x hx1; simpa using this)
        | some y => have := List.find?_some hy; simp only [beq_iff_eq] at this; rw [Option.map_some, this]
    unfold view
    simp only [View.mk.injEq, if_true]
    exact ⟨rfl, rfl, rfl, rfl, hd, rfl, rfl, rfl, rfl⟩

theorem view_committed (hM : Mild H.acts) {f : LoadFlags} (hf : f.noFlush = false) {a L : Cx} (hg : Good issued (a.routes.ents.map (·.id)) L) :
    view { preCommit f a L with routes := (bulkInsertActions (preCommit f a L).global H.acts (preCommit f a L).routes 0).1 } = enabledView (view L) := by
  have hr := (commit_good hM hf hg).2
  have hro : ∀ (A B : RouteTable), staged f A B = { B with ents := (staged f A B).ents } := by
    intro A B; unfold staged; split <;> rfl
  unfold enabledView
  have key : ∀ (T : RouteTable) (es : List Route), T = { L.routes with ents := T.ents } →
      view { preCommit f a L with routes := { T with ents := es } } = { view L with config := { (view L).config with flags := (view L).config.flags &&& ~~~bit 2 }, rules := es.map seen } := by
    intro T es hT
    rw [hT]; rfl
  have hk := key (preCommit f a L).routes (bulkInsertLoop (preCommit f a L).global H.acts (preCommit f a L).routes.ents 0).1 (hro _ _)
  refine Eq.trans hk ?_
  have hr' : (bulkInsertLoop (preCommit f a L).global H.acts (preCommit f a L).routes.ents 0).1.map seen = (view L).rules := hr
  rw [hr']

/-- C84: LOAD_THEN_COMMIT without NO_FLUSH: what is in force afterwards is what the document's calls make of the start the flags ask for, with
actions enabled.  Missing: as in `C84_in_place_partial`. -/
theorem C84_commit_partial (hM : Mild H.acts) (hI : Issues H issued) {tail : Tail} {f : LoadFlags} {json : Option Config} {w : World}
    {chunks : List (List Byte)} (hG : Good issued [] w.cx) (hR : Readable tail json chunks) (hd : f.dryRun = false) (hc : f.thenCommit = true)
    (hf : f.noFlush = false) (hn : f.noRules = false) (h : (use H tail f json w chunks).res = none) :
    let v' := view (use H tail f json w chunks).world.cx
    (∃ j calls v1, TextOf (json.getD defaultJson) chunks.flatten j ∧
      Done H.store calls (startOnClone f (ofCfg (cfgGet w.cx.config0)) (view w.cx)) v1 ∧
      Pairs (AsksFor H.env) (ruleObjects j) (calls.filter isRuleCall) ∧ v' = enabledView v1) ∧
    Good issued [] (use H tail f json w chunks).world.cx := by
  intro v'
  obtain ⟨hfi, hj⟩ := use_ok h
  have hcl : f.onClone = true := by unfold LoadFlags.onClone; rw [hc, Bool.or_true]
  have hw : Whole f w.cx := by
    by_cases hw : Whole f w.cx
    · exact hw
    · rw [init_unclonable H tail json w chunks f hfi hj hcl hw] at h; cases h
  have hdry : (use H tail { f with dryRun := true } json w chunks).res = none := by
    cases hx : (use H tail { f with dryRun := true } json w chunks).res with
    | none => rfl
    | some e => have := (C83_all_or_nothing H tail json w chunks f hc e hx).1; rw [h] at this; cases this
  obtain ⟨h0, h1, _⟩ := committed H tail json w chunks f hd hc hdry
  obtain ⟨j, ht, hl⟩ := (C56_text_meaning_partial H.env (noEmptyEvent H) tail hR.place _ hR.strict f.noRules _ chunks hR.whole (Draft f w) _).1 ⟨h0, rfl⟩
  rw [hn] at hl
  obtain ⟨⟨calls, hdn, hp⟩, hg⟩ := C84_document hM hI (draft_good hf hG) hl
  rw [view_draft hf hw] at hdn
  have hg' := (commit_good hM hf hg).1
  have he : (use H tail f json w chunks).world.cx =
      { preCommit f w.cx (load H.env tail (json.getD defaultJson) false (ofCfg (cfgGet (Draft f w).cx.config)) (Draft f w) chunks).user.1.cx with
        routes := (bulkInsertActions (preCommit f w.cx (load H.env tail (json.getD defaultJson) false (ofCfg (cfgGet (Draft f w).cx.config)) (Draft f w) chunks).user.1.cx).global
          H.acts (preCommit f w.cx (load H.env tail (json.getD defaultJson) false (ofCfg (cfgGet (Draft f w).cx.config)) (Draft f w) chunks).user.1.cx).routes 0).1 } := by
    rw [← hn]; exact h1
  refine ⟨⟨j, calls, _, ht, hdn, hp, ?_⟩, by rw [he]; exact hg'⟩
  simp only [v', he]
  exact view_committed hM hf hg

/-! ### What this means for the rules -/

theorem _root_.WS.Spec.Ld.Twin.refl (x : Seen) : Twin x x := ⟨rfl, rfl, rfl, rfl, rfl, fun _ _ => rfl⟩

theorem _root_.WS.Spec.Ld.Twin.symm {x y : Seen} (h : Twin x y) : Twin y x :=
  ⟨h.1.symm, h.2.1.symm, h.2.2.1.symm, h.2.2.2.1.symm, h.2.2.2.2.1.symm, fun k hk => (h.2.2.2.2.2 k hk).symm⟩

theorem _root_.WS.Spec.Ld.Twin.trans {x y z : Seen} (h : Twin x y) (h' : Twin y z) : Twin x z :=
  ⟨h.1.trans h'.1, h.2.1.trans h'.2.1, h.2.2.1.trans h'.2.2.1, h.2.2.2.1.trans h'.2.2.2.1, h.2.2.2.2.1.trans h'.2.2.2.2.1,
    fun k hk => (h.2.2.2.2.2 k hk).trans (h'.2.2.2.2.2 k hk)⟩

/-- The call, one of `cs`, asks for the rule at its place in the sequence. -/
def AskedAt (store : List (List Byte × UserValue) → List Byte → UserValue → Except Err (List (List Byte × UserValue))) (cs : List Call) (v : View)
    (c : Call) (s : Seen) : Prop :=
  ∃ pre post u remote loc flags l, cs = pre ++ c :: post ∧ Done store pre v u ∧ c = .routeInsert remote loc flags l ∧ AskedFor u remote loc flags l s

/-- C84: with no limit on rules that expire, every rule asked for is in force at the end, and so is every rule that was before: if not the
rule itself, then one that matches the same traffic for the same event; and nothing else is.  If no rule is marked as to be deleted, the
rules in force are exactly those before and those asked for, each once. -/
theorem C84_rules {store : List (List Byte × UserValue) → List Byte → UserValue → Except Err (List (List Byte × UserValue))} {cs : List Call} {v v' : View}
    (h : Done store cs v v') (hl : v.limit = 0) (hm : ∀ n, Call.maxPurgeableRoutes n ∉ cs) :
    ∃ news : List Seen, Pairs (AskedAt store cs v) (cs.filter isRuleCall) news ∧
      (∀ x ∈ news ++ v.rules, ∃ y ∈ v'.rules, Twin y x) ∧ (∀ y ∈ v'.rules, ∃ x ∈ news ++ v.rules, Twin y x) ∧
      ((∀ x ∈ news ++ v.rules, x.flags.getLsbD 15 = false) → v'.rules.Perm (news ++ v.rules)) := by
  induction h with
  | nil v => exact ⟨[], .nil, fun x hx => ⟨x, hx, Twin.refl x⟩, fun y hy => ⟨y, hy, Twin.refl y⟩, fun _ => List.Perm.refl _⟩
  | @cons k ks v v1 v2 hd hD ih =>
    have shift : ∀ {l : List Call} {ns : List Seen}, Pairs (AskedAt store ks v1) l ns → Pairs (AskedAt store (k :: ks) v) l ns := by
      intro l ns hp
      induction hp with
      | nil => exact .nil
      | cons h1 _ ih =>
        refine .cons ?_ ih
        obtain ⟨pre, post, u, r, lo, fl, lb, e, hdn, hc, ha⟩ := h1
        exact ⟨k :: pre, post, u, r, lo, fl, lb, by rw [e]; rfl, .cons hd hdn, hc, ha⟩
    have other : isRuleCall k = false → v1.limit = 0 → v1.rules = v.rules → ∃ news : List Seen, Pairs (AskedAt store (k :: ks) v) ((k :: ks).filter isRuleCall) news ∧
      (∀ x ∈ news ++ v.rules, ∃ y ∈ v2.rules, Twin y x) ∧ (∀ y ∈ v2.rules, ∃ x ∈ news ++ v.rules, Twin y x) ∧
      ((∀ x ∈ news ++ v.rules, x.flags.getLsbD 15 = false) → v2.rules.Perm (news ++ v.rules)) := by
      intro hk h1 h2
      obtain ⟨news, p1, p2, p3, p4⟩ := ih h1 (fun n hn => hm n (List.mem_cons_of_mem _ hn))
      rw [h2] at p2 p3 p4
      exact ⟨news, by rw [List.filter_cons_of_neg (by rw [hk]; decide)]; exact shift p1, p2, p3, p4⟩
    cases hd with
    | config => exact other rfl hl rfl
    | policy => exact other rfl hl rfl
    | limit => exact absurd (List.mem_cons_self ..) (hm _)
    | idle => exact other rfl hl rfl
    | dflt _ => exact other rfl hl rfl
    | event _ _ => exact other rfl hl rfl
    | eventConfig _ _ => exact other rfl hl rfl
    | aux _ _ => exact other rfl hl rfl
    | action _ _ _ => exact other rfl hl rfl
    | copy _ _ _ _ => exact other rfl hl rfl
    | copyNone _ _ => exact other rfl hl rfl
    | store _ => exact other rfl hl rfl
    | @rule _ remote loc flags l s kept rules ha hroom hent =>
      have hkept : kept = v.rules := by
        cases hroom with
        | enough _ => rfl
        | evicted _ h0 _ _ _ _ _ => omega
      subst hkept
      obtain ⟨news, p1, p2, p3, p4⟩ := ih hl (fun n hn => hm n (List.mem_cons_of_mem _ hn))
      have p2 : ∀ x ∈ news ++ rules, ∃ y ∈ v2.rules, Twin y x := p2
      have p3 : ∀ y ∈ v2.rules, ∃ x ∈ news ++ rules, Twin y x := p3
      have p4 : (∀ x ∈ news ++ rules, x.flags.getLsbD 15 = false) → v2.rules.Perm (news ++ rules) := p4
      have hask : AskedAt store (.routeInsert remote loc flags l :: ks) v (.routeInsert remote loc flags l) s :=
        ⟨[], ks, v, remote, loc, flags, l, rfl, .nil v, rfl, ha⟩
      -- the rules after the call stand for those before and the one asked for
      have hto : ∀ x, x = s ∨ x ∈ v.rules → ∃ y ∈ rules, Twin y x := by
        intro x hx
        cases hent with
        | new _ hperm =>
          refine ⟨x, hperm.mem_iff.2 ?_, Twin.refl x⟩
          rcases hx with hx | hx
          · rw [hx]; exact List.mem_cons_self ..
          · exact List.mem_cons_of_mem _ hx
        | @revived z rest _ hperm ht h15 hperm' =>
          have hz : Twin { z with flags := z.flags &&& ~~~bit 15, expiry := s.expiry } z := by
            refine ⟨rfl, rfl, rfl, rfl, rfl, fun k hk => ?_⟩
            show (z.flags &&& ~~~bit 15).getLsbD k = _
            have hb : ∀ k : Fin 14, (~~~bit 15 : Flags).getLsbD k.val = true := by decide
            rw [BitVec.getLsbD_and, hb ⟨k, hk⟩, Bool.and_true]
          have hin := hperm'.mem_iff.2 (List.mem_cons_self ..)
          rcases hx with hx | hx
          · exact ⟨_, hin, by rw [hx]; exact hz.trans ht⟩
          · rcases List.mem_cons.1 (hperm.mem_iff.1 hx) with hx | hx
            · exact ⟨_, hin, by rw [hx]; exact hz⟩
            · exact ⟨x, hperm'.mem_iff.2 (List.mem_cons_of_mem _ hx), Twin.refl x⟩
      have hfrom : ∀ y ∈ rules, ∃ x, (x = s ∨ x ∈ v.rules) ∧ Twin y x := by
        intro y hy
        cases hent with
        | new _ hperm =>
          rcases List.mem_cons.1 (hperm.mem_iff.1 hy) with hy | hy
          · exact ⟨y, .inl hy, Twin.refl y⟩
          · exact ⟨y, .inr hy, Twin.refl y⟩
        | @revived z rest _ hperm ht h15 hperm' =>
          rcases List.mem_cons.1 (hperm'.mem_iff.1 hy) with hy | hy
          · refine ⟨z, .inr (hperm.mem_iff.2 (List.mem_cons_self ..)), ?_⟩
            rw [hy]
            refine ⟨rfl, rfl, rfl, rfl, rfl, fun k hk => ?_⟩
            show (z.flags &&& ~~~bit 15).getLsbD k = _
            have hb : ∀ k : Fin 14, (~~~bit 15 : Flags).getLsbD k.val = true := by decide
            rw [BitVec.getLsbD_and, hb ⟨k, hk⟩, Bool.and_true]
          · exact ⟨y, .inr (hperm.mem_iff.2 (List.mem_cons_of_mem _ hy)), Twin.refl y⟩
      refine ⟨s :: news, ?_, ?_, ?_, ?_⟩
      · show Pairs _ (Call.routeInsert remote loc flags l :: ks.filter isRuleCall) _
        exact .cons hask (shift p1)
      · intro x hx
        have hx : x = s ∨ x ∈ news ∨ x ∈ v.rules := by simpa using hx
        rcases hx with hx | hx | hx
        · obtain ⟨y, hy, ht⟩ := hto x (.inl hx)
          obtain ⟨z, hz, ht'⟩ := p2 y (List.mem_append_right _ hy)
          exact ⟨z, hz, ht'.trans ht⟩
        · exact p2 x (List.mem_append_left _ hx)
        · obtain ⟨y, hy, ht⟩ := hto x (.inr hx)
          obtain ⟨z, hz, ht'⟩ := p2 y (List.mem_append_right _ hy)
          exact ⟨z, hz, ht'.trans ht⟩
      · intro y hy
        obtain ⟨x, hx, ht⟩ := p3 y hy
        rcases List.mem_append.1 hx with hx | hx
        · exact ⟨x, by simp [hx], ht⟩
        · obtain ⟨z, hz, ht'⟩ := hfrom x hx
          refine ⟨z, ?_, ht.trans ht'⟩
          rcases hz with hz | hz
          · simp [hz]
          · simp [hz]
      · intro h15
        cases hent with
        | new _ hperm =>
          refine (p4 (fun x hx => ?_)).trans ?_
          · rcases List.mem_append.1 hx with hx | hx
            · exact h15 x (by simp [hx])
            · rcases List.mem_cons.1 (hperm.mem_iff.1 hx) with hx | hx
              · exact h15 x (by simp [hx])
              · exact h15 x (by simp [hx])
          · exact (List.Perm.append_left news hperm).trans List.perm_middle
        | @revived z rest _ hperm ht hz15 hperm' =>
          have := h15 z (List.mem_append_right _ (hperm.mem_iff.2 (List.mem_cons_self ..)))
          rw [this] at hz15; cases hz15

/-- C84: no two rules in force match the same traffic for the same event. -/
theorem C84_no_twins {c : Cx} (hG : Good issued [] c) : (view c).rules.Pairwise (fun x y => ¬ Twin x y) := by
  show (c.routes.ents.map seen).Pairwise _
  rw [List.pairwise_map]
  refine List.Pairwise.imp_of_mem ?_ hG.table.core.sorted.sorted
  intro a b ha hb hlt ht
  have := (twin_iff hG (hG.linked a ha) (hG.linked b hb) (hG.table.core.sorted.wf a ha) (hG.table.core.sorted.wf b hb)).1 ht
  rw [this] at hlt; cases hlt

/-- C84: and every rule in force is found, and alone is found, when asked for by what it matches. -/
theorem C84_found {c : Cx} (hG : Good issued [] c) {s : Seen} (hs : s ∈ (view c).rules) :
    ∃ r ∈ c.routes.ents, seen r = s ∧ ∀ ares fuel, lookup c.routes r true ares fuel = some (.ok (r, 0)) := by
  obtain ⟨r, hr, rfl⟩ := List.mem_map.1 hs
  exact ⟨r, hr, rfl, fun ares fuel => C11_own_key c.routes r ares fuel hG.table.core.sorted hr⟩

/-! ### The contexts these theorems are about -/

/-- What a program does with a context, as far as it succeeds: it starts with one without rules and events, registers actions, makes library calls
and loads configurations. -/
inductive Lived (H : Host) : World → Prop
  | fresh {w : World} (limit : Nat) (idle : Int) (ft : Option Nat) (p : Flags) : w.cx.events = [] → w.cx.actions = [] →
      w.cx.routes = { maxPurgeableRoutes := limit, maxPurgeableIdleTime := idle, fallthroughRoute := ft, defaultPolicy := p } → Lived H w
  | register {w : World} {l : List Byte} {a : Nat} : Lived H w → (∀ b ∈ w.cx.actions, b.1 ≠ l) →
      Lived H { w with cx := { w.cx with actions := w.cx.actions ++ [(l, a)] } }
  | call {w w' : World} {k : Call} : Lived H w → Fits k → libCall H w k = (w', none) → Lived H w'
  | load {w : World} {tail : Tail} {f : LoadFlags} {json : Option Config} {chunks : List (List Byte)} : Lived H w → Readable tail json chunks →
      f.dryRun = false → (f.thenCommit = true → f.noFlush = false) → f.noRules = false → (use H tail f json w chunks).res = none →
      Lived H (use H tail f json w chunks).world

/-- C84: such contexts are in order, as the theorems above suppose. -/
theorem C84_lived (hM : Mild H.acts) (hI : Issues H issued) {w : World} (h : Lived H w) : Good issued [] w.cx := by
  induction h with
  | fresh limit idle ft p he ha hr =>
    refine fresh_good ?_ ?_ ?_ ?_ ?_ (by rw [he]; exact List.Pairwise.nil) (by rw [ha]; intro a h; cases h) (fun i h => by cases h) <;> rw [hr]
  | @register w l a _ hn ih =>
    refine ⟨ih.table, ih.queue, ih.linked, ih.events, ?_, ih.ids, ih.past⟩
    intro x hx y hy hxy
    rcases List.mem_append.1 hx with hx | hx <;> rcases List.mem_append.1 hy with hy | hy
    · exact ih.actions x hx y hy hxy
    · rw [List.mem_singleton.1 hy] at hxy; exact absurd hxy (hn x hx)
    · rw [List.mem_singleton.1 hx] at hxy; exact absurd hxy.symm (hn y hy)
    · rw [List.mem_singleton.1 hx, List.mem_singleton.1 hy]
  | call _ hf hc ih => exact (C84_call hM hI ih hf hc).2
  | @load w tail f json chunks _ hR hd hc hn h ih =>
    cases ht : f.thenCommit
    · exact (C84_in_place_partial hM hI ih hR hd ht hn h).2
    · exact (C84_commit_partial hM hI ih hR hd ht (hc ht) hn h).2

end

/-! ### Non-vacuity -/

theorem txHost_mild : Mild txHost.acts := by
  refine ⟨?_, fun t i r a => rfl⟩
  intro t i r a
  exact KeepsKey.refl r

theorem txHost_issues : Issues txHost (fun s i => i ≤ s) := by
  intro s i s' h
  injection h with h
  injection h with h1 h2
  subst h1 h2
  exact ⟨Nat.succ_ne_zero s, Nat.not_succ_le_self s, Nat.le_refl _, fun j hj => Nat.le_succ_of_le hj⟩

/-- A context with action "a" and nothing else. -/
def ldWorld : World := { cx := { idState := 10, actions := [(ascii "a", 1)] } }

theorem ldWorld_lived : Lived txHost ldWorld :=
  .register (w := { cx := { idState := 10 } }) (.fresh 0 0 none 0 rfl rfl rfl) (fun b hb => by cases hb)

theorem txText_readable : Readable plainTail none [txText] := by
  refine ⟨plainTail_inPlace, by show Spec.Json.Strict defaultJson; unfold Spec.Json.Strict; decide, fun evs hcut => ?_⟩
  refine (show ¬ Spec.Json.EndsInWord [txText].flatten from ?_) (Sax.cutOff_ends hcut)
  rintro ⟨t, c, e, g⟩
  have h1 : ([txText].flatten).getLast? = some 0x7d#8 := by decide +kernel
  rw [e, List.getLast?_append] at h1
  simp at h1
  subst h1
  unfold Spec.Json.Digit at g
  revert g
  decide

/-- The sample is loaded in place, then again over itself with LOAD_THEN_COMMIT; the rule is in force. -/
def ldOnce : World := (use txHost plainTail {} none ldWorld [txText]).world

theorem ldOnce_ok : (use txHost plainTail {} none ldWorld [txText]).res = none := by decide +kernel

theorem ldOnce_lived : Lived txHost ldOnce := .load ldWorld_lived txText_readable rfl (fun h => by cases h) rfl ldOnce_ok

example : (use txHost plainTail { thenCommit := true } none ldOnce [txText]).res = none := by decide +kernel

example : Lived txHost (use txHost plainTail { thenCommit := true } none ldOnce [txText]).world :=
  .load ldOnce_lived txText_readable rfl (fun _ => rfl) rfl (by decide +kernel)

example : ∃ j calls, TextOf (Option.getD none defaultJson) [txText].flatten j ∧
    Done txHost.store calls (startInPlace {} (view ldWorld.cx)) (view (use txHost plainTail {} none ldWorld [txText]).world.cx) ∧
    Pairs (AsksFor txHost.env) (ruleObjects j) (calls.filter isRuleCall) :=
  (C84_in_place_partial txHost_mild txHost_issues (C84_lived txHost_mild txHost_issues ldWorld_lived) txText_readable rfl rfl rfl ldOnce_ok).1

example : (view ldOnce.cx).rules.length = 1 ∧ (view ldOnce.cx).rules.map (fun s => (s.event, s.family, s.proto, s.remote.port)) = [(some (ascii "n"), 2, 6, 7)] := by
  decide +kernel

/-- The purge limit of the sample is 0 and its rules are not marked as to be deleted. -/
example : (startInPlace {} (view ldWorld.cx)).limit = 0 ∧ ∀ x ∈ (view ldOnce.cx).rules, x.flags.getLsbD 15 = false := by decide +kernel

/-! ### Findings -/

/-- Two rules that expire after an hour. -/
def ldExpiring (limit : String) : List Byte := ascii ("{\"wolfsentry-config-version\":1,\"config-update\":{\"route-idle-time-for-purge\":3600,\"max-purgeable-routes\":" ++ limit ++
  "},\"routes\":[{\"family\":2,\"direction-in\":true,\"protocol\":6,\"remote\":{\"port\":7}},{\"family\":2,\"direction-in\":true,\"protocol\":6,\"remote\":{\"port\":8}}]}")

/-- The limit set to 1, and nothing else. -/
def ldLimit : List Byte := ascii "{\"wolfsentry-config-version\":1,\"config-update\":{\"max-purgeable-routes\":1}}"

/-- C84, finding: a document that lowers the limit on rules that expire is refused (ALREADY) when none has expired yet, but the limit is
lowered (src/routes.c:2058-2063). -/
theorem C84_finding_lower_limit_refused :
    (use txHost plainTail {} none ldWorld [ldExpiring "5"]).res = none ∧
    (use txHost plainTail { noFlush := true } none (use txHost plainTail {} none ldWorld [ldExpiring "5"]).world [ldLimit]).res = some .already ∧
    (use txHost plainTail { noFlush := true } none (use txHost plainTail {} none ldWorld [ldExpiring "5"]).world [ldLimit]).world.cx.routes.maxPurgeableRoutes = 1 := by
  decide +kernel

/-- C84, finding: from no limit (0) to a limit nothing is purged, and the load succeeds with more such rules than the limit. -/
theorem C84_finding_limit_exceeded :
    (use txHost plainTail {} none ldWorld [ldExpiring "0"]).res = none ∧
    (use txHost plainTail { noFlush := true } none (use txHost plainTail {} none ldWorld [ldExpiring "0"]).world [ldLimit]).res = none ∧
    (view (use txHost plainTail { noFlush := true } none (use txHost plainTail {} none ldWorld [ldExpiring "0"]).world [ldLimit]).world.cx).limit = 1 ∧
    expiring (view (use txHost plainTail { noFlush := true } none (use txHost plainTail {} none ldWorld [ldExpiring "0"]).world [ldLimit]).world.cx).rules = 2 := by
  decide +kernel

end WS.Props
