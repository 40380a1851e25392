import Verif.Proof.Firewall3
import Verif.Props.Restore
/-
C86: a loaded configuration decides the traffic.
-/
namespace WS.Props
open WS WS.Conf WS.Sax WS.LT WS.Spec WS.Spec.LT WS.Spec.Ld WS.Ld WS.Spec.Load WS.Spec.Fw WS.Fw

section
variable {σ : Type} {E : DispEnv σ} {resolve : List Byte → Except Err Event} {label : Option (List Byte)} {trig : Option Event} {fuel : Nat} {res : DispRes σ}
  {issued : Nat → Nat → Prop} {old : List Nat} {c : Cx} {p : Packet} {a : Flags}

/-- C86, in a context in order: a dispatch about a fully known packet that reports nothing ends as the rules in force say, as long as nothing has
been charged to them.  Missing for the full property: rules for any family, masks, prefixes that are not a multiple of four bits or longer than
the packet's addresses, and rules equal to the packet in all fields (C09, C10); configurations that add or clear verdicts by themselves; post
actions for traffic without a rule; handlers that interfere. -/
theorem C86_decided_partial (hE : Observing E) (hG : Good issued old c) {w : WS.World σ} (hT : w.T = c.routes) (hg : E.g = c.global)
    (hF : Fit (view c) p) (hU : ∀ r ∈ c.routes.ents, Unused r) (hQ : Quiet (view c))
    (hdef : ∀ e g, c.routes.defaultEvent = some e → e.config = some g → Neutral g) (hp : Definite p) (hs : Silent a)
    (htrig : triggerOf resolve p.flags label = .ok trig) (hpost : ∀ x, trig.or c.routes.defaultEvent = some x → x.postActions = [])
    (h : E.dispatch1 resolve w p.from p.to p.flags label a fuel = some res) : Decides (view c) a p res.ret res.ares := by
  have hx : ¬ (a.getLsbD 4 = true ∧ a.getLsbD 5 = true) := by rw [hs 4 (by decide)]; rintro ⟨g, _⟩; cases g
  cases hl : lookup c.routes (targetOf trig p) false (some a) fuel with
  | none =>
    unfold DispEnv.dispatch1 at h
    simp only [htrig, init_packet hp, hT, hl] at h
    cases h
  | some x =>
    rcases lookup_first hG.sane hF hp hx hl with ⟨r, inx, rfl, hr, hfst⟩ | ⟨⟨e, rfl⟩, hun⟩
    · have hl' : lookup w.T (targetOf trig p) false (some a) fuel = some (.ok (r, inx)) := by rw [hT]; exact hl
      exact .inl ⟨seen r, hfst, found_ok hp htrig hl' h, answers_of hE hG.sane hT hg hQ hdef hp hs htrig hr (hU r hr) hl' h⟩
    · have hl' : lookup w.T (targetOf trig p) false (some a) fuel = some (.error e) := by rw [hT]; exact hl
      obtain ⟨h1, h2, h3, h4⟩ := C23_no_rule_default_policy htrig (init_packet hp trig) hl' (by rw [hT]; exact hpost) h
      refine .inr ⟨hun, h1, fun k => ?_⟩
      rw [h4 k, reported_silent hx, hT]; rfl

/-- C86: the search for the rule comes to an end. -/
theorem C86_search_ends_partial (hG : Good issued old c) (ho : ∀ s ∈ (view c).rules, Ordinary s) (hf : (view c).rules.length + 1 < fuel) (t : Route) :
    ∃ res, lookup c.routes t false (some a) fuel = some res := lookup_returns hG.sane ho hf t
end

section
variable {H : Host} {issued : Nat → Nat → Prop} {tail : Tail} {f : LoadFlags} {json : Option Config} {w : LT.World} {chunks : List (List Byte)}

/-- The rules in force in the context decide the traffic: whatever a dispatch returns about a fully known packet, if it reports nothing, all rules are
ordinary and no longer than the packet's addresses, no configuration decides by itself, the event in force has no post actions, and handlers only
observe. -/
def Governs (c : Cx) : Prop :=
  ∀ (σ : Type) (E : DispEnv σ) (wd : WS.World σ) (resolve : List Byte → Except Err Event) (label : Option (List Byte)) (trig : Option Event)
    (p : Packet) (a : Flags) (fuel : Nat) (res : DispRes σ),
    Observing E → wd.T = c.routes → E.g = c.global → Definite p → Silent a →
    (∀ s ∈ (view c).rules, Ordinary s ∧ Fitting s p) → Quiet (view c) →
    (∀ e g, c.routes.defaultEvent = some e → e.config = some g → Neutral g) →
    triggerOf resolve p.flags label = .ok trig → (∀ x, trig.or c.routes.defaultEvent = some x → x.postActions = []) →
    E.dispatch1 resolve wd p.from p.to p.flags label a fuel = some res → Decides (view c) a p res.ret res.ares

theorem governs_of {old : List Nat} {c : Cx} (hG : Good issued old c) (hN : ∀ s ∈ (view c).rules, Neat s) (hU : AllFresh c.routes) : Governs c := by
  intro σ E wd resolve label trig p a fuel res hE hT hg hp hs hord hQ hdef htrig hpost hdis
  refine C86_decided_partial hE hG hT hg ⟨fun s hs => (hord s hs).1, fun s hs => (hord s hs).2, fun s hs => ?_⟩ hU hQ hdef hp hs htrig hpost hdis
  exact ⟨(hN s hs).1 (hord s hs).1.remote, (hN s hs).2 (hord s hs).1.loc⟩

/-- The rules in force are those of the document with these calls, made from this start. -/
def RulesOf (H : Host) (calls : List Call) (start : View) (v : View) : Prop :=
  ∃ rules, Pairs (AskedAt H.store calls start) (calls.filter isRuleCall) rules ∧
    (∀ x ∈ rules, ∃ y ∈ v.rules, Twin y x) ∧ (∀ y ∈ v.rules, ∃ x ∈ rules, Twin y x)

theorem rulesOf_done {calls : List Call} {v v' : View} (h : Done H.store calls v v') (h0 : v.rules = []) (hl : v.limit = 0)
    (hm : ∀ n, Call.maxPurgeableRoutes n ∉ calls) : RulesOf H calls v v' := by
  obtain ⟨rules, r1, r2, r3, _⟩ := C84_rules h hl hm
  rw [h0, List.append_nil] at r2 r3
  exact ⟨rules, r1, r2, r3⟩

/-- What a load leaves: a context in order, with rules that nothing has been charged to. -/
theorem document_facts (hM : Mild H.acts) (hS : Still H.acts) (hI : Issues H issued) (hG : Good issued [] w.cx)
    (hR : Readable tail json chunks) (hd : f.dryRun = false) (hc : f.thenCommit = false) (hn : f.noRules = false) (hf : f.noFlush = false)
    (h : (use H tail f json w chunks).res = none) :
    let c := (use H tail f json w chunks).world.cx
    (∃ j calls, TextOf (json.getD defaultJson) chunks.flatten j ∧ Pairs (AsksFor H.env) (ruleObjects j) (calls.filter isRuleCall) ∧
      Done H.store calls (startInPlace f (view w.cx)) (view c) ∧
      ((view w.cx).limit = 0 → (∀ n, Call.maxPurgeableRoutes n ∉ calls) → RulesOf H calls (startInPlace f (view w.cx)) (view c))) ∧
    Good issued [] c ∧ (∀ s ∈ (view c).rules, Neat s) ∧ AllFresh c.routes := by
  intro c
  obtain ⟨hfi, hj⟩ := use_ok h
  obtain ⟨h1, h2⟩ := C83_in_place H tail json w chunks f hd hc hfi hj
  have h3 := h2.1 h
  obtain ⟨j, ht, hl⟩ := (C56_text_meaning_partial H.env (noEmptyEvent H) tail hR.place _ hR.strict f.noRules _ chunks hR.whole (InPlace H f w) _).1 ⟨h3, rfl⟩
  rw [hn] at hl
  obtain ⟨cs, hm, hp⟩ := loads_calls hl
  have hGp := inPlace_good H f hG
  have hstart : (startInPlace f (view w.cx)).rules = [] := by unfold startInPlace; simp only [hf]; rfl
  have hempty : (view (InPlace H f w).cx).rules = [] := by rw [view_inPlace]; exact hstart
  have hents : (InPlace H f w).cx.routes.ents = [] := by
    have : ((InPlace H f w).cx.routes.ents.map seen) = [] := hempty
    simpa using this
  obtain ⟨hG', hdn⟩ := made_done hM hI hm (calls_fit hp) hGp
  have hfr := made_fresh hM hS hI hm (calls_fit hp) hGp (fun r hr => by rw [hents] at hr; cases hr)
  have hnt := done_neat hdn (calls_fit hp) (fun s hs => by rw [hempty] at hs; cases hs)
  have he : (use H tail f json w chunks).world = (load H.env tail (json.getD defaultJson) f.noRules (ofCfg (cfgGet w.cx.config)) (InPlace H f w) chunks).user.1 := h1
  rw [hn] at he
  rw [view_inPlace] at hdn
  simp only [c, he]
  exact ⟨⟨j, cs, ht, hp, hdn, fun hl hm => rulesOf_done hdn hstart hl hm⟩, hG', hnt, hfr⟩

/-- C86: after a load in place that succeeds, the traffic is decided by what is in force (`Governs`), and what is in force is what the document's calls
make of the start the flags ask for; if neither the context nor the document limits the number of rules that expire, the rules that decide are
those of the document: each is in force, and there are no others.  Missing: as in `C86_decided_partial` and C84; handlers that change counts. -/
theorem C86_document_partial (hM : Mild H.acts) (hS : Still H.acts) (hI : Issues H issued) (hG : Good issued [] w.cx)
    (hR : Readable tail json chunks) (hd : f.dryRun = false) (hc : f.thenCommit = false) (hn : f.noRules = false) (hf : f.noFlush = false)
    (h : (use H tail f json w chunks).res = none) :
    let c := (use H tail f json w chunks).world.cx
    (∃ j calls, TextOf (json.getD defaultJson) chunks.flatten j ∧ Pairs (AsksFor H.env) (ruleObjects j) (calls.filter isRuleCall) ∧
      Done H.store calls (startInPlace f (view w.cx)) (view c) ∧
      ((view w.cx).limit = 0 → (∀ n, Call.maxPurgeableRoutes n ∉ calls) → RulesOf H calls (startInPlace f (view w.cx)) (view c))) ∧
    Governs c := by
  intro c
  obtain ⟨h1, h2, h3, h4⟩ := document_facts hM hS hI hG hR hd hc hn hf h
  exact ⟨h1, governs_of h2 h3 h4⟩

/-- What a load leaves: a context in order, with rules that nothing has been charged to. -/
theorem commit_usable (hM : Mild H.acts) (hS : Still H.acts) (hI : Issues H issued) (hG : Usable issued w.cx)
    (hR : Readable tail json chunks) (hd : f.dryRun = false) (hc : f.thenCommit = true) (hn : f.noRules = false) (hf : f.noFlush = false)
    (h : (use H tail f json w chunks).res = none) :
    let c := (use H tail f json w chunks).world.cx
    let start := startOnClone f (ofCfg (cfgGet w.cx.config0)) (view w.cx)
    (∃ j calls v1, TextOf (json.getD defaultJson) chunks.flatten j ∧ Pairs (AsksFor H.env) (ruleObjects j) (calls.filter isRuleCall) ∧
      Done H.store calls start v1 ∧ view c = enabledView v1 ∧
      (start.limit = 0 → (∀ n, Call.maxPurgeableRoutes n ∉ calls) → RulesOf H calls start (view c))) ∧
    Good issued [] c ∧ (∀ s ∈ (view c).rules, Neat s) ∧ AllFresh c.routes := by
  intro c start
  obtain ⟨hfi, hj⟩ := use_ok h
  have hcl : f.onClone = true := by unfold LoadFlags.onClone; rw [hc, Bool.or_true]
  have hw : Whole f w.cx := by
    by_cases hw : Whole f w.cx
    · exact hw
    · rw [init_unclonable H tail json w chunks f hfi hj hcl hw] at h; cases h
  have hdry : (use H tail { f with dryRun := true } json w chunks).res = none := by
    cases hx : (use H tail { f with dryRun := true } json w chunks).res with
    | none => rfl
    | some e => have := (C83_all_or_nothing H tail json w chunks f hc e hx).1; rw [h] at this; cases this
  obtain ⟨h0, h1, _⟩ := committed H tail json w chunks f hd hc hdry
  obtain ⟨j, ht, hl⟩ := (C56_text_meaning_partial H.env (noEmptyEvent H) tail hR.place _ hR.strict f.noRules _ chunks hR.whole (Draft f w) _).1 ⟨h0, rfl⟩
  rw [hn] at hl
  obtain ⟨cs, hm, hp⟩ := loads_calls hl
  have hGd := draft_usable hf hG
  have hempty : (view (Draft f w).cx).rules = [] := by rw [view_draft hf hw]; rfl
  have hents : (Draft f w).cx.routes.ents = [] := by
    have : ((Draft f w).cx.routes.ents.map seen) = [] := hempty
    simpa using this
  obtain ⟨hG', hdn⟩ := made_done hM hI hm (calls_fit hp) hGd
  have hfr := made_fresh hM hS hI hm (calls_fit hp) hGd (fun r hr => by rw [hents] at hr; cases hr)
  have hnt := done_neat hdn (calls_fit hp) (fun s hs => by rw [hempty] at hs; cases hs)
  rw [view_draft hf hw] at hdn
  have he : (use H tail f json w chunks).world.cx =
      { preCommit f w.cx (load H.env tail (json.getD defaultJson) false (ofCfg (cfgGet (Draft f w).cx.config)) (Draft f w) chunks).user.1.cx with
        routes := (bulkInsertActions (preCommit f w.cx (load H.env tail (json.getD defaultJson) false (ofCfg (cfgGet (Draft f w).cx.config)) (Draft f w) chunks).user.1.cx).global
          H.acts (preCommit f w.cx (load H.env tail (json.getD defaultJson) false (ofCfg (cfgGet (Draft f w).cx.config)) (Draft f w) chunks).user.1.cx).routes 0).1 } := by
    rw [← hn]; exact h1
  have hv := view_committed hM hf hG' (f := f) (a := w.cx)
  have hgood := (commit_good hM hf hG').1
  have hfresh := commit_fresh hS hf hG' hfr
  rw [← he] at hv hgood
  refine ⟨⟨j, cs, _, ht, hp, hdn, hv, fun hl hm => ?_⟩, hgood, ?_, ?_⟩
  · have := rulesOf_done hdn rfl hl hm
    obtain ⟨rules, r1, r2, r3⟩ := this
    refine ⟨rules, r1, ?_, ?_⟩
    · rw [hv]; exact r2
    · rw [hv]; exact r3
  · rw [hv]; exact hnt
  · simp only [c, he]; exact hfresh

theorem commit_facts (hM : Mild H.acts) (hS : Still H.acts) (hI : Issues H issued) (hG : Good issued [] w.cx)
    (hR : Readable tail json chunks) (hd : f.dryRun = false) (hc : f.thenCommit = true) (hn : f.noRules = false) (hf : f.noFlush = false)
    (h : (use H tail f json w chunks).res = none) :
    let c := (use H tail f json w chunks).world.cx
    let start := startOnClone f (ofCfg (cfgGet w.cx.config0)) (view w.cx)
    (∃ j calls v1, TextOf (json.getD defaultJson) chunks.flatten j ∧ Pairs (AsksFor H.env) (ruleObjects j) (calls.filter isRuleCall) ∧
      Done H.store calls start v1 ∧ view c = enabledView v1 ∧
      (start.limit = 0 → (∀ n, Call.maxPurgeableRoutes n ∉ calls) → RulesOf H calls start (view c))) ∧
    Good issued [] c ∧ (∀ s ∈ (view c).rules, Neat s) ∧ AllFresh c.routes := commit_usable hM hS hI hG.usable hR hd hc hn hf h

/-- C86: the same for LOAD_THEN_COMMIT, where actions have been inhibited while the rules were inserted, and have run at the commit. -/
theorem C86_commit_partial (hM : Mild H.acts) (hS : Still H.acts) (hI : Issues H issued) (hG : Good issued [] w.cx)
    (hR : Readable tail json chunks) (hd : f.dryRun = false) (hc : f.thenCommit = true) (hn : f.noRules = false) (hf : f.noFlush = false)
    (h : (use H tail f json w chunks).res = none) :
    let c := (use H tail f json w chunks).world.cx
    let start := startOnClone f (ofCfg (cfgGet w.cx.config0)) (view w.cx)
    (∃ j calls v1, TextOf (json.getD defaultJson) chunks.flatten j ∧ Pairs (AsksFor H.env) (ruleObjects j) (calls.filter isRuleCall) ∧
      Done H.store calls start v1 ∧ view c = enabledView v1 ∧
      (start.limit = 0 → (∀ n, Call.maxPurgeableRoutes n ∉ calls) → RulesOf H calls start (view c))) ∧
    Governs c := by
  intro c start
  obtain ⟨h1, h2, h3, h4⟩ := commit_facts hM hS hI hG hR hd hc hn hf h
  exact ⟨h1, governs_of h2 h3 h4⟩

end

/-! ### Example -/

deriving instance DecidableEq for WS.RouteTable

/-- Default policy REJECT.  Inbound TCP to port 443 is green-listed (priority 2), inbound TCP from 10.0.0.0/8 is in the penalty box (priority 1). -/
def fwText : List Byte := ascii
  "{\"wolfsentry-config-version\":1,\"default-policies\":{\"default-policy\":\"reject\"},\"events\":[{\"label\":\"web\",\"priority\":1},{\"label\":\"rest\",\"priority\":2}],\"routes\":[{\"parent-event\":\"rest\",\"family\":2,\"direction-in\":true,\"green-listed\":true,\"protocol\":6,\"local\":{\"port\":443}},{\"parent-event\":\"web\",\"family\":2,\"direction-in\":true,\"penalty-boxed\":true,\"protocol\":6,\"remote\":{\"address\":\"0a000000\",\"prefix-bits\":8}}]}"

def fwGreen : Route := { id := 13, event := some { label := ascii "rest", priority := 2 }, flags := 0x002046f2#32, family := 2, proto := 6,
                         remote := {}, loc := { port := 443 }, data := { insertTime := 1000 } }
def fwBoxed : Route := { id := 14, event := some { label := ascii "web", priority := 1 }, flags := 0x001046f8#32, family := 2, proto := 6,
                         remote := { bits := 8, addr := [0x0a#8] }, loc := {}, data := { insertTime := 1000 } }
def fwTable : RouteTable := { ents := [fwGreen, fwBoxed], defaultPolicy := bit 1, highestPriority := 1 }

theorem fwFacts : (fun o : Outcome => (o.res, o.world.cx.routes, o.world.cx.config.config.resAdd, o.world.cx.config.config.resClear,
    o.world.cx.events)) (use rsHost plainTail {} none rsFresh [fwText]) =
    (none, fwTable, 0, 0, [{ label := ascii "rest", priority := 2 }, { label := ascii "web", priority := 1 }]) := by decide +kernel

theorem fwSplit {o : Outcome} {a : Option Err} {T : RouteTable} {f g : Flags} {m : List Event}
    (h : (fun o : Outcome => (o.res, o.world.cx.routes, o.world.cx.config.config.resAdd, o.world.cx.config.config.resClear,
      o.world.cx.events)) o = (a, T, f, g, m)) :
    o.res = a ∧ o.world.cx.routes = T ∧ (view o.world.cx).config.resBitsToAdd = f ∧ (view o.world.cx).config.resBitsToClear = g ∧
    o.world.cx.events = m := by
  simp only [Prod.mk.injEq] at h
  exact h

theorem rsHost_still : Still rsHost.acts := fun _ _ _ _ => rfl

/-- A TCP packet to 192.0.2.1. -/
def fwPacket (src : List Byte) (port : Nat) : Packet :=
  { family := 2, proto := 6, remote := { port := 5555, bits := 32, addr := src }, loc := { port := port, bits := 32, addr := [192, 0, 2, 1] }, flags := bit 10 }

theorem fwPacket_definite (src : List Byte) (port : Nat) (h : src.length = 4) : Definite (fwPacket src port) where
  known := by intro k hk; have : ∀ k : Fin 8, (bit 10 : Flags).getLsbD k.val = false := by decide
              exact this ⟨k, hk⟩
  bare := ⟨show (bit 10 : Flags).getLsbD 12 = false by decide, show (bit 10 : Flags).getLsbD 13 = false by decide⟩
  direction := .inl (show (bit 10 : Flags).getLsbD 10 = true by decide)
  remote := ⟨by show src.length * 8 = 32; omega, show 32 ≤ 262136 by decide⟩
  loc := ⟨show 4 * 8 = 32 by decide, show 32 ≤ 262136 by decide⟩

/-- The program that dispatches: handlers that do nothing. -/
def fwEnv (g : EventConfig) : DispEnv Unit := { g := g, clock := .ok 1000, boxClock := .ok 1000, handler := fun _ _ _ w a => (w, a, none) }

theorem fwEnv_observing (g : EventConfig) : Observing (fwEnv g) := fun _ _ _ _ _ => ⟨rfl, rfl, rfl, fun _ _ => rfl⟩

/-- Whatever a dispatch in the loaded context returns about such a packet, it is what the document says. -/
theorem fw_applies {o : Outcome} (ho : o = use rsHost plainTail {} none rsFresh [fwText]) (src : List Byte) (port fuel : Nat) (hsrc : src.length = 4)
    (res : DispRes Unit) (h : (fwEnv o.world.cx.global).dispatch (fun _ => .error .itemNotFound) { T := o.world.cx.routes, ext := () } (fwPacket src port).from
      (fwPacket src port).to (bit 10) none fuel = some res) : Decides (view o.world.cx) 0 (fwPacket src port) res.ret res.ares := by
  have hfacts := fwFacts
  rw [← ho] at hfacts
  obtain ⟨f1, f2, f3, f4, f5⟩ := fwSplit hfacts
  have hload := f1
  rw [ho] at hload
  have hdoc := (C86_document_partial rsHost_mild rsHost_still rsHost_issues (C84_lived rsHost_mild rsHost_issues rsFresh_lived) (tail := plainTail) (f := {}) (json := none)
    (w := rsFresh) (chunks := [fwText]) (closed_readable (by decide +kernel)) rfl rfl rfl rfl hload).2
  rw [← ho] at hdoc
  have hrules : (view o.world.cx).rules = [seen fwGreen, seen fwBoxed] := by rw [view_rules, f2]; rfl
  refine hdoc Unit (fwEnv o.world.cx.global) { T := o.world.cx.routes, ext := () } (fun _ => .error .itemNotFound) none none (fwPacket src port) 0 fuel res
    (fwEnv_observing _) rfl rfl (fwPacket_definite src port hsrc) (fun k _ => BitVec.getLsbD_zero) ?_ ⟨?_, ?_⟩ ?_ rfl ?_ h
  · rw [hrules]
    intro s hs
    rcases List.mem_cons.1 hs with rfl | hs
    · exact ⟨⟨by decide, by decide, by decide, by decide⟩, fun _ => ⟨show 0 ≤ 32 by decide, show 0 ≤ 32 by decide⟩⟩
    · rw [List.mem_singleton.1 hs]
      exact ⟨⟨by decide, by decide, by decide, by decide⟩, fun _ => ⟨show 8 ≤ 32 by decide, show 0 ≤ 32 by decide⟩⟩
  · intro k _; rw [f3, f4]; exact ⟨BitVec.getLsbD_zero, BitVec.getLsbD_zero⟩
  · intro l e g he hg
    have : e ∈ o.world.cx.events := List.mem_of_find?_eq_some he
    rw [f5] at this
    rcases List.mem_cons.1 this with rfl | this
    · cases hg
    · rw [List.mem_singleton.1 this] at hg; cases hg
  · intro e g he; rw [f2] at he; cases he
  · intro x hx; rw [f2] at hx; cases hx

/-- What a dispatch in the loaded context answers: ACCEPT, REJECT, FALLTHROUGH, how the call ended. -/
def fwAnswer (src : List Byte) (port : Nat) : Option (Bool × Bool × Bool × Bool) :=
  ((fwEnv {}).dispatch (fun _ => .error .itemNotFound) { T := fwTable, ext := () } (fwPacket src port).from (fwPacket src port).to (bit 10) none 9).map
    fun x => (x.ares.getLsbD 0, x.ares.getLsbD 1, x.ares.getLsbD 10, match x.ret with | .ok .ok => true | _ => false)

/-- 10.1.2.3 is rejected even at port 443; 11.1.2.3 is accepted there, and elsewhere gets the default policy REJECT. -/
example : fwAnswer [10, 1, 2, 3] 443 = some (false, true, false, true) ∧ fwAnswer [11, 1, 2, 3] 443 = some (true, false, false, true) ∧
    fwAnswer [11, 1, 2, 3] 80 = some (false, true, true, false) := by decide +kernel

/-! ### Findings -/

/-- Two rules for any traffic, one for each direction, both in the penalty box; default policy ACCEPT. -/
def fwAll : List Byte := ascii
  "{\"wolfsentry-config-version\":1,\"default-policies\":{\"default-policy\":\"accept\"},\"routes\":[{\"direction-in\":true,\"penalty-boxed\":true},{\"direction-out\":true,\"penalty-boxed\":true}]}"

def fwIn : Route := { id := 11, flags := 0x001044ff#32, remote := {}, loc := {}, data := { insertTime := 1000 } }
def fwOut : Route := { id := 12, flags := 0x001048ff#32, remote := {}, loc := {}, data := { insertTime := 1000 } }
def fwAllTable : RouteTable := { ents := [fwIn, fwOut], defaultPolicy := bit 0, highestPriority := 0, lastAfWildcard := some 11 }

theorem fwAllFacts : (fun o : Outcome => (o.res, o.world.cx.routes, o.world.cx.config.config.resAdd, o.world.cx.config.config.resClear,
    o.world.cx.events)) (use rsHost plainTail {} none rsFresh [fwAll]) = (none, fwAllTable, 0, 0, []) := by decide +kernel

/-- An outbound TCP packet. -/
def fwOutbound : Packet := { fwPacket [11, 1, 2, 3] 80 with flags := bit 11 }

/-- C86 fails for rules for any family: the document's second rule rejects all outbound traffic, but a dispatch about an outbound packet does not find
it, and the packet is accepted. -/
theorem C86_any_family_missed {o : Outcome} (ho : o = use rsHost plainTail {} none rsFresh [fwAll]) :
    o.res = none ∧ (∃ s ∈ (view o.world.cx).rules, Covers s fwOutbound ∧ s.flags.getLsbD 20 = true) ∧ Definite fwOutbound ∧
    ∀ {σ : Type} (E : DispEnv σ) (x : σ), ∃ res, E.dispatch (fun _ => .error .itemNotFound) { T := o.world.cx.routes, ext := x } fwOutbound.from fwOutbound.to
      fwOutbound.flags none 9 = some res ∧ res.ret = .ok .usedFallback ∧ res.ares.getLsbD 0 = true ∧ res.ares.getLsbD 1 = false := by
  have hfacts := fwAllFacts
  rw [← ho] at hfacts
  obtain ⟨f1, f2, _⟩ := fwSplit hfacts
  refine ⟨f1, ⟨seen fwOut, ?_, ?_, by decide⟩, ?_, ?_⟩
  · rw [view_rules, f2]; exact List.mem_cons_of_mem _ (List.mem_cons_self ..)
  · exact ⟨.inr (by decide), .inl (by decide), .inl (by decide), .inl (by decide), .inl (by decide), .inl (by decide), .inl (by decide), .inl (by decide),
      .inl (by decide)⟩
  · refine ⟨?_, ⟨by decide, by decide⟩, .inr (by decide), ⟨by decide, by decide⟩, ⟨by decide, by decide⟩⟩
    intro k hk
    have : ∀ k : Fin 8, fwOutbound.flags.getLsbD k.val = false := by decide
    exact this ⟨k, hk⟩
  · intro σ E x
    rw [f2]
    have hl : lookup fwAllTable (targetOf none fwOutbound) false (some 0) 9 = some (.error .itemNotFound) := by decide +kernel
    have hi : routeInit none fwOutbound.from fwOutbound.to fwOutbound.flags = .ok (targetOf none fwOutbound) := by rfl
    refine ⟨useFallback { T := fwAllTable, ext := x } (lookupAres 0), ?_, rfl, ?_, ?_⟩
    · unfold DispEnv.dispatch DispEnv.dispatch1
      simp only [triggerOf, hi, hl]
      rfl
    · show (lookupAres 0 ||| (bit 0 ||| AR.FALLTHROUGH)).getLsbD 0 = true
      decide
    · show (lookupAres 0 ||| (bit 0 ||| AR.FALLTHROUGH)).getLsbD 1 = false
      decide

end WS.Props
