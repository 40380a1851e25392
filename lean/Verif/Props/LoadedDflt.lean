import Verif.Proof.LoadedDflt
import Verif.Props.Restore
/-
C84: the default event a document names is the event of that name in force after the load, not an earlier state of it.
-/
namespace WS.Props
open WS WS.Conf WS.Sax WS.Time WS.ConfNum WS.LT WS.Spec WS.Spec.LT WS.Spec.Ld WS.Ld WS.Spec.Load

section
variable {H : Host} {issued : Nat → Nat → Prop}

theorem current_inForce {old : List Nat} {c : Cx} (hG : Good issued old c) (h : Current c) :
    ∃ e, c.routes.defaultEvent = some e ∧ (view c).dflt = some e.label ∧ (view c).events e.label = some e := by
  obtain ⟨_, e, he, hm⟩ := h
  refine ⟨e, he, by show c.routes.defaultEvent.map _ = _; rw [he]; rfl, ?_⟩
  show c.events.find? (fun x => x.label == e.label) = some e
  exact at_of_mem hG.events hm

/-- C84: after a load in place of a document that names a default event, the default event in force is the event under its label as
it is after the whole document: its configuration and its actions, also those the document gives it after naming it.  Missing: as in
`C84_in_place_partial`. -/
theorem C84_default_event_partial (hM : Mild H.acts) (hI : Issues H issued) {tail : Tail} {f : LoadFlags} {json : Option Config} {w : World}
    {chunks : List (List Byte)} (hG : Good issued [] w.cx) (hR : Readable tail json chunks) (hd : f.dryRun = false) (hc : f.thenCommit = false)
    (hn : f.noRules = false) (h : (use H tail f json w chunks).res = none) :
    let c := (use H tail f json w chunks).world.cx
    ∃ j calls, TextOf (json.getD defaultJson) chunks.flatten j ∧ Done H.store calls (startInPlace f (view w.cx)) (view c) ∧
      Pairs (AsksFor H.env) (ruleObjects j) (calls.filter isRuleCall) ∧
      ((∃ l, .setDefaultEvent l ∈ calls) → ∃ e, c.routes.defaultEvent = some e ∧ (view c).dflt = some e.label ∧ (view c).events e.label = some e) := by
  intro c
  obtain ⟨hf, hj⟩ := use_ok h
  obtain ⟨h1, h2⟩ := C83_in_place H tail json w chunks f hd hc hf hj
  have h3 := h2.1 h
  obtain ⟨j, ht, hl⟩ := (C56_text_meaning_partial H.env (noEmptyEvent H) tail hR.place _ hR.strict f.noRules _ chunks hR.whole (InPlace H f w) _).1 ⟨h3, rfl⟩
  rw [hn] at hl
  obtain ⟨calls, hm, hp⟩ := loads_calls hl
  obtain ⟨hg, hdn⟩ := made_done hM hI hm (calls_fit hp) (inPlace_good H f hG)
  rw [view_inPlace] at hdn
  have he : c = (load H.env tail (json.getD defaultJson) f.noRules (ofCfg (cfgGet w.cx.config)) (InPlace H f w) chunks).user.1.cx := congrArg (·.cx) h1
  rw [hn] at he
  refine ⟨j, calls, ht, by rw [he]; exact hdn, hp, fun hs => ?_⟩
  rw [he]
  exact current_inForce hg ((made_current hm).2 hs)

end

/-- A document that makes an event the default event and, in a further section, gives it an action (C57: the label may change after the
event is entered). -/
def ldDflt : List Byte := ascii
  "{\"wolfsentry-config-version\":1,\"events\":[{\"label\":\"n\",\"priority\":3}],\"default-policies\":{\"default-event\":\"n\"},\"events-insert\":[{\"label\":\"m\",\"priority\":1,\"insert-actions\":[\"a\"],\"label\":\"n\",\"match-actions\":[\"a\"]}]}"

theorem ldDflt_loaded : (use txHost plainTail {} none ldWorld [ldDflt]).res = none ∧
    ((use txHost plainTail {} none ldWorld [ldDflt]).world.cx.routes.defaultEvent.map fun e => (e.label, e.matchActions)) = some (ascii "n", [1]) := by
  decide +kernel

/-- The sample meets the hypotheses; the action given later is among those of the default event. -/
example : ∃ j calls, TextOf (Option.getD none defaultJson) [ldDflt].flatten j ∧
    Done txHost.store calls (startInPlace {} (view ldWorld.cx)) (view (use txHost plainTail {} none ldWorld [ldDflt]).world.cx) ∧
    Pairs (AsksFor txHost.env) (ruleObjects j) (calls.filter isRuleCall) ∧
    ((∃ l, .setDefaultEvent l ∈ calls) → ∃ e, (use txHost plainTail {} none ldWorld [ldDflt]).world.cx.routes.defaultEvent = some e ∧
      (view (use txHost plainTail {} none ldWorld [ldDflt]).world.cx).dflt = some e.label ∧
      (view (use txHost plainTail {} none ldWorld [ldDflt]).world.cx).events e.label = some e) :=
  C84_default_event_partial txHost_mild txHost_issues (C84_lived txHost_mild txHost_issues ldWorld_lived)
    (closed_readable (t := ldDflt) (by decide +kernel)) rfl rfl rfl ldDflt_loaded.1

end WS.Props
