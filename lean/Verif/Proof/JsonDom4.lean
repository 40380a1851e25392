import Verif.Proof.JsonDom3
/-
A text has one sequence of events.
-/
namespace WS.Dom
open WS WS.Sax WS.Spec.Json WS.Spec.Dom WS.JNum WS.Props

def recorder : Callback (List Event) := fun u e _ _ => (u ++ [e], 0, none)

theorem recorder_calls {u : List Event} {evs : List Event} {u' : List Event} (h : Calls recorder u evs u') : u' = u ++ evs := by
  induction h with
  | nil => simp
  | snoc _ _ ih => simp only [recorder, ih, List.append_assoc]

theorem document_det {cfg : Config} (hst : Strict cfg) {text : List Byte} {a b : List Event} (ha : Document cfg text a)
    (hb : Document cfg text b) : a = b := by
  have e : [text].flatten = text := by simp
  have h1 := (parse_complete' cfg hst recorder [] [text] (fun _ _ _ _ _ _ _ _ => Int.le_refl 0) (by rw [e]; exact ha)).2
  have h2 := (parse_complete' cfg hst recorder [] [text] (fun _ _ _ _ _ _ _ _ => Int.le_refl 0) (by rw [e]; exact hb)).2
  have := (recorder_calls h1).symm.trans (recorder_calls h2)
  simpa using this

theorem reads_text {S : List Byte → Option (BitVec 64)} {pol : DupKey} {o : Bool} {cfg : Config} (hst : Strict cfg) {text : List Byte} {t t' : T} {v : V}
    (ht : Document cfg text t.events) (ht' : Document cfg text t'.events) (h1 : pol = .useFirst → t.Tame) (h2 : pol = .useFirst → t'.Tame)
    (h : Reads S pol o t v) : Reads S pol o t' v := by
  have he := document_det hst ht ht'
  have hr := (run_tree t (document_numeric ht) h1 _).2 ⟨v, h, rfl⟩
  rw [he] at hr
  obtain ⟨v', h3, h4⟩ := (run_tree t' (document_numeric ht') h2 _).1 hr
  cases h4
  exact h3

end WS.Dom

namespace WS.Dom
open WS WS.Sax WS.Spec.Json WS.Spec.Dom WS.JNum WS.Props

/-- A text that the parser accepts is a document with the events that it reports. -/
theorem document_of_parse {cfg : Config} (hst : Strict cfg) {text : List Byte} {evs : List Event} (hend : ¬ EndsInWord text)
    (h : 0 ≤ (Sax.parse cfg recorder [] [text]).ret) (he : (Sax.parse cfg recorder [] [text]).user = evs) : Document cfg text evs := by
  have e : [text].flatten = text := by simp
  obtain ⟨evs', h1, h2⟩ := parse_sound cfg hst recorder [] [text] (by rw [e]; exact hend) h
  rw [recorder_calls h2, List.nil_append] at he
  rw [e] at h1
  rw [← he]
  exact h1

theorem ends_bracket (t : List Byte) (c : Byte) (h : c = ch ']' ∨ c = ch '}') : ¬ EndsInWord (t ++ [c]) := by
  rintro ⟨t', c', h1, h2⟩
  have : c' = c := by
    have := congrArg List.getLast? h1
    simpa using this.symm
  subst this
  rcases h with rfl | rfl
  · revert h2; unfold Digit; decide
  · revert h2; unfold Digit; decide

end WS.Dom
