import Verif.Proof.JsonDom4
import Verif.Proof.JsonDomCut
/-
C58: what value a JSON text has in memory.
-/
namespace WS.Props
open WS WS.Sax WS.Dom WS.Spec.Json WS.Spec.Dom WS.JNum

/-! ### Samples -/

/-- A configuration with generous limits. -/
def domConfig : Config := ⟨1000, 100, 100, 100, 100, 100, 0⟩

theorem domConfig_strict : Strict domConfig := by refine ⟨?_, ?_, ?_, ?_⟩ <;> decide

/-- A text with nested containers, an integer of every size, and a repeated key. -/
def domText : List Byte := lit "{\"a\": [null, -5, 4294967295, true], \"b\": {\"c\": 18446744073709551615}, \"a\": \"x\"" ++ [ch '}']

def domTree : T := .obj [(lit "a", .arr [.null, .num (lit "-5"), .num (lit "4294967295"), .bool true]),
  (lit "b", .obj [(lit "c", .num (lit "18446744073709551615"))]), (lit "a", .str (lit "x"))]

theorem domText_end : ¬ EndsInWord domText := ends_bracket _ _ (Or.inr rfl)

theorem domText_document : Document domConfig domText domTree.events :=
  document_of_parse domConfig_strict domText_end (by decide +kernel) (by decide +kernel)

theorem sample_int (t d : List Byte) (n : Nat) (neg : Bool) (h : t = if neg then ch '-' :: d else d) (h1 : IntPart d) (h2 : Dec d n) :
    Integer t (if neg then -(n : Int) else n) := by
  subst h
  refine ⟨d, n, h1, h2, ?_⟩
  cases neg
  · exact Or.inl ⟨rfl, rfl⟩
  · exact Or.inr ⟨rfl, rfl⟩

theorem number_value (strtod : List Byte → Option (BitVec 64)) {t : List Byte} (h : Number t) {v : V} (hv : initNumber strtod t = .ok v) :
    Num strtod t v := by
  rcases num_cases (S := strtod) h with ⟨w, hw⟩ | ⟨he, _⟩
  · have := initNumber_of_num hw
    rw [hv] at this
    cases this
    exact hw
  · rw [he] at hv; cases hv

theorem domTree_reads (strtod : List Byte → Option (BitVec 64)) : Reads strtod .useLast true domTree
    (.dict true [(lit "a", .string (lit "x")), (lit "b", .dict true [(lit "c", .uint64 18446744073709551615)])]) := by
  obtain ⟨⟨h1, h2, h3, _⟩, ⟨h4, _⟩, _⟩ := document_numeric domText_document
  have n1 := number_value strtod (show Number _ from h2) (v := .int32 (-5)) rfl
  have n2 := number_value strtod (show Number _ from h3) (v := .uint32 4294967295) rfl
  have n3 := number_value strtod (show Number _ from h4) (v := .uint64 18446744073709551615) rfl
  refine .last rfl (.cons (.arr (.cons .null (.cons (.num n1) (.cons (.num n2) (.cons (.bool true) .nil)))))
    (.cons (.last rfl (.cons (.num n3) .nil) ⟨rfl, ?_⟩) (.cons (.str _) .nil))) ⟨by decide, ?_⟩
  · intro e he; rw [List.mem_singleton.1 he]; rfl
  · intro e he
    rcases List.mem_cons.1 he with rfl | he
    · rfl
    · rw [List.mem_singleton.1 he]; rfl

/-! ### Values -/

/-- C58: a JSON text that has a value is accepted and gives that value, in whatever pieces it arrives; equal keys are refused or the last of
them counts (`JSON_DOM_DUPKEY_USELAST`). -/
theorem C58_text_gives_its_value (strtod : List Byte → Option (BitVec 64)) (flags : BitVec 32) (hf : flags &&& 3#32 ≠ 1#32)
    (cfg : Config) (hst : Strict cfg) (chunks : List (List Byte)) (t : T) (v : V) (hd : Document cfg chunks.flatten t.events)
    (hv : Reads strtod (if flags &&& 3#32 = 2#32 then .useLast else .abort) (flags &&& 0x10#32 != 0#32) t v) :
    0 ≤ (Dom.parse strtod flags cfg chunks).1 ∧ (Dom.parse strtod flags cfg chunks).2 = v := by
  have hp : dupKey flags = if flags &&& 3#32 = 2#32 then .useLast else .abort := by simp only [dupKey, hf, if_false]
  rw [← hp] at hv
  exact parse_complete_value strtod flags cfg hst chunks (fun h => by rw [hp] at h; split at h <;> cases h) hd hv

example (strtod : List Byte → Option (BitVec 64)) : (Dom.parse strtod 0x12 domConfig [domText.take 20, domText.drop 20]).2 =
    .dict true [(lit "a", .string (lit "x")), (lit "b", .dict true [(lit "c", .uint64 18446744073709551615)])] :=
  (C58_text_gives_its_value strtod 0x12 (by decide) domConfig domConfig_strict _ domTree _
    (by simp only [List.flatten_cons, List.flatten_nil, List.append_nil, List.take_append_drop]; exact domText_document)
    (domTree_reads strtod)).2

/-- C58: what is accepted has a value, and gives it.  This excepts texts ending in a letter or digit (see C49). -/
theorem C58_value_is_the_texts_partial (strtod : List Byte → Option (BitVec 64)) (flags : BitVec 32) (hf : flags &&& 3#32 ≠ 1#32)
    (cfg : Config) (hst : Strict cfg) (chunks : List (List Byte)) (hend : ¬ EndsInWord chunks.flatten)
    (h : 0 ≤ (Dom.parse strtod flags cfg chunks).1) :
    ∃ t : T, Document cfg chunks.flatten t.events ∧
      Reads strtod (if flags &&& 3#32 = 2#32 then .useLast else .abort) (flags &&& 0x10#32 != 0#32) t (Dom.parse strtod flags cfg chunks).2 := by
  have hp : dupKey flags = if flags &&& 3#32 = 2#32 then .useLast else .abort := by simp only [dupKey, hf, if_false]
  rw [← hp]
  exact parse_sound_value strtod flags cfg hst chunks hend (fun h => by rw [hp] at h; split at h <;> cases h) h

example : ∃ t : T, Document domConfig [domText].flatten t.events ∧ Reads (fun _ => none) .useLast false t (Dom.parse (fun _ => none) 2 domConfig [domText]).2 :=
  C58_value_is_the_texts_partial (fun _ => none) 2 (by decide) domConfig domConfig_strict [domText]
    (by simp only [List.flatten_cons, List.flatten_nil, List.append_nil]; exact domText_end) (by decide +kernel)

/-- C58: a JSON text without a value (a repeated key when these are refused, or a number out of the range of floating-point numbers) is
refused, and nothing is handed out. -/
theorem C58_text_without_value_refused (strtod : List Byte → Option (BitVec 64)) (flags : BitVec 32) (hf : flags &&& 3#32 ≠ 1#32)
    (cfg : Config) (hst : Strict cfg) (chunks : List (List Byte))
    (t : T) (hd : Document cfg chunks.flatten t.events)
    (hno : ∀ v, ¬ Reads strtod (if flags &&& 3#32 = 2#32 then .useLast else .abort) (flags &&& 0x10#32 != 0#32) t v) :
    (Dom.parse strtod flags cfg chunks).1 < 0 ∧ (Dom.parse strtod flags cfg chunks).2 = .null := by
  have hp : dupKey flags = if flags &&& 3#32 = 2#32 then .useLast else .abort := by simp only [dupKey, hf, if_false]
  have hneg : (Dom.parse strtod flags cfg chunks).1 < 0 := by
    refine Int.not_le.1 fun h => ?_
    obtain ⟨evs, st, h1, h2, h3⟩ := parse_out strtod flags cfg hst chunks h
    have he := cutOff_document_det hst h1 (Or.inl hd)
    subst he
    obtain ⟨v, h4, _⟩ := (run_tree t (document_numeric hd) (fun h => by rw [hp] at h; split at h <;> cases h) _).1 h2
    rw [hp] at h4
    exact hno v h4
  refine ⟨hneg, ?_⟩
  revert hneg
  simp only [Dom.parse]
  split
  · intro h; simp only at h; omega
  · intro _; rfl

example : (Dom.parse (fun _ => none) 0 domConfig [domText]).1 < 0 :=
  (C58_text_without_value_refused (fun _ => none) 0 (by decide) domConfig domConfig_strict [domText] domTree
    (by simp only [List.flatten_cons, List.flatten_nil, List.append_nil]; exact domText_document)
    (by
      intro v h
      cases h with
      | distinct _ h _ => revert h; decide
      | first h _ => cases h
      | last h _ _ => cases h)).1

/-- The text is a JSON text of the tree, or a JSON text of the tree cut off in or after its last number or literal: `rest` would complete it,
adding only closings (`ce`) to the events. -/
def TextOrBeginning (cfg : Config) (text : List Byte) (t : T) : Prop :=
  Document cfg text t.events ∨
  ∃ evs ce rest w v, CutOff cfg text evs ∧ t.events = evs ++ ce ∧ (∀ e ∈ ce, Ending e) ∧
    text ++ rest = w ++ v ∧ Spec.Json.WS w ∧ Value cfg 0 v t.events

/-- C58: exactly what is accepted, and with which value: a JSON text with that value, or one that would have that value, once completed, if it
was not cut off in or after its last number or literal. -/
theorem C58_exactly (strtod : List Byte → Option (BitVec 64)) (flags : BitVec 32) (hf : flags &&& 3#32 ≠ 1#32)
    (cfg : Config) (hst : Strict cfg) (chunks : List (List Byte)) (v : V) :
    (0 ≤ (Dom.parse strtod flags cfg chunks).1 ∧ (Dom.parse strtod flags cfg chunks).2 = v) ↔
    ∃ t : T, TextOrBeginning cfg chunks.flatten t ∧
      Reads strtod (if flags &&& 3#32 = 2#32 then .useLast else .abort) (flags &&& 0x10#32 != 0#32) t v := by
  have hp : dupKey flags = if flags &&& 3#32 = 2#32 then .useLast else .abort := by simp only [dupKey, hf, if_false]
  rw [parse_exact strtod flags (fun h => by rw [hp] at h; split at h <;> cases h) cfg hst chunks v, hp]
  constructor
  · rintro ⟨t, evs, ce, h1, h2, h3, h4⟩
    refine ⟨t, ?_, h4⟩
    rcases h3 with ⟨hd, hce⟩ | ⟨hc, rest, w, x, g1, g2, g3⟩
    · rw [hce, List.append_nil] at h1
      exact Or.inl (h1 ▸ hd)
    · exact Or.inr ⟨evs, ce, rest, w, x, hc, h1, h2, g1, g2, g3⟩
  · rintro ⟨t, h, h4⟩
    rcases h with h | ⟨evs, ce, rest, w, x, hc, h1, h2, g1, g2, g3⟩
    · exact ⟨t, t.events, [], by simp, by simp, Or.inl ⟨h, rfl⟩, h4⟩
    · exact ⟨t, evs, ce, h1, h2, Or.inr ⟨hc, rest, w, x, g1, g2, g3⟩, h4⟩

example : ∃ t : T, TextOrBeginning domConfig [word "[1,{\"a\":n"].flatten t ∧
    Reads (fun _ => none) .abort false t (.array [.int32 1, .dict false [(lit "a", .null)]]) :=
  (C58_exactly (fun _ => none) 0 (by decide) domConfig domConfig_strict [word "[1,{\"a\":n"] _).1 ⟨by decide +kernel, by rfl⟩

/-- C58: a text has at most one value. -/
theorem C58_one_value (strtod : List Byte → Option (BitVec 64)) (policy : DupKey) (ordered : Bool) (hp : policy ≠ .useFirst) (cfg : Config)
    (hst : Strict cfg) (text : List Byte) (t u : T) (v w : V) (ht : Document cfg text t.events) (hu : Document cfg text u.events)
    (hv : Reads strtod policy ordered t v) (hw : Reads strtod policy ordered u w) : v = w :=
  reads_det (document_numeric hu) (fun h => absurd h hp) (reads_text hst ht hu (fun h => absurd h hp) (fun h => absurd h hp) hv) hw

example (strtod : List Byte → Option (BitVec 64)) (w : V) (h : Reads strtod .useLast true domTree w) :
    w = .dict true [(lit "a", .string (lit "x")), (lit "b", .dict true [(lit "c", .uint64 18446744073709551615)])] :=
  C58_one_value strtod .useLast true (by decide) domConfig domConfig_strict domText domTree domTree w _ domText_document domText_document h
    (domTree_reads strtod)

/-! ### The first of equal keys -/

/-- C58: with `JSON_DOM_DUPKEY_USEFIRST` a text gives its value if no repeated key has an array or an object. -/
theorem C58_first_of_equal_keys_partial (strtod : List Byte → Option (BitVec 64)) (flags : BitVec 32) (hf : flags &&& 3#32 = 1#32)
    (cfg : Config) (hst : Strict cfg) (chunks : List (List Byte)) (t : T) (ht : t.Tame) (v : V) (hd : Document cfg chunks.flatten t.events)
    (hv : Reads strtod .useFirst (flags &&& 0x10#32 != 0#32) t v) :
    0 ≤ (Dom.parse strtod flags cfg chunks).1 ∧ (Dom.parse strtod flags cfg chunks).2 = v := by
  have hp : dupKey flags = .useFirst := by simp only [dupKey, hf, if_true]
  rw [← hp] at hv
  exact parse_complete_value strtod flags cfg hst chunks (fun _ => ht) hd hv

theorem domTree_first (strtod : List Byte → Option (BitVec 64)) : Reads strtod .useFirst false domTree
    (.dict false [(lit "a", .array [.null, .int32 (-5), .uint32 4294967295, .bool true]),
      (lit "b", .dict false [(lit "c", .uint64 18446744073709551615)])]) := by
  obtain ⟨⟨h1, h2, h3, _⟩, ⟨h4, _⟩, _⟩ := document_numeric domText_document
  have n1 := number_value strtod (show Number _ from h2) (v := .int32 (-5)) rfl
  have n2 := number_value strtod (show Number _ from h3) (v := .uint32 4294967295) rfl
  have n3 := number_value strtod (show Number _ from h4) (v := .uint64 18446744073709551615) rfl
  refine .first rfl ?_
  have hf : firsts [(lit "a", T.arr [.null, .num (lit "-5"), .num (lit "4294967295"), .bool true]),
      (lit "b", .obj [(lit "c", .num (lit "18446744073709551615"))]), (lit "a", .str (lit "x"))] =
      [(lit "a", T.arr [.null, .num (lit "-5"), .num (lit "4294967295"), .bool true]), (lit "b", .obj [(lit "c", .num (lit "18446744073709551615"))])] := rfl
  rw [hf]
  exact .cons (.arr (.cons .null (.cons (.num n1) (.cons (.num n2) (.cons (.bool true) .nil)))))
    (.cons (.first rfl (.cons (.num n3) .nil)) .nil)

theorem domTree_tame : domTree.Tame := by
  refine ⟨⟨?_, ⟨?_, ?_, trivial⟩⟩, ⟨trivial, trivial, trivial, trivial, trivial⟩, ⟨⟨?_, trivial⟩, trivial, trivial⟩, trivial, trivial⟩
  all_goals intro e he hk
  · rcases List.mem_cons.1 he with rfl | he
    · exact absurd hk (by decide)
    · rw [List.mem_singleton.1 he]; trivial
  · rw [List.mem_singleton.1 he]; trivial
  · cases he
  · cases he

example (strtod : List Byte → Option (BitVec 64)) : (Dom.parse strtod 1 domConfig [domText]).2 =
    .dict false [(lit "a", .array [.null, .int32 (-5), .uint32 4294967295, .bool true]),
      (lit "b", .dict false [(lit "c", .uint64 18446744073709551615)])] :=
  (C58_first_of_equal_keys_partial strtod 1 (by decide) domConfig domConfig_strict [domText] domTree domTree_tame _
    (by simp only [List.flatten_cons, List.flatten_nil, List.append_nil]; exact domText_document) (domTree_first strtod)).2

/-- C58, finding: a repeated key with an object: the members of the object that is to be ignored are put into the outer one. -/
theorem C58_ignored_object_is_merged :
    Dom.parse (fun _ => none) 1 domConfig [lit "{\"a\":1,\"a\":{\"b\":2}}"] = (0, .dict false [(lit "a", .int32 1), (lit "b", .int32 2)]) ∧
    ∃ t v, Document domConfig (lit "{\"a\":1,\"a\":{\"b\":2}}") t.events ∧ Reads (fun _ => none) .useFirst false t v ∧
      v = .dict false [(lit "a", .int32 1)] := by
  refine ⟨by rfl, .obj [(lit "a", .num (lit "1")), (lit "a", .obj [(lit "b", .num (lit "2"))])], _, ?_, ?_, rfl⟩
  · exact document_of_parse domConfig_strict (ends_bracket (lit "{\"a\":1,\"a\":{\"b\":2}") _ (Or.inr rfl)) (by decide +kernel) (by decide +kernel)
  · refine .first rfl ?_
    have hf : firsts [(lit "a", T.num (lit "1")), (lit "a", .obj [(lit "b", .num (lit "2"))])] = [(lit "a", .num (lit "1"))] := rfl
    rw [hf]
    refine .cons (.num (number_value (fun _ => none) ?_ rfl)) .nil
    exact integer_number (v := 1) ⟨lit "1", 1, .first (by unfold Digit; decide) (by decide), by
      have := Dec.snoc (k := 1) Dec.nil (by decide)
      exact this, Or.inl ⟨rfl, rfl⟩⟩

/-- C58, finding: the member after it replaces the whole value. -/
theorem C58_ignored_object_replaces_root :
    Dom.parse (fun _ => none) 1 domConfig [lit "{\"a\":1,\"a\":{\"b\":2},\"c\":3}"] = (0, .int32 3) := by rfl

/-- C58, finding: ignored objects inside each other make the parser read before the start of its path. -/
theorem C58_ignored_objects_undefined :
    (Sax.parse domConfig (callback (fun _ => none) .useFirst false) (.ok {}) [lit "[{\"a\":1,\"a\":{\"a\":{\"a\":{}}}},5]"]).user = .ub := by rfl

end WS.Props
