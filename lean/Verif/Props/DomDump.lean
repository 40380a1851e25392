import Verif.Proof.DomDump5
import Verif.Props.JsonDom
/-
C59: JSON values in memory written as text and read back.
-/
namespace WS.Props
open WS WS.Sax WS.Dom WS.Spec.Json WS.Spec.Dom WS.JNum

/-! ### Samples -/

/-- A sample for `snprintf` and `strtod`: one half, and zero for everything else. -/
def samplePrint (d : BitVec 64) : List Byte := if d = 0x3fe0000000000000#64 then lit "0.5" else lit "0"

def sampleConv (t : List Byte) : BitVec 64 := if t = lit "0.5" then 0x3fe0000000000000#64 else 0

/-- `{"z": [0.5, -7], "a": {"é": 3000000000}}`, with the `-7` in 64 bits. -/
def domValue : V := .dict true [(lit "z", .array [.double 0x3fe0000000000000#64, .int64 (-7), .null]),
  (lit "a", .dict true [([0xc3#8, 0xa9#8], .uint32 3000000000)])]

theorem utf8_z : Utf8 (lit "z") := ⟨[0x7a], by intro n hn; rw [List.mem_singleton.1 hn]; exact Or.inl (by decide), by decide⟩
theorem utf8_a : Utf8 (lit "a") := ⟨[0x61], by intro n hn; rw [List.mem_singleton.1 hn]; exact Or.inl (by decide), by decide⟩
theorem utf8_e : Utf8 [0xc3#8, 0xa9#8] := ⟨[0xe9], by intro n hn; rw [List.mem_singleton.1 hn]; exact Or.inl (by decide), by decide⟩

theorem half_number : Number (lit "0.5") :=
  ⟨[], [ch '0'], [ch '.', ch '5'], [], by decide, Or.inl rfl, .zero, Or.inr ⟨[ch '5'], rfl, by simp, by
    intro c hc; rw [List.mem_singleton.1 hc]; unfold Digit; decide⟩, Or.inl rfl⟩

theorem half_writable : Writable samplePrint sampleConv (.double 0x3fe0000000000000#64) := by
  refine ⟨half_number, by decide, by decide, fun t ht hn => ?_⟩
  rcases ht with rfl | rfl
  · decide
  · exfalso
    have : analyze (lit "0.5" ++ [ch '.', ch '0']) = {} := by decide
    obtain ⟨sign, int, frac, exp, h, hs, hi, hf, he⟩ := hn
    -- a number has at most one point
    have hcount : (sign ++ int ++ frac ++ exp).count (ch '.') ≤ 1 := by
      rw [List.count_append, List.count_append, List.count_append]
      have h1 : sign.count (ch '.') = 0 := by rcases hs with rfl | rfl <;> decide
      have nodig : ∀ l : List Byte, (∀ c ∈ l, Digit c) → l.count (ch '.') = 0 := by
        intro l hl
        rw [List.count_eq_zero]
        intro hc
        have := hl _ hc
        unfold Digit at this
        revert this; decide
      have h2 : int.count (ch '.') = 0 := nodig int (intPart_digits hi)
      have h3 : frac.count (ch '.') ≤ 1 := by
        rcases hf with rfl | ⟨ds, rfl, hd⟩
        · decide
        · rw [List.count_cons, nodig ds hd.2]; simp
      have h4 : exp.count (ch '.') = 0 := by
        rcases he with rfl | ⟨e, sg, ds, rfl, he, hsg, hd⟩
        · decide
        · rw [List.cons_append, List.count_cons, List.count_append, nodig ds hd.2]
          have : sg.count (ch '.') = 0 := by rcases hsg with rfl | rfl | rfl <;> decide
          rw [this]
          rcases he with rfl | rfl <;> decide
      omega
    have h2 : samplePrint 4602678819172646912#64 ++ [ch '.', ch '0'] = lit "0.5" ++ [ch '.', ch '0'] := by decide
    rw [h2] at h
    rw [← h] at hcount
    revert hcount; decide

theorem domValue_writable : Writable samplePrint sampleConv domValue := by
  refine ⟨by decide, utf8_z, ⟨half_writable, ⟨by decide, by decide⟩, trivial, trivial⟩, utf8_a, ⟨by decide, utf8_e, ?_, trivial⟩, trivial⟩
  show (3000000000 : Nat) < 2 ^ 32
  decide

/-! ### Writing and reading -/

/-- C59: a value written as text, with any flags and indentation, and read back, with any flags and in whatever pieces, is the same value,
up to the types of integers and the order in dictionaries. -/
theorem C59_written_then_read (print : BitVec 64 → List Byte) (conv : List Byte → BitVec 64) (p : Params) (v : V)
    (hw : Writable print conv v) (text : List Byte)
    (ht : text = (dumpRoot (dumpDouble print) (fun u b => (u ++ b, 0)) p v []).1)
    (flags : BitVec 32) (cfg : Config) (hst : Strict cfg) (hr : Roomy cfg text.length) (chunks : List (List Byte)) (hc : chunks.flatten = text) :
    0 ≤ (dumpRoot (dumpDouble print) (fun u b => (u ++ b, 0)) p v []).2 ∧ 0 ≤ (Dom.parse (toDouble conv) flags cfg chunks).1 ∧
    Same p.preferOrder (flags &&& 0x10#32 != 0#32) v (Dom.parse (toDouble conv) flags cfg chunks).2 := by
  subst ht
  obtain ⟨h1, h2, h3, _⟩ := reread p hw flags cfg hst hr chunks hc
  exact ⟨h1, h2, h3⟩

example : (dumpRoot (dumpDouble samplePrint) (fun u b => (u ++ b, 0)) { minimize := true } domValue []).1 =
    lit "{\"a\":{\"" ++ [0xc3#8, 0xa9#8] ++ lit "\":3000000000},\"z\":[0.5,-7,null]}" := by decide +kernel

example : Same false false domValue (Dom.parse (toDouble sampleConv) 0 domConfig
    [(dumpRoot (dumpDouble samplePrint) (fun u b => (u ++ b, 0)) { spaces := true, tabWidth := 2 } domValue []).1]).2 :=
  (C59_written_then_read samplePrint sampleConv { spaces := true, tabWidth := 2 } domValue domValue_writable _ rfl 0 domConfig domConfig_strict
    (by refine ⟨?_, ?_, ?_, ?_, ?_, ?_, by decide⟩ <;> (right; decide +kernel)) _ (by simp)).2.2

/-- C59: a value that came from a text with the order of dictionaries maintained, written with that order preferred, is read back exactly, if
its floating-point numbers are. -/
theorem C59_read_back_exactly (print : BitVec 64 → List Byte) (conv : List Byte → BitVec 64) (cfg0 : Config) (text0 : List Byte) (t : T)
    (hd0 : Document cfg0 text0 t.events) (policy : DupKey) (v : V) (hv : Reads (toDouble conv) policy true t v)
    (hf : ∀ d ∈ doubles v, Writable print conv (.double d)) (p : Params) (hp : p.preferOrder = true)
    (text : List Byte) (ht : text = (dumpRoot (dumpDouble print) (fun u b => (u ++ b, 0)) p v []).1)
    (flags : BitVec 32) (hfl : flags &&& 0x10#32 ≠ 0#32) (cfg : Config) (hst : Strict cfg) (hr : Roomy cfg text.length)
    (chunks : List (List Byte)) (hc : chunks.flatten = text) :
    0 ≤ (Dom.parse (toDouble conv) flags cfg chunks).1 ∧ (Dom.parse (toDouble conv) flags cfg chunks).2 = v := by
  subst ht
  have hmo : maintainOrder flags = true := by simp [maintainOrder, hfl]
  obtain ⟨_, h2, h3, t', h4⟩ := reread p (reads_writable hv (document_textual hd0) hf) flags cfg hst hr chunks hc
  rw [hmo] at h3 h4
  rw [hp] at h3
  exact ⟨h2, (same_unique h3 (reads_canonical hv) (reads_canonical h4)).symm⟩

example (conv : List Byte → BitVec 64) : (Dom.parse (toDouble conv) 0x10 domConfig
    [(dumpRoot (dumpDouble samplePrint) (fun u b => (u ++ b, 0)) { preferOrder := true } (.dict true [(lit "a", .string (lit "x")),
      (lit "b", .dict true [(lit "c", .uint64 18446744073709551615)])]) []).1]).2 =
    .dict true [(lit "a", .string (lit "x")), (lit "b", .dict true [(lit "c", .uint64 18446744073709551615)])] :=
  (C59_read_back_exactly samplePrint conv domConfig domText domTree domText_document .useLast _ (domTree_reads _)
    (by intro d hd; exact absurd hd (by simp [doubles, doublesOf])) { preferOrder := true } rfl _ rfl 0x10 (by decide) domConfig domConfig_strict
    (by refine ⟨?_, ?_, ?_, ?_, ?_, ?_, by decide⟩ <;> (right; decide +kernel)) _ (by simp)).2

/-- C59: the text goes to the write function in order, piece by piece, until it reports a failure, which is then reported. -/
theorem C59_written_in_order (print : BitVec 64 → List Byte) (conv : List Byte → BitVec 64) (p : Params) (v : V) (hw : Writable print conv v) :
    ∃ ps : List (List Byte), ps.flatten = (dumpRoot (dumpDouble print) (fun u b => (u ++ b, 0)) p v []).1 ∧
      ∀ {σ : Type} (w : Write σ) (u : σ), (dumpRoot (dumpDouble print) w p v u).1 = (writeAll w u ps).1 ∧
        ((writeAll w u ps).2 < 0 → (dumpRoot (dumpDouble print) w p v u).2 = (writeAll w u ps).2) ∧
        (0 ≤ (writeAll w u ps).2 → 0 ≤ (dumpRoot (dumpDouble print) w p v u).2) := by
  obtain ⟨t, v', h1, _⟩ := back_value (p := p) (pol := .abort) (o := true) v hw
  obtain ⟨ps, g1, _⟩ := dumpRoot_pieces h1
  exact ⟨ps, (collected (g1 collect)).1.symm, fun w u => g1 w u⟩

example : ∃ ps : List (List Byte), ps.flatten = (dumpRoot (dumpDouble samplePrint) (fun u b => (u ++ b, 0)) {} domValue []).1 ∧
    (dumpRoot (dumpDouble samplePrint) (fun (u : Nat) b => (u + b.length, if u < 10 then 0 else -7)) {} domValue 0).1 =
      (writeAll (fun (u : Nat) b => (u + b.length, if u < 10 then 0 else -7)) 0 ps).1 := by
  obtain ⟨ps, h1, h2⟩ := C59_written_in_order samplePrint sampleConv {} domValue domValue_writable
  exact ⟨ps, h1, (h2 _ _).1⟩

/-! ### Floating-point numbers -/

/-- C59: a floating-point number that `snprintf` writes as a JSON number is read back as a floating-point number, not as an integer. -/
theorem C59_doubles_stay_doubles (print : BitVec 64 → List Byte) (d : BitVec 64) (h : Number (print d)) (hE : ch 'E' ∉ print d)
    (hl : (print d).length ≤ 60) : ∃ t, dumpDouble print d = some t ∧ Number t ∧ ∀ i, ¬ Integer t i :=
  let ⟨t, h1, h2, h3, _⟩ := dumpDouble_out h hE hl
  ⟨t, h1, h2, h3⟩

example : ∃ t, dumpDouble samplePrint 0 = some t ∧ Number t ∧ ∀ i, ¬ Integer t i :=
  C59_doubles_stay_doubles samplePrint 0 ⟨[], [ch '0'], [], [], by decide, Or.inl rfl, .zero, Or.inl rfl, Or.inl rfl⟩ (by decide) (by decide)

/-- C59, finding: infinities and values that are not numbers, which `snprintf` writes as `inf` and `nan`, become `inf.0` and `nan.0`, which is
not JSON. -/
theorem C59_infinity_is_not_json (print : BitVec 64 → List Byte) (d : BitVec 64) (h : print d = lit "inf" ∨ print d = lit "nan") :
    ∃ t, dumpDouble print d = some t ∧ ¬ Number t := by
  rcases h with h | h
  · refine ⟨lit "inf.0", by simp only [dumpDouble, h]; decide, fun hn => ?_⟩
    have := number_bytes hn (ch 'i') (by decide)
    unfold Dom.numByte Digit at this
    revert this; decide
  · refine ⟨lit "nan.0", by simp only [dumpDouble, h]; decide, fun hn => ?_⟩
    have := number_bytes hn (ch 'n') (by decide)
    unfold Dom.numByte Digit at this
    revert this; decide

example : ∃ t, dumpDouble (fun _ => lit "nan") 0x7ff8000000000000#64 = some t ∧ ¬ Number t :=
  C59_infinity_is_not_json _ _ (Or.inr rfl)

/-- C59: a locale that writes a comma for the decimal point does not get into the text: the comma becomes a point, and the text is a number
that is read as floating-point. -/
theorem C59_comma_becomes_point (print : BitVec 64 → List Byte) (d : BitVec 64) (a b : List Byte) (hp : print d = a ++ ch ',' :: b)
    (hn : Number (a ++ ch '.' :: b)) (hl : (print d).length ≤ 61) :
    dumpDouble print d = some (a ++ ch '.' :: b) ∧ ∀ i, ¬ Integer (a ++ ch '.' :: b) i := by
  refine ⟨?_, integer_no (Or.inl (by simp))⟩
  have ha : 0x2c#8 ∉ a := fun h => number_no_comma hn (List.mem_append_left _ h)
  have hm : 0x2c#8 ∈ print d := by rw [hp]; exact List.mem_append_right _ (.head _)
  have ht : ∀ a : List Byte, 0x2c#8 ∉ a → (a ++ ch ',' :: b).takeWhile (· != 0x2c#8) = a ∧ (a ++ ch ',' :: b).dropWhile (· != 0x2c#8) = ch ',' :: b := by
    intro a
    induction a with
    | nil =>
      intro _
      have : (ch ',' != 0x2c#8) = false := by decide
      simp [List.takeWhile_cons, List.dropWhile_cons, this]
    | cons x a ih =>
      intro h
      obtain ⟨h1, h2⟩ := ih (fun h' => h (.tail _ h'))
      have : (x != 0x2c#8) = true := by
        rw [bne_iff_ne]; intro e; exact h (e ▸ .head _)
      rw [List.cons_append, List.takeWhile_cons, List.dropWhile_cons, this]
      simp only [if_true]
      exact ⟨by rw [h1], h2⟩
  unfold dumpDouble
  rw [hp] at hl hm ⊢
  simp only [(ht a ha).1, (ht a ha).2, List.tail_cons]
  rw [if_pos (by omega), if_pos hm]
  rfl

example : dumpDouble (fun _ => lit "0,5") 0x3fe0000000000000#64 = some (lit "0.5") :=
  (C59_comma_becomes_point _ _ [ch '0'] [ch '5'] rfl
    ⟨[], [ch '0'], [ch '.', ch '5'], [], by decide, Or.inl rfl, .zero, Or.inr ⟨[ch '5'], by decide, by decide, by decide⟩, Or.inl rfl⟩ (by decide)).1

/-- C59: a line at nesting level `level` starts with that many tabs, or with that many times the tab width of blanks; nothing when
minimizing. -/
theorem C59_indentation (p : Params) (level : Nat) (hw : level * p.tabWidth < 2 ^ 32) (u : List Byte) :
    (dumpIndent (fun u b => (u ++ b, (0 : Int))) p level u).1 =
      u ++ (if p.minimize then [] else if p.spaces then List.replicate (level * p.tabWidth) (ch ' ') else List.replicate level 0x09#8) := by
  have hf : ∀ (ps : List (List Byte)) (u : List Byte),
      (ps.foldr (fun b k => seq (fun u => ((u ++ b, (0 : Int)) : List Byte × Int)) k) nop u).1 = u ++ ps.flatten := by
    intro ps
    induction ps with
    | nil => intro u; simp [nop]
    | cons b ps ih => intro u; simp [seq, ih]
  have hr : ∀ (c : Byte) (run : Nat), 0 < run → ∀ fuel n, n ≤ fuel → (indentRuns c run n fuel).flatten = List.replicate n c := by
    intro c run hrun fuel
    induction fuel with
    | zero => intro n hn; have : n = 0 := by omega
              subst this; rfl
    | succ fuel ih =>
      intro n hn
      rw [indentRuns]
      by_cases h : n = 0
      · simp [h]
      · rw [if_neg h, List.flatten_cons, ih _ (by omega), List.replicate_append_replicate]
        congr 1; omega
  unfold dumpIndent
  by_cases h1 : p.minimize = true
  · simp [h1, nop]
  · by_cases h2 : level = 0
    · simp [h2, nop]
    · rw [if_neg (by simp [h1, h2])]
      simp only
      rw [hf, hr]
      · cases hsp : p.spaces with
        | true => simp only [h1, if_true, if_false]; rw [Nat.mod_eq_of_lt hw]; simp [ch]
        | false => simp [h1]
      · split <;> omega
      · exact Nat.le_refl _

example : (dumpIndent (fun u b => (u ++ b, (0 : Int))) { spaces := true, tabWidth := 9 } 4 []).1 = List.replicate 36 (ch ' ') :=
  C59_indentation { spaces := true, tabWidth := 9 } 4 (by decide) []
example : (dumpRoot (dumpDouble samplePrint) (fun u b => (u ++ b, 0)) { spaces := true, tabWidth := 2 } (.array [.array [.null]]) []).1 =
    lit "[\n  [\n    null\n  ]\n]\n" := by decide +kernel

/-- C58: a number with 63 bytes or more that no integer type has is refused. -/
theorem C58_long_number_refused (conv : List Byte → BitVec 64) (t : List Byte) (hl : 63 ≤ t.length)
    (hi : ∀ i, Integer t i → i < -2 ^ 63 ∨ 2 ^ 64 ≤ i) (v : V) : ¬ Num (toDouble conv) t v := by
  intro h
  cases h with
  | int32 h h1 h2 => have := hi _ h; omega
  | uint32 h h1 h2 => have := hi _ h; omega
  | int64 h h1 h2 _ => have := hi _ h; omega
  | uint64 h h1 h2 => have := hi _ h; omega
  | double _ _ h =>
    simp only [toDouble, show ¬ t.length + 1 < 64 by omega, if_false] at h
    cases h

example (conv : List Byte → BitVec 64) (v : V) : ¬ Num (toDouble conv) (lit "0." ++ List.replicate 61 (ch '3')) v :=
  C58_long_number_refused conv _ (by decide) (fun i hi => absurd hi (integer_no (Or.inl (by decide)) i)) v

end WS.Props
