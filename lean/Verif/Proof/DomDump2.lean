import Verif.Proof.DomDump
/-
Writing values, part 2: the text is JSON and has the value.
-/
namespace WS.Dom
open WS WS.Sax WS.Spec.Json WS.Spec.Dom WS.JNum WS.Props

/-! ### Lists -/

theorem elements_cons {cfg : Config} {d : Nat} {w1 t w2 : List Byte} {e : List Event} (h1 : Spec.Json.WS w1) (hv : Value cfg d t e)
    (h2 : Spec.Json.WS w2) : ∀ {r : List Byte} {e' : List Event}, Elements cfg d r e' →
      Elements cfg d (w1 ++ t ++ w2 ++ [ch ','] ++ r) (e ++ e')
  | _, _, .one g1 g2 g3 => .more (.one h1 hv h2) g1 g2 g3
  | _, _, .more g0 g1 g2 g3 => by
    have := Elements.more (elements_cons h1 hv h2 g0) g1 g2 g3
    simpa only [List.append_assoc] using this

theorem members_cons {cfg : Config} {d : Nat} {m : List Byte} {e : List Event} (hm : Member cfg d m e) :
    ∀ {r : List Byte} {e' : List Event}, Members cfg d r e' → Members cfg d (m ++ [ch ','] ++ r) (e ++ e')
  | _, _, .one g => .more (.one hm) g
  | _, _, .more g0 g => by
    have := Members.more (members_cons hm g0) g
    simpa only [List.append_assoc] using this

/-- The limits, for a text of `n` bytes inside `d` containers. -/
def Fits (cfg : Config) (d n : Nat) : Prop :=
  Within cfg.maxNumberLen n ∧ Within cfg.maxStringLen n ∧ Within cfg.maxKeyLen n ∧ Within cfg.maxNesting (d + n)

theorem within_le {m a b : Nat} (h : Within m b) (hab : a ≤ b) : Within m a := by
  rcases h with h | h
  · exact Or.inl h
  · exact Or.inr (by omega)

theorem fits_le {cfg : Config} {d n d' n' : Nat} (h : Fits cfg d n) (h1 : n' ≤ n) (h2 : d' + n' ≤ d + n) : Fits cfg d' n' :=
  ⟨within_le h.1 h1, within_le h.2.1 h1, within_le h.2.2.1 h1, within_le h.2.2.2 h2⟩

/-- What is written for a value with the tree `t`. -/
def Writes (print : BitVec 64 → List Byte) (p : Params) (v : V) (t : T) : Prop :=
  ∀ (first : Bool) (level : Nat), ∃ ws text ps, ps.flatten = ws ++ text ∧ Spec.Json.WS ws ∧
    (first = false → ws = []) ∧ (∀ cfg d, Fits cfg d text.length → Value cfg d text t.events) ∧
    ∀ {σ : Type} (w : Write σ), Emits w (dump (dumpDouble print) w p first level v) ps

/-- A value of one token. -/
theorem writes_token {print : BitVec 64 → List Byte} {p : Params} {v : V} {t : T} {text : List Byte} {ps : List (List Byte)}
    (hp : ps.flatten = text) (hv : ∀ cfg d, Fits cfg d text.length → Value cfg d text t.events)
    (hd : ∀ {σ : Type} (w : Write σ) (first : Bool) (level : Nat), ∃ a : Wr σ, Emits w a ps ∧
      dump (dumpDouble print) w p first level v = seq (if first then dumpIndent w p level else nop) a) : Writes print p v t := by
  intro first level
  cases first
  · refine ⟨[], text, [] ++ ps, by simpa using hp, ws_nil, fun _ => rfl, hv, fun w => ?_⟩
    obtain ⟨a, h1, h2⟩ := hd w false level
    rw [h2]
    simp only [Bool.false_eq_true, if_false]
    exact emits_seq emits_nop h1
  · obtain ⟨ind, qs, h1, h2, h3⟩ := indent_out p level
    refine ⟨ind, text, qs ++ ps, by rw [List.flatten_append, h1, hp], h2, fun h => (by cases h), hv, fun w => ?_⟩
    obtain ⟨a, g1, g2⟩ := hd w true level
    rw [g2]
    simp only [if_true]
    exact emits_seq (h3 w) g1

theorem writes_null (print : BitVec 64 → List Byte) (p : Params) : Writes print p .null .null :=
  writes_token (text := word "null") (ps := [word "null"]) (by simp) (fun _ _ _ => .null) (fun w f l => ⟨_, emits_write _, by
    simp only [dump]; rfl⟩)

theorem writes_bool (print : BitVec 64 → List Byte) (p : Params) (b : Bool) : Writes print p (.bool b) (.bool b) := by
  cases b
  · exact writes_token (text := word "false") (ps := [word "false"]) (by simp) (fun _ _ _ => .false) (fun w f l => ⟨_, emits_write _, by
      simp only [dump]; rfl⟩)
  · exact writes_token (text := word "true") (ps := [word "true"]) (by simp) (fun _ _ _ => .true) (fun w f l => ⟨_, emits_write _, by
      simp only [dump]; rfl⟩)

theorem writes_number {print : BitVec 64 → List Byte} {p : Params} {v : V} {text : List Byte} (hn : Number text)
    (hd : ∀ {σ : Type} (w : Write σ) (first : Bool) (level : Nat), dump (dumpDouble print) w p first level v =
      seq (if first then dumpIndent w p level else nop) (dumpText w (some text))) : Writes print p v (.num text) :=
  writes_token (text := text) (ps := [text]) (by simp) (fun _ _ h => .number hn h.1) (fun w f l => ⟨_, emits_write text, hd w f l⟩)

theorem writes_string (print : BitVec 64 → List Byte) (p : Params) {s : List Byte} (h : Utf8 s) : Writes print p (.string s) (.str s) := by
  obtain ⟨u, hu, rfl⟩ := h
  obtain ⟨b, ps, h1, h2, h3, h4⟩ := C53_written_as_json_string u hu
  refine writes_token (text := ch '"' :: b ++ [ch '"']) (ps := ps) h3 (fun cfg d h => ?_) (fun w f l => ⟨_, emits_all (h4 w), by simp only [dump]⟩)
  exact .string h1 (within_le h.2.1 (by simp; omega))

/-! ### Integers -/

theorem num_of_integer {S : List Byte → Option (BitVec 64)} {t : List Byte} {i : Int} (h : Integer t i) (h1 : -2 ^ 63 ≤ i) (h2 : i < 2 ^ 64) :
    ∃ v, Num S t v ∧ intOf v = some i := by
  by_cases a1 : -2 ^ 31 ≤ i ∧ i < 2 ^ 31
  · exact ⟨_, .int32 h a1.1 a1.2, rfl⟩
  by_cases a2 : 2 ^ 31 ≤ i ∧ i < 2 ^ 32
  · have e : ((i.toNat : Nat) : Int) = i := by omega
    rw [← e] at h
    exact ⟨_, .uint32 h (by omega) (by omega), by rw [intOf, e]⟩
  by_cases a3 : i < 2 ^ 63
  · exact ⟨_, .int64 h h1 a3 (by omega), rfl⟩
  · have e : ((i.toNat : Nat) : Int) = i := by omega
    rw [← e] at h
    exact ⟨_, .uint64 h (by omega) (by omega), by rw [intOf, e]⟩

/-! ### Values -/

variable {print : BitVec 64 → List Byte} {conv : List Byte → BitVec 64} {p : Params} {pol : DupKey} {o : Bool}

/-- A value can be written and read back. -/
def Back (print : BitVec 64 → List Byte) (conv : List Byte → BitVec 64) (p : Params) (pol : DupKey) (o : Bool) (v : V) : Prop :=
  ∃ t v', Writes print p v t ∧ t.Tame ∧ Reads (toDouble conv) pol o t v' ∧ Same p.preferOrder o v v'

theorem back_signed {v : V} {i : Int} (hi : intOf v = some i) (h1 : -2 ^ 63 ≤ i) (h2 : i < 2 ^ 63)
    (hd : ∀ {σ : Type} (w : Write σ) (first : Bool) (level : Nat), dump (dumpDouble print) w p first level v =
      seq (if first then dumpIndent w p level else nop) (dumpText w (dumpI64 i))) : Back print conv p pol o v := by
  obtain ⟨t, g1, g2, _⟩ := C52_write_signed i h1 h2
  obtain ⟨v', g3, g4⟩ := num_of_integer (S := toDouble conv) g2 h1 (by omega)
  exact ⟨.num t, v', writes_number (integer_number g2) (fun w f l => by rw [hd, g1]), trivial, .num g3, .int hi g4⟩

theorem back_unsigned {v : V} {n : Nat} (hi : intOf v = some (n : Int)) (h : n < 2 ^ 64)
    (hd : ∀ {σ : Type} (w : Write σ) (first : Bool) (level : Nat), dump (dumpDouble print) w p first level v =
      seq (if first then dumpIndent w p level else nop) (dumpText w (dumpU64 n))) : Back print conv p pol o v := by
  obtain ⟨t, g1, g2, _⟩ := C52_write_unsigned n h
  obtain ⟨v', g3, g4⟩ := num_of_integer (S := toDouble conv) g2 (by omega) (by omega)
  exact ⟨.num t, v', writes_number (integer_number g2) (fun w f l => by rw [hd, g1]), trivial, .num g3, .int hi g4⟩

theorem back_double {d : BitVec 64} (h : Writable print conv (.double d)) : Back print conv p pol o (.double d) := by
  obtain ⟨h1, h2, h3, h4⟩ := h
  obtain ⟨t, g1, g2, g3, g4, g5⟩ := dumpDouble_out h1 h2 h3
  have hc : toDouble conv t = some d := by
    simp only [toDouble, show t.length + 1 < 64 by omega, if_true, h4 t g5 g2]
  exact ⟨.num t, .double d, writes_number g2 (fun w f l => by simp only [dump, g1]), trivial, .num (.double g2 (fun i hi => absurd hi (g3 i)) hc), .double d⟩

end WS.Dom
