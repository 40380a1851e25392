import Verif.Proof.JsonValue
/-
C61: strings and integers stored in JSON values come back unchanged.  C62: paths.
-/
namespace WS.Props
open WS WS.Sax WS.JNum WS.Dom WS.JVal WS.Spec.JVal WS.Spec.Json

/-- A value with sixteen bytes of garbage. -/
def junkCell : Cell := ⟨List.replicate 16 0xaa#8, none⟩

/-! ### C61 -/

/-- C61: a string of any bytes and length is stored, has its length, and is found terminated by zero; it needs memory from the allocator only
if it has more than 13 bytes. -/
theorem C61_string_kept (mem : Bool) (c : Cell) (s : List Byte) (hs : s.length < 2 ^ 63) (hm : mem = true ∨ s.length ≤ 13) :
    ∃ c', initString mem c s = some (c', 0) ∧ typeOf c' = tString ∧ stringLength c' = some s.length ∧
      ∃ more, string c' = some (some (s ++ 0#8 :: more)) :=
  initString_spec mem c s hs hm

example : ∃ c', initString true junkCell (List.replicate 300 0#8) = some (c', 0) ∧ stringLength c' = some 300 :=
  let ⟨c', h1, _, h3, _⟩ := C61_string_kept true junkCell (List.replicate 300 0#8) (by rw [List.length_replicate]; decide) (Or.inl rfl)
  ⟨c', h1, by rw [h3, List.length_replicate]⟩

/-- C61: without memory a longer string is refused, and the value is null. -/
theorem C61_string_without_memory (c : Cell) (s : List Byte) (h1 : 13 < s.length) (h2 : s.length < 2 ^ 63) :
    ∃ c', initString false c s = some (c', -1) ∧ typeOf c' = tNull := by
  have e := encodeLen_length s.length
  have e2 := e.2 h2
  unfold initString store
  rw [Nat.mod_eq_of_lt (by rw [lenSize_eq]; omega), lenSize_eq]
  rw [if_neg (by simp only [List.length_append, List.length_cons, List.length_nil]; omega), Nat.mod_eq_of_lt (by omega), if_neg (by omega), if_neg (by simp)]
  exact ⟨_, rfl, show tNull &&& 0x0f#8 = tNull by decide⟩

example : ∃ c', initString false junkCell (List.replicate 14 0x41#8) = some (c', -1) ∧ typeOf c' = tNull :=
  C61_string_without_memory junkCell _ (by decide) (by decide)

/-- C61: the colour that the dictionary keeps in the first byte of a key changes neither the key nor its length, in whatever order colours are
set. -/
theorem C61_key_survives_colours (c : Cell) (colours : List Bool) :
    string (colours.foldl (fun c red => setColor red c) c) = string c ∧ stringLength (colours.foldl (fun c red => setColor red c) c) = stringLength c := by
  induction colours generalizing c with
  | nil => exact ⟨rfl, rfl⟩
  | cons red cs ih =>
    obtain ⟨h1, h2⟩ := setColor_same red c
    obtain ⟨g1, g2⟩ := ih (setColor red c)
    rw [List.foldl_cons, g1, g2]
    constructor
    · rw [string, string, h1, h2]
    · rw [stringLength, stringLength, h1, h2]

example : ∃ c', initString false junkCell (lit "key") = some (c', 0) ∧ stringLength (setColor false (setColor true c')) = some 3 :=
  let ⟨c', h1, _, h3, _⟩ := C61_string_kept false junkCell (lit "key") (by decide) (Or.inr (by decide))
  ⟨c', h1, ((C61_key_survives_colours c' [true, false]).2).trans h3⟩

/-- C61: an integer is stored, without memory from the allocator, and the getter of its type returns it. -/
theorem C61_integer_kept (c : Cell) (i : Int) :
    (-2 ^ 31 ≤ i → i < 2 ^ 31 → ∃ c', initInt32 false c i = some (c', 0) ∧ typeOf c' = tInt32 ∧ int32 c' = some i) ∧
    (0 ≤ i → i < 2 ^ 32 → ∃ c', initUInt32 false c i = some (c', 0) ∧ typeOf c' = tUInt32 ∧ uint32 c' = some i) ∧
    (-2 ^ 63 ≤ i → i < 2 ^ 63 → ∃ c', initInt64 false c i = some (c', 0) ∧ typeOf c' = tInt64 ∧ int64 c' = some i) ∧
    (0 ≤ i → i < 2 ^ 64 → ∃ c', initUInt64 false c i = some (c', 0) ∧ typeOf c' = tUInt64 ∧ uint64 c' = some i) := by
  refine ⟨fun h1 h2 => ?_, fun h1 h2 => ?_, fun h1 h2 => ?_, fun h1 h2 => ?_⟩
  · obtain ⟨c', g1, g2, g3⟩ := initInt_number (mem := false) (c := c) (type := tInt32) (n := 4) (i := i)
      ⟨fun _ => ⟨h1, h2⟩, fun e => absurd e (by decide), fun e => absurd e (by decide), fun e => absurd e (by decide)⟩ (Or.inl ⟨rfl, Or.inl rfl⟩)
    exact ⟨c', g1, g2, by rw [(getters g3).1, bmod_of_range (n := 31) (by omega) (by omega)]⟩
  · obtain ⟨c', g1, g2, g3⟩ := initInt_number (mem := false) (c := c) (type := tUInt32) (n := 4) (i := i)
      ⟨fun e => absurd e (by decide), fun _ => ⟨h1, h2⟩, fun e => absurd e (by decide), fun e => absurd e (by decide)⟩ (Or.inl ⟨rfl, Or.inr rfl⟩)
    exact ⟨c', g1, g2, by rw [(getters g3).2.1]; congr 1; omega⟩
  · obtain ⟨c', g1, g2, g3⟩ := initInt_number (mem := false) (c := c) (type := tInt64) (n := 8) (i := i)
      ⟨fun e => absurd e (by decide), fun e => absurd e (by decide), fun _ => ⟨h1, h2⟩, fun e => absurd e (by decide)⟩ (Or.inr ⟨rfl, Or.inl rfl⟩)
    exact ⟨c', g1, g2, by rw [(getters g3).2.2.1, bmod_of_range (n := 63) (by omega) (by omega)]⟩
  · obtain ⟨c', g1, g2, g3⟩ := initInt_number (mem := false) (c := c) (type := tUInt64) (n := 8) (i := i)
      ⟨fun e => absurd e (by decide), fun e => absurd e (by decide), fun e => absurd e (by decide), fun _ => ⟨h1, h2⟩⟩ (Or.inr ⟨rfl, Or.inr rfl⟩)
    exact ⟨c', g1, g2, by rw [(getters g3).2.2.2]; congr 1; omega⟩

example : ∃ c', initInt64 false junkCell (-9223372036854775808) = some (c', 0) ∧ typeOf c' = tInt64 ∧ int64 c' = some (-9223372036854775808) :=
  (C61_integer_kept junkCell _).2.2.1 (by decide) (by decide)

/-- C61: an integer stored with one type is compatible with another one exactly if that type has it, and then the getter of the other type
returns it. -/
theorem C61_compatible_exact (c : Cell) (stored type : Byte) (bytes : Nat) (i : Int) (hi : InRange stored i) (ht : IntType type)
    (hb : (bytes = 4 ∧ (stored = tInt32 ∨ stored = tUInt32)) ∨ (bytes = 8 ∧ (stored = tInt64 ∨ stored = tUInt64))) :
    ∃ c' b, initInt false c stored bytes i = some (c', 0) ∧ compatible c' type = some b ∧ (b = true ↔ InRange type i) ∧
      (b = true → (type = tInt32 → int32 c' = some i) ∧ (type = tUInt32 → uint32 c' = some i) ∧ (type = tInt64 → int64 c' = some i) ∧
        (type = tUInt64 → uint64 c' = some i)) := by
  obtain ⟨c', g1, g2, g3⟩ := initInt_number (mem := false) (c := c) hi hb
  obtain ⟨b, k1, k2⟩ := compatible_iff g2 g3 (by
    rcases hb with ⟨_, rfl | rfl⟩ | ⟨_, rfl | rfl⟩
    · exact Or.inl rfl
    · exact Or.inr (Or.inl rfl)
    · exact Or.inr (Or.inr (Or.inl rfl))
    · exact Or.inr (Or.inr (Or.inr rfl))) ht hi
  refine ⟨c', b, g1, k1, k2, fun hb => ?_⟩
  obtain ⟨r1, r2, r3, r4⟩ := k2.1 hb
  obtain ⟨e1, e2, e3, e4⟩ := getters g3
  refine ⟨fun e => ?_, fun e => ?_, fun e => ?_, fun e => ?_⟩
  · have := r1 e; rw [e1, bmod_of_range (n := 31) (by omega) (by omega)]
  · have := r2 e; rw [e2]; congr 1; omega
  · have := r3 e; rw [e3, bmod_of_range (n := 63) (by omega) (by omega)]
  · have := r4 e; rw [e4]; congr 1; omega

example : ∃ c' b, initInt false junkCell tUInt64 8 4294967295 = some (c', 0) ∧ compatible c' tUInt32 = some b ∧ (b = true ↔ InRange tUInt32 4294967295) ∧
    (b = true → (tUInt32 = tInt32 → int32 c' = some 4294967295) ∧ (tUInt32 = tUInt32 → uint32 c' = some 4294967295) ∧
      (tUInt32 = tInt64 → int64 c' = some 4294967295) ∧ (tUInt32 = tUInt64 → uint64 c' = some 4294967295)) :=
  C61_compatible_exact junkCell tUInt64 tUInt32 8 4294967295
    ⟨fun e => absurd e (by decide), fun e => absurd e (by decide), fun e => absurd e (by decide), fun _ => by decide⟩ (Or.inr (Or.inl rfl))
    (Or.inr ⟨rfl, Or.inr rfl⟩)

/-- C61: a truth value is returned; asking any other value for one gives -1. -/
theorem C61_bool_kept (c : Cell) (b : Bool) : typeOf (initBool c b) = tBool ∧ JVal.bool (initBool c b) = (if b then 1 else 0) ∧
    ∀ c', typeOf c' ≠ tBool → JVal.bool c' = -1 := by
  have ht : typeOf (initBool c b) = tBool := show tBool &&& 0x0f#8 = tBool by decide
  refine ⟨ht, ?_, fun c' h => by rw [JVal.bool, if_pos h]⟩
  rw [JVal.bool, if_neg (by rw [ht]; simp)]
  cases b <;> rfl

example : JVal.bool (initBool junkCell true) = 1 := (C61_bool_kept junkCell true).2.1

/-! ### C62 -/

/-- `{"list": [null, {"x": true}], "[]": "brackets"}` -/
def pathValue : V := .dict true [(lit "list", .array [.null, .dict true [(lit "x", .bool true)]]), (lit "[]", .string (lit "brackets"))]

/-- C62: a path leads exactly where its tokens lead one after the other, if tokens in brackets hold decimal numbers below 2^64. -/
theorem C62_path_leads_partial (root w : V) (tokens : List (List Byte)) (h0 : tokens ≠ []) (hs : ∀ t ∈ tokens, ch '/' ∉ t)
    (hp : ∀ t ∈ tokens, Proper t) : path root (joined tokens) = some w ↔ Walk root tokens w :=
  path_joined tokens h0 hs hp root w

theorem pathTokens_proper : ∀ t ∈ [lit "list", lit "[1]", [], lit "x"], Proper t := by
  intro t ht hb
  simp only [List.mem_cons, List.not_mem_nil, or_false] at ht
  rcases ht with rfl | rfl | rfl | rfl
  · obtain ⟨i, _, h⟩ := hb
    exact absurd (congrArg List.head? h) (by rw [List.head?_cons]; decide)
  · exact ⟨[ch '1'], 1, by simp, .snoc (t := []) (n := 0) (k := 1) .nil (by decide), by decide, rfl⟩
  · obtain ⟨i, _, h⟩ := hb; cases h
  · obtain ⟨i, _, h⟩ := hb
    exact absurd (congrArg List.head? h) (by rw [List.head?_cons]; decide)

example : Walk pathValue [lit "list", lit "[1]", [], lit "x"] (.bool true) :=
  (C62_path_leads_partial pathValue (.bool true) _ (by simp) (by decide) pathTokens_proper).1 rfl

/-- C62, finding: a number in brackets is taken modulo 2^64: `[18446744073709551617]` is element 1. -/
theorem C62_index_wraps (xs : List V) : path (.array xs) (lit "[18446744073709551617]") = xs[1]? := rfl

example : path (.array [.null, .bool true]) (lit "[18446744073709551617]") = some (.bool true) := C62_index_wraps _

/-- C62, finding: what follows the first closing bracket of a token is ignored, so `[1]x]` is element 1, and `[]]`, which has no number, is
element 0; a key in brackets that is not a number cannot be reached. -/
theorem C62_brackets_misread (xs : List V) (o : Bool) (v : V) :
    path (.array xs) (lit "[1]x]") = xs[1]? ∧ path (.array xs) (lit "[]]") = xs[0]? ∧ path (.dict o [(lit "[k]", v)]) (lit "[k]") = none :=
  ⟨rfl, rfl, rfl⟩

example : path (.array [.bool false]) (lit "[]]") = some (.bool false) := (C62_brackets_misread _ true .null).2.1

/-- C62: in brackets, anything but a closing bracket after the digits leads nowhere. -/
theorem C62_not_a_number (root : V) (d rest : List Byte) (n : Nat) (c : Byte) (hd : Dec d n) (hc : ¬ Digit c) (hb : c ≠ ch ']')
    (hs : ch '/' ∉ d ++ c :: rest) : path root (ch '[' :: (d ++ c :: rest ++ [ch ']'])) = none := by
  have hs' : ch '/' ∉ ch '[' :: (d ++ c :: rest ++ [ch ']']) := by
    intro h
    rcases List.mem_cons.1 h with h | h
    · revert h; decide
    · rcases List.mem_append.1 h with h | h
      · exact hs h
      · revert h; decide
  have := pathFrom_token root _ hs' [] []
  rw [List.append_nil, List.nil_append] at this
  rw [path, this, pathFrom, pathToken]
  rw [if_pos ((bracketed_iff _).2 ⟨d ++ c :: rest, by simp, rfl⟩)]
  have hidx : pathIndex 0 ((ch '[' :: (d ++ c :: rest ++ [ch ']'])).drop 1) = (n % 2 ^ 64, c :: (rest ++ [ch ']'])) := by
    rw [List.drop_succ_cons, List.drop_zero, List.append_assoc, pathIndex_digits hd 0 _ (by decide), Nat.zero_mul, Nat.zero_add, List.cons_append, pathIndex]
    rw [if_neg]
    intro h
    exact hc h
  simp only [hidx, List.head?_cons]
  rw [if_pos]
  intro h
  exact hb (Option.some.inj h)

example : path (.array [.null, .bool true]) (lit "[1x]") = none :=
  C62_not_a_number _ [ch '1'] [] 1 (ch 'x') (.snoc (t := []) (n := 0) (k := 1) .nil (by decide)) (by unfold Digit; decide) (by decide) (by decide)

end WS.Props
