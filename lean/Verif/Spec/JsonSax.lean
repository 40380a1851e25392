import Verif.Model.JsonSax
/-
What a JSON text is (RFC 8259 with UTF-8 per RFC 3629), and which parsing events describe it, written as a
grammar and without reference to the parser's functions: from Model/JsonSax only the types `Event`, `JType`,
`Config` and `Callback` are used.  `Within m n` is a configured limit (0 means none,
wolfsentry/centijson_sax.h:136-144).
-/
namespace WS.Spec.Json
open WS WS.Sax

/-- A limit of 0 is no limit. -/
def Within (m n : Nat) : Prop := m = 0 ∨ n ≤ m

/-- A byte given by its ASCII character. -/
abbrev ch (c : Char) : Byte := BitVec.ofNat 8 c.toNat

/-! ### UTF-8 -/

/-- Unicode scalar values: code points without the surrogates. -/
def Scalar (n : Nat) : Prop := n < 0xd800 ∨ (0xe000 ≤ n ∧ n < 0x110000)

/-- UTF-8 (RFC 3629, section 3). -/
def utf8 (n : Nat) : List Byte :=
  if n < 0x80 then [BitVec.ofNat 8 n]
  else if n < 0x800 then [BitVec.ofNat 8 (0xc0 + n / 64), BitVec.ofNat 8 (0x80 + n % 64)]
  else if n < 0x10000 then
    [BitVec.ofNat 8 (0xe0 + n / 4096), BitVec.ofNat 8 (0x80 + n / 64 % 64), BitVec.ofNat 8 (0x80 + n % 64)]
  else
    [BitVec.ofNat 8 (0xf0 + n / 262144), BitVec.ofNat 8 (0x80 + n / 4096 % 64), BitVec.ofNat 8 (0x80 + n / 64 % 64),
     BitVec.ofNat 8 (0x80 + n % 64)]

/-- The UTF-8 encoding of a sequence of code points. -/
def utf8s (s : List Nat) : List Byte := s.flatMap utf8

/-! ### Strings (RFC 8259, section 7) -/

/-- The value of a hexadecimal digit. -/
inductive Hex : Byte → Nat → Prop
  | digit (k : Nat) : k < 10 → Hex (BitVec.ofNat 8 (0x30 + k)) k
  | lower (k : Nat) : k < 6 → Hex (BitVec.ofNat 8 (0x61 + k)) (10 + k)
  | upper (k : Nat) : k < 6 → Hex (BitVec.ofNat 8 (0x41 + k)) (10 + k)

/-- Four hexadecimal digits and their value. -/
inductive Hex4 : List Byte → Nat → Prop
  | mk {a b c d : Byte} {i j k l : Nat} : Hex a i → Hex b j → Hex c k → Hex d l →
      Hex4 [a, b, c, d] (i * 4096 + j * 256 + k * 16 + l)

/-- The two-character escapes. -/
def escapes : List (Byte × Nat) :=
  [(ch '"', 0x22), (ch '\\', 0x5c), (ch '/', 0x2f), (ch 'b', 0x08), (ch 'f', 0x0c), (ch 'n', 0x0a), (ch 'r', 0x0d),
   (ch 't', 0x09)]

/-- The bytes between the quotes of a string, and the code points they stand for. -/
inductive Body : List Byte → List Nat → Prop
  | nil : Body [] []
  | raw {b : List Byte} {s : List Nat} {n : Nat} : Body b s → Scalar n → 0x20 ≤ n → n ≠ 0x22 → n ≠ 0x5c →
      Body (b ++ utf8 n) (s ++ [n])
  | esc {b : List Byte} {s : List Nat} {c : Byte} {n : Nat} : Body b s → (c, n) ∈ escapes →
      Body (b ++ [ch '\\', c]) (s ++ [n])
  | uni {b h : List Byte} {s : List Nat} {n : Nat} : Body b s → Hex4 h n → Scalar n →
      Body (b ++ ch '\\' :: ch 'u' :: h) (s ++ [n])
  | pair {b h k : List Byte} {s : List Nat} {hi lo : Nat} : Body b s → Hex4 h hi → Hex4 k lo →
      0xd800 ≤ hi → hi < 0xdc00 → 0xdc00 ≤ lo → lo < 0xe000 →
      Body (b ++ (ch '\\' :: ch 'u' :: h) ++ (ch '\\' :: ch 'u' :: k))
        (s ++ [0x10000 + (hi - 0xd800) * 0x400 + (lo - 0xdc00)])

/-! ### Numbers (RFC 8259, section 6) -/

/-- `0` .. `9`. -/
def Digit (c : Byte) : Prop := ch '0' ≤ c ∧ c ≤ ch '9'

/-- `int`: `0`, or digits not starting with `0`. -/
inductive IntPart : List Byte → Prop
  | zero : IntPart [ch '0']
  | first {c : Byte} : Digit c → c ≠ ch '0' → IntPart [c]
  | next {t : List Byte} {c : Byte} : IntPart t → t ≠ [ch '0'] → Digit c → IntPart (t ++ [c])

/-- One or more digits. -/
def Digits (t : List Byte) : Prop := t ≠ [] ∧ ∀ c ∈ t, Digit c

/-- `number = [ minus ] int [ frac ] [ exp ]`. -/
def Number (t : List Byte) : Prop :=
  ∃ sign int frac exp, t = sign ++ int ++ frac ++ exp ∧ (sign = [] ∨ sign = [ch '-']) ∧ IntPart int ∧
    (frac = [] ∨ ∃ ds, frac = ch '.' :: ds ∧ Digits ds) ∧
    (exp = [] ∨ ∃ e sg ds, exp = e :: sg ++ ds ∧ (e = ch 'e' ∨ e = ch 'E') ∧
      (sg = [] ∨ sg = [ch '+'] ∨ sg = [ch '-']) ∧ Digits ds)

/-! ### Values -/

/-- White space (RFC 8259, section 2). -/
def WS (w : List Byte) : Prop := ∀ c ∈ w, c = ch ' ' ∨ c = ch '\t' ∨ c = ch '\n' ∨ c = ch '\r'

/-- The bytes of an ASCII word. -/
def word (s : String) : List Byte := s.toList.map ch

mutual
/-- A value nested in `d` containers, the text of it and its events. -/
inductive Value (cfg : Config) : Nat → List Byte → List Event → Prop
  | null {d : Nat} : Value cfg d (word "null") [⟨.null, []⟩]
  | false {d : Nat} : Value cfg d (word "false") [⟨.false, []⟩]
  | true {d : Nat} : Value cfg d (word "true") [⟨.true, []⟩]
  | number {d : Nat} {t : List Byte} : Number t → Within cfg.maxNumberLen t.length → Value cfg d t [⟨.number, t⟩]
  | string {d : Nat} {b : List Byte} {s : List Nat} : Body b s → Within cfg.maxStringLen b.length →
      Value cfg d (ch '"' :: b ++ [ch '"']) [⟨.string, utf8s s⟩]
  | emptyArray {d : Nat} {w : List Byte} : Within cfg.maxNesting (d + 1) → WS w →
      Value cfg d (ch '[' :: w ++ [ch ']']) [⟨.arrayBeg, []⟩, ⟨.arrayEnd, []⟩]
  | array {d : Nat} {t : List Byte} {e : List Event} : Within cfg.maxNesting (d + 1) → Elements cfg (d + 1) t e →
      Value cfg d (ch '[' :: t ++ [ch ']']) (⟨.arrayBeg, []⟩ :: e ++ [⟨.arrayEnd, []⟩])
  | emptyObject {d : Nat} {w : List Byte} : Within cfg.maxNesting (d + 1) → WS w →
      Value cfg d (ch '{' :: w ++ [ch '}']) [⟨.objectBeg, []⟩, ⟨.objectEnd, []⟩]
  | object {d : Nat} {t : List Byte} {e : List Event} : Within cfg.maxNesting (d + 1) → Members cfg (d + 1) t e →
      Value cfg d (ch '{' :: t ++ [ch '}']) (⟨.objectBeg, []⟩ :: e ++ [⟨.objectEnd, []⟩])

/-- One or more values separated by commas. -/
inductive Elements (cfg : Config) : Nat → List Byte → List Event → Prop
  | one {d : Nat} {w1 t w2 : List Byte} {e : List Event} : WS w1 → Value cfg d t e → WS w2 →
      Elements cfg d (w1 ++ t ++ w2) e
  | more {d : Nat} {t0 w1 t w2 : List Byte} {e0 e : List Event} : Elements cfg d t0 e0 → WS w1 → Value cfg d t e →
      WS w2 → Elements cfg d (t0 ++ [ch ','] ++ (w1 ++ t ++ w2)) (e0 ++ e)

/-- One or more `key : value` separated by commas. -/
inductive Members (cfg : Config) : Nat → List Byte → List Event → Prop
  | one {d : Nat} {m : List Byte} {e : List Event} : Member cfg d m e → Members cfg d m e
  | more {d : Nat} {t0 m : List Byte} {e0 e : List Event} : Members cfg d t0 e0 → Member cfg d m e →
      Members cfg d (t0 ++ [ch ','] ++ m) (e0 ++ e)

/-- `key : value` with white space around the two parts. -/
inductive Member (cfg : Config) : Nat → List Byte → List Event → Prop
  | mk {d : Nat} {w1 b w2 w3 t w4 : List Byte} {s : List Nat} {e : List Event} : WS w1 → Body b s →
      Within cfg.maxKeyLen b.length → WS w2 → WS w3 → Value cfg d t e → WS w4 →
      Member cfg d (w1 ++ (ch '"' :: b ++ [ch '"']) ++ w2 ++ [ch ':'] ++ w3 ++ t ++ w4) (⟨.key, utf8s s⟩ :: e)
end

/-- How many values and keys a sequence of events has (`max_total_values` counts these). -/
def count (evs : List Event) : Nat :=
  (evs.filter fun e => e.type != .arrayEnd && e.type != .objectEnd).length

/-- The root types switched off by `flags` (wolfsentry/centijson_sax.h:113-121). -/
def rootForbidden (cfg : Config) : JType → Prop
  | .null => cfg.flags.getLsbD 0 = Bool.true
  | .false | .true => cfg.flags.getLsbD 1 = Bool.true
  | .number => cfg.flags.getLsbD 2 = Bool.true
  | .string => cfg.flags.getLsbD 3 = Bool.true
  | .arrayBeg => cfg.flags.getLsbD 4 = Bool.true
  | .objectBeg => cfg.flags.getLsbD 5 = Bool.true
  | _ => False

/-- A JSON text within the configured limits, and its events. -/
def Document (cfg : Config) (text : List Byte) (evs : List Event) : Prop :=
  (∃ w1 t w2, text = w1 ++ t ++ w2 ∧ WS w1 ∧ WS w2 ∧ Value cfg 0 t evs) ∧
  Within cfg.maxTotalLen text.length ∧ Within cfg.maxTotalValues (count evs) ∧
  ∀ e, evs.head? = some e → ¬ rootForbidden cfg e.type

/-- The callback has been called once for each event, in order, each time with the user data it returned the
time before, and never returned a negative code. -/
inductive Calls {σ : Type} (cb : Callback σ) : σ → List Event → σ → Prop
  | nil {u : σ} : Calls cb u [] u
  | snoc {u u' : σ} {evs : List Event} {e : Event} {vp p : Pos} : Calls cb u evs u' → 0 ≤ (cb u' e vp p).2.1 →
      Calls cb u (evs ++ [e]) (cb u' e vp p).1

/-- The configuration does not ask for ill-formed UTF-8 to be passed through or replaced
(wolfsentry/centijson_sax.h:122-128, bits 8 to 11). -/
def Strict (cfg : Config) : Prop :=
  cfg.flags.getLsbD 8 = Bool.false ∧ cfg.flags.getLsbD 9 = Bool.false ∧ cfg.flags.getLsbD 10 = Bool.false ∧
  cfg.flags.getLsbD 11 = Bool.false

/-- The text ends in a letter or a digit, so its last token may be incomplete. -/
def EndsInWord (text : List Byte) : Prop :=
  ∃ t c, text = t ++ [c] ∧ (Digit c ∨ (ch 'a' ≤ c ∧ c ≤ ch 'z') ∨ (ch 'A' ≤ c ∧ c ≤ ch 'Z'))

end WS.Spec.Json
