import Verif.Spec.JsonSax
/-
Texts cut off after a number or inside or after a literal, possibly inside containers: what the parser takes for
a JSON text besides JSON texts.  A grammar over the one of Spec/JsonSax.
-/
namespace WS.Spec.Json
open WS WS.Sax

/-- The text before a value that is nested in `d` open containers, and the events of it. -/
inductive Open (cfg : Config) : Nat → List Byte → List Event → Prop
  | root {w : List Byte} : WS w → Open cfg 0 w []
  | first {d : Nat} {t w : List Byte} {e : List Event} : Open cfg d t e → Within cfg.maxNesting (d + 1) → WS w →
      Open cfg (d + 1) (t ++ [ch '['] ++ w) (e ++ [⟨.arrayBeg, []⟩])
  | next {d : Nat} {t te w : List Byte} {e ee : List Event} : Open cfg d t e → Within cfg.maxNesting (d + 1) →
      Elements cfg (d + 1) te ee → WS w →
      Open cfg (d + 1) (t ++ [ch '['] ++ te ++ [ch ','] ++ w) (e ++ [⟨.arrayBeg, []⟩] ++ ee)
  | firstMember {d : Nat} {t w1 b w2 w3 : List Byte} {s : List Nat} {e : List Event} : Open cfg d t e →
      Within cfg.maxNesting (d + 1) → WS w1 → Body b s → Within cfg.maxKeyLen b.length → WS w2 → WS w3 →
      Open cfg (d + 1) (t ++ [ch '{'] ++ w1 ++ (ch '"' :: b ++ [ch '"']) ++ w2 ++ [ch ':'] ++ w3)
        (e ++ [⟨.objectBeg, []⟩] ++ [⟨.key, utf8s s⟩])
  | nextMember {d : Nat} {t te w1 b w2 w3 : List Byte} {s : List Nat} {e ee : List Event} : Open cfg d t e →
      Within cfg.maxNesting (d + 1) → Members cfg (d + 1) te ee → WS w1 → Body b s → Within cfg.maxKeyLen b.length →
      WS w2 → WS w3 →
      Open cfg (d + 1) (t ++ [ch '{'] ++ te ++ [ch ','] ++ w1 ++ (ch '"' :: b ++ [ch '"']) ++ w2 ++ [ch ':'] ++ w3)
        (e ++ [⟨.objectBeg, []⟩] ++ ee ++ [⟨.key, utf8s s⟩])

/-- The last token: a number, or one or more letters that a literal begins with. -/
inductive LastToken (cfg : Config) : List Byte → Event → Prop
  | number {t : List Byte} : Number t → Within cfg.maxNumberLen t.length → LastToken cfg t ⟨.number, t⟩
  | null {t : List Byte} : t ≠ [] → t <+: word "null" → LastToken cfg t ⟨.null, []⟩
  | false {t : List Byte} : t ≠ [] → t <+: word "false" → LastToken cfg t ⟨.false, []⟩
  | true {t : List Byte} : t ≠ [] → t <+: word "true" → LastToken cfg t ⟨.true, []⟩

/-- A text cut off in or after its last number or literal, within the limits, and the events of it. -/
def CutOff (cfg : Config) (text : List Byte) (evs : List Event) : Prop :=
  (∃ d t0 tok e0 ev, text = t0 ++ tok ∧ Open cfg d t0 e0 ∧ LastToken cfg tok ev ∧ evs = e0 ++ [ev]) ∧
  Within cfg.maxTotalLen text.length ∧ Within cfg.maxTotalValues (count evs) ∧
  ∀ e, evs.head? = some e → ¬ rootForbidden cfg e.type

/-- What closes a container. -/
def Ending (e : Event) : Prop := e.type = .arrayEnd ∨ e.type = .objectEnd

end WS.Spec.Json
