import Verif.Model.JsonValue
import Verif.Spec.JsonNum
/-
Stored numbers and paths (properties C61, C62).  From the model only the data type `V` and the type numbers are used.
-/
namespace WS.Spec.JVal
open WS WS.Dom WS.JVal WS.Spec.Json

/-- The numbers of an integer type. -/
def InRange (type : Byte) (i : Int) : Prop :=
  (type = tInt32 → -2 ^ 31 ≤ i ∧ i < 2 ^ 31) ∧ (type = tUInt32 → 0 ≤ i ∧ i < 2 ^ 32) ∧
  (type = tInt64 → -2 ^ 63 ≤ i ∧ i < 2 ^ 63) ∧ (type = tUInt64 → 0 ≤ i ∧ i < 2 ^ 64)

/-- One of the integer types. -/
def IntType (type : Byte) : Prop := type = tInt32 ∨ type = tUInt32 ∨ type = tInt64 ∨ type = tUInt64

/-- A token in brackets with something between them. -/
def Bracketed (token : List Byte) : Prop := ∃ inner, inner ≠ [] ∧ token = ch '[' :: (inner ++ [ch ']'])

/-- What a token of a path leads to: an empty token to the value itself, `[n]` to element `n` of an array, any other one to the entry of a
dictionary with that key. -/
inductive Item : V → List Byte → V → Prop
  | stay {v : V} : Item v [] v
  | index {xs : List V} {d : List Byte} {n : Nat} {w : V} : d ≠ [] → Dec d n → xs[n]? = some w →
      Item (.array xs) (ch '[' :: (d ++ [ch ']'])) w
  | key {o : Bool} {es : List (List Byte × V)} {k : List Byte} {w : V} : k ≠ [] → ¬ Bracketed k → es.lookup k = some w → Item (.dict o es) k w

/-- What a sequence of tokens leads to. -/
inductive Walk : V → List (List Byte) → V → Prop
  | done {v : V} : Walk v [] v
  | step {v w x : V} {t : List Byte} {ts : List (List Byte)} : Item v t w → Walk w ts x → Walk v (t :: ts) x

/-- The tokens separated by slashes. -/
def joined : List (List Byte) → List Byte
  | [] => []
  | [t] => t
  | t :: ts => t ++ ch '/' :: joined ts

/-- A token whose brackets, if it has them, hold a decimal number below 2^64. -/
def Proper (token : List Byte) : Prop := Bracketed token → ∃ d n, d ≠ [] ∧ Dec d n ∧ n < 2 ^ 64 ∧ token = ch '[' :: (d ++ [ch ']'])

end WS.Spec.JVal
