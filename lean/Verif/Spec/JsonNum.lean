import Verif.Spec.JsonSax
/-
The value of a JSON integer (property C52): from Spec/JsonSax only the grammar of numbers is used.
-/
namespace WS.Spec.Json
open WS

/-- Decimal digits and their value. -/
inductive Dec : List Byte → Nat → Prop
  | nil : Dec [] 0
  | snoc {t : List Byte} {n k : Nat} : Dec t n → k < 10 → Dec (t ++ [BitVec.ofNat 8 (0x30 + k)]) (n * 10 + k)

/-- `t` is the JSON integer (a number without fraction and exponent) with value `v`. -/
def Integer (t : List Byte) (v : Int) : Prop :=
  ∃ d n, IntPart d ∧ Dec d n ∧ ((t = d ∧ v = n) ∨ (t = ch '-' :: d ∧ v = -(n : Int)))

end WS.Spec.Json

namespace WS.Spec.Json
open WS

/-- Writing the pieces in order with a write function, stopping at the first negative return code. -/
def writeAll {σ : Type} (w : σ → List Byte → σ × Int) : σ → List (List Byte) → σ × Int
  | u, [] => (u, 0)
  | u, p :: ps => if (w u p).2 < 0 then w u p else writeAll w (w u p).1 ps

end WS.Spec.Json
