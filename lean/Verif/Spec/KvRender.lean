import Verif.Model.KvRender
import Verif.Spec.JsonDom
/-
The text of a user value, and a text in a buffer.
-/
namespace WS.Spec.Render
open WS WS.Render WS.Spec.Json

/-- `t` is the text of a value: JSON words and integers, the fixed-point text of a floating-point number, a string between quotes, a JSON
document as the JSON library writes it. -/
def ValueText (fmt10 : BitVec 64 → List Byte) (fmt : BitVec 64 → Option (List Byte)) : Val → List Byte → Prop
  | .null, t => t = word "null"
  | .true, t => t = word "true"
  | .false, t => t = word "false"
  | .uint n, t => Integer t n.toNat
  | .sint i, t => Integer t i.toInt
  | .float d, t => t = fmt10 d
  | .string s, t => 0#8 ∉ s ∧ t = ch '"' :: s ++ [ch '"']
  | .json v, t => t = (Dom.dumpRoot fmt (fun u b => (u ++ b, 0)) { preferOrder := Bool.true, tabWidth := 4 } v []).1
  | _, _ => False

/-- The buffer holds the text and a zero behind it. -/
def Holds (m : Mem) (t : List Byte) : Prop := (∀ i, (h : i < t.length) → m i = t[i]) ∧ m t.length = 0#8

/-- Nothing changed from offset `k` on. -/
def SameFrom (k : Nat) (m m' : Mem) : Prop := ∀ i, k ≤ i → m' i = m i

/-- What the codes of the JSON library that have a meaning of their own are reported as: internal error, out of memory, something unexpected
(value, key, colon, comma, closer, end), number too long, string too long, key too long, parser not initialised, duplicate key. -/
def codeTable : List (Int × Err) :=
  [(-1, .internalCheckFatal), (-2, .sysResourceFailed), (-7, .configUnexpected), (-8, .configUnexpected), (-9, .configUnexpected),
   (-10, .configUnexpected), (-11, .configUnexpected), (-12, .configUnexpected), (-13, .configUnexpected), (-17, .numericArgTooBig),
   (-18, .stringArgTooLong), (-19, .configInvalidKey), (-24, .invalidArg), (-1000, .itemAlreadyPresent)]

end WS.Spec.Render
