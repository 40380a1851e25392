/-
Reference base64 encoder (RFC 4648 section 4), written without reference to the model.
-/
namespace WS.Spec.Base64

/-- The RFC 4648 alphabet: the ASCII code of the character for a 6-bit value. -/
def alphabet (v : Nat) : Nat :=
  if v < 26 then 65 + v          -- 'A'..'Z'
  else if v < 52 then 97 + (v - 26)  -- 'a'..'z'
  else if v < 62 then 48 + (v - 52)  -- '0'..'9'
  else if v = 62 then 43         -- '+'
  else 47                        -- '/'

/-- Encode a byte string; `pad` says whether to add the trailing `=` characters. -/
def encode (pad : Bool) : List Nat → List Nat
  | [] => []
  | [a] => [alphabet (a / 4), alphabet (a % 4 * 16)] ++ (if pad then [61, 61] else [])
  | [a, b] => [alphabet (a / 4), alphabet (a % 4 * 16 + b / 16), alphabet (b % 16 * 4)]
      ++ (if pad then [61] else [])
  | a :: b :: c :: rest =>
      [alphabet (a / 4), alphabet (a % 4 * 16 + b / 16), alphabet (b % 16 * 4 + c / 64),
       alphabet (c % 64)] ++ encode pad rest

/-- The base64 alphabet including the padding character. -/
def isBase64Char (c : Nat) : Bool :=
  (65 ≤ c && c ≤ 90) || (97 ≤ c && c ≤ 122) || (48 ≤ c && c ≤ 57) || c == 43 || c == 47 || c == 61

/-- Text split at the first padding character. -/
def beforePad (t : List Nat) : List Nat := t.takeWhile (· != 61)
def fromPad (t : List Nat) : List Nat := t.dropWhile (· != 61)

/-- Drop characters outside the base64 alphabet ahead of the padding. -/
def stripJunk (t : List Nat) : List Nat := (beforePad t).filter isBase64Char ++ fromPad t

end WS.Spec.Base64
