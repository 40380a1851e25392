import Verif.Spec.JsonNum
/-
Integer literals accepted in configuration strings (property C54): those of the C functions `strtoul` and `strtol`
with base 0, described independently of how they are scanned.
-/
namespace WS.Spec.Conf
open WS WS.Spec.Json

/-- `c` is the digit with value `k`: 0-9, then a-z or A-Z. -/
def DigitOf (c : Byte) (k : Nat) : Prop :=
  (k < 10 ∧ c.toNat = 0x30 + k) ∨ (10 ≤ k ∧ k < 36 ∧ (c.toNat = 0x61 + (k - 10) ∨ c.toNat = 0x41 + (k - 10)))

/-- Digits of the given base and their value. -/
inductive Positional (base : Nat) : List Byte → Nat → Prop
  | nil : Positional base [] 0
  | snoc {t : List Byte} {n k : Nat} {c : Byte} : Positional base t n → DigitOf c k → k < base → Positional base (t ++ [c]) (n * base + k)

/-- Decimal without leading zero, octal with leading zero, or hexadecimal with leading 0x. -/
inductive Unsigned : List Byte → Nat → Prop
  | decimal {t : List Byte} {n : Nat} : Positional 10 t n → t ≠ [] → t.head? ≠ some (ch '0') → Unsigned t n
  | octal {t : List Byte} {n : Nat} : Positional 8 t n → Unsigned (ch '0' :: t) n
  | hex {t : List Byte} {n : Nat} {x : Byte} : x = ch 'x' ∨ x = ch 'X' → Positional 16 t n → t ≠ [] → Unsigned (ch '0' :: x :: t) n

/-- Optional white space, optional sign, and an unsigned literal; with the value. -/
def Literal (t : List Byte) (v : Int) : Prop :=
  ∃ w s b m, t = w ++ s ++ b ∧ (∀ c ∈ w, c = ch ' ' ∨ (9 ≤ c.toNat ∧ c.toNat ≤ 13)) ∧ Unsigned b m ∧
    ((s = [] ∧ v = m) ∨ (s = [ch '+'] ∧ v = m) ∨ (s = [ch '-'] ∧ v = -(m : Int)))

/-- Seconds per time unit; no unit is seconds. -/
inductive TimeUnit : List Byte → Int → Prop
  | none : TimeUnit [] 1
  | seconds : TimeUnit [ch 's'] 1
  | minutes : TimeUnit [ch 'm'] 60
  | hours : TimeUnit [ch 'h'] 3600
  | days : TimeUnit [ch 'd'] 86400

/-- A byte that can follow a value in a JSON text. -/
def Delimiter (c : Byte) : Prop := c = ch '"' ∨ c = ch ',' ∨ c = ch '}' ∨ c = ch ']' ∨ c = ch ' ' ∨ c.toNat = 9 ∨ c.toNat = 10 ∨ c.toNat = 13

end WS.Spec.Conf
