import Verif.Model.Time
import Verif.Model.JsonSax
/-
Conversion of configuration values to C integers and durations (src/json/load_config.c:150-404).

`strtoul`, `strtoull`, `strtol` and `strtoll` with base 0 are modelled after ISO C 7.22.1.4 in the C locale, with
`long` and `long long` of 64 bits (LP64): `errno` is set only for an out-of-range value (glibc), and there is
no `0b` prefix.  The functions read a NUL-terminated copy of the data, except for durations, which are read in
place: there the bytes that follow the data in memory are an extra argument.
-/
namespace WS.ConfNum
open WS WS.Sax WS.Time

/-- `isspace` in the C locale. -/
def isSpace (c : Byte) : Bool := c == 0x20#8 || (decide (9 ≤ c.toNat) && decide (c.toNat ≤ 13))

/-- The value of a digit in the given base, if it is one. -/
def digit (base : Nat) (c : Byte) : Option Nat :=
  let d := if 0x30 ≤ c.toNat ∧ c.toNat ≤ 0x39 then some (c.toNat - 0x30)
    else if 0x61 ≤ c.toNat ∧ c.toNat ≤ 0x7a then some (c.toNat - 0x61 + 10)
    else if 0x41 ≤ c.toNat ∧ c.toNat ≤ 0x5a then some (c.toNat - 0x41 + 10)
    else none
  d.filter (· < base)

/-- The longest run of digits: its value (on top of `acc`) and its length. -/
def digits (base acc : Nat) : List Byte → Nat × Nat
  | [] => (acc, 0)
  | c :: rest =>
    match digit base c with
    | some d => let (v, n) := digits base (acc * base + d) rest; (v, n + 1)
    | none => (acc, 0)

/-- The number of leading white-space bytes. -/
def spaces : List Byte → Nat
  | [] => 0
  | c :: rest => if isSpace c then spaces rest + 1 else 0

/-- The part after white space and sign: value and length (0 when there is no number).  "0x" without a hexadecimal
digit after it is the number 0 of length 1. -/
def magnitude : List Byte → Nat × Nat
  | 0x30#8 :: x :: rest =>
    if x = 0x78#8 ∨ x = 0x58#8 then
      let (v, n) := digits 16 0 rest
      if n = 0 then (0, 1) else (v, n + 2)
    else digits 8 0 (0x30#8 :: x :: rest)
  | 0x30#8 :: [] => (0, 1)
  | s => digits 10 0 s

/-- What the `strto*` functions recognise: sign, magnitude, and the offset of `*endptr`. -/
structure Scan where
  neg : Bool
  mag : Nat
  len : Nat
  deriving DecidableEq, Repr

def scan (s : List Byte) : Scan :=
  let k := spaces s
  let r := s.drop k
  let neg := r.head? == some 0x2d#8
  let sign := if neg || r.head? == some 0x2b#8 then 1 else 0
  let (v, n) := magnitude (r.drop sign)
  if n = 0 then ⟨false, 0, 0⟩ else ⟨neg, v, k + sign + n⟩

/-- `strtoul`/`strtoull` with base 0: value (`none` when `errno` is set to ERANGE) and offset of `*endptr`. -/
def strtoul (s : List Byte) : Option Nat × Nat :=
  let r := scan s
  (if 2 ^ 64 ≤ r.mag then none else some (if r.neg then (2 ^ 64 - r.mag) % 2 ^ 64 else r.mag), r.len)

/-- `strtol`/`strtoll` with base 0. -/
def strtol (s : List Byte) : Option Int × Nat :=
  let r := scan s
  let v : Int := if r.neg then -(r.mag : Int) else r.mag
  (if v < -2 ^ 63 ∨ 2 ^ 63 - 1 < v then none else some v, r.len)

/-- The common part of `convert_uint*`: type, size, conversion (load_config.c:159-181, 230-248). -/
def convertU (buf : Nat) (type : JType) (data : List Byte) : Res Nat :=
  if type ≠ .number ∧ type ≠ .string then .err .configInvalidValue
  else if buf ≤ data.length then .err .numericArgTooBig
  else
    match strtoul data with
    | (none, _) => .err .configInvalidValue
    | (some v, n) => if n ≠ data.length then .err .configInvalidValue else .ok v

/-- `convert_uint64` (load_config.c:150-185). -/
def convertU64 (type : JType) (data : List Byte) : Res Nat := convertU 24 type data

/-- `convert_sint64` (load_config.c:187-222). -/
def convertS64 (type : JType) (data : List Byte) : Res Int :=
  if type ≠ .number ∧ type ≠ .string then .err .configInvalidValue
  else if 24 ≤ data.length then .err .numericArgTooBig
  else
    match strtol data with
    | (none, _) => .err .configInvalidValue
    | (some v, n) => if n ≠ data.length then .err .configInvalidValue else .ok v

/-- The check against the width of the target (load_config.c:249-250). -/
def fitting (bits : Nat) : Res Nat → Res Nat
  | .ok v => if 2 ^ bits - 1 < v then .err .numericArgTooBig else .ok v
  | r => r

/-- `convert_uint32` (load_config.c:224-254). -/
def convertU32 (type : JType) (data : List Byte) : Res Nat := fitting 32 (convertU 16 type data)

/-- `convert_uint16` (load_config.c:256-286). -/
def convertU16 (type : JType) (data : List Byte) : Res Nat := fitting 16 (convertU 8 type data)

/-- `convert_uint8` (load_config.c:288-318). -/
def convertU8 (type : JType) (data : List Byte) : Res Nat := fitting 8 (convertU 4 type data)

/-- The multiplications of the `switch` in `convert_wolfsentry_duration` (load_config.c:380-396): seconds per unit
are applied one factor at a time, each a signed multiplication. -/
def scale (c : Option Byte) (conv : Int) : Res Int :=
  if c = some 0x64#8 then (chk (conv * 24)).bind fun v => (chk (v * 60)).bind fun v => chk (v * 60)
  else if c = some 0x68#8 then (chk (conv * 60)).bind fun v => chk (v * 60)
  else if c = some 0x6d#8 then chk (conv * 60)
  else .ok conv

/-- `case 'd': case 'h': case 'm': case 's':`, where `endptr` is moved (load_config.c:381-393). -/
def isUnit (c : Option Byte) : Bool := c == some 0x64#8 || c == some 0x68#8 || c == some 0x6d#8 || c == some 0x73#8

/-- `convert_wolfsentry_duration` (load_config.c:364-404) with the built-in clock.  `after` is what follows the data
in memory; the scan is undefined (`ub`) when it reaches the end of `after`. -/
def convertDuration (type : JType) (data after : List Byte) : Res Int :=
  if type ≠ .string ∧ type ≠ .number then .err .configInvalidValue
  else
    match strtol (data ++ after) with
    | (v, n) =>
      if data.length + after.length ≤ n then .ub
      else
        match v with
        | none => .err .configInvalidValue
        | some v =>
          let c := (data ++ after)[n]?
          (scale c v).bind fun v =>
          let n := if isUnit c then n + 1 else n
          if n ≠ data.length then .err .configInvalidValue
          else fromEpoch v 0

end WS.ConfNum
