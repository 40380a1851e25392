import Verif.Model.Basic
/-
Numbers in JSON texts: classification, conversion to C integers, and writing (src/json/centijson_sax.c:1014-1172,
1248-1299).

A pointer/length pair is a list of bytes.  Output parameters are a returned structure; NULL output pointers are
not modelled.  `json_number_to_double` and `json_dump_double` (strtod, snprintf) are not modelled.
-/
namespace WS.JNum
open WS

/-- The bytes of an ASCII literal. -/
def lit (s : String) : List Byte := s.toList.map fun c => BitVec.ofNat 8 c.toNat

/-- `strncmp` on `n` bytes of both arguments, when both have that many. -/
def strncmp : List Byte → List Byte → Int
  | a :: as, b :: bs => if a = b then (if a = 0#8 then 0 else strncmp as bs) else (a.toNat : Int) - b.toNat
  | _, _ => 0

/-- `intstrncmp_pos` (centijson_sax.c:1019-1026). -/
def cmpPos (a b : List Byte) : Int :=
  if a.length ≠ b.length then (if a.length < b.length then -1 else 1) else strncmp a b

/-- `intstrncmp_neg` (centijson_sax.c:1029-1033). -/
def cmpNeg (a b : List Byte) : Int := -cmpPos a.tail b.tail

/-- `intstrncmp` (centijson_sax.c:1035-1052).  The C code reads the first byte without checking that there is
one; here an empty text counts as positive. -/
def cmp (a b : List Byte) : Int :=
  let pos1 := a.head? != some 0x2d#8
  let pos2 := b.head? != some 0x2d#8
  if pos1 == pos2 then (if pos1 then cmpPos a b else cmpNeg a b)
  else if pos1 then 1 else -1

/-- `intstr_is_between` (centijson_sax.c:1054-1061). -/
def between (v lo hi : List Byte) : Bool := decide (cmp lo v ≤ 0) && decide (cmp v hi ≤ 0)

/-- The four results of `json_analyze_number`. -/
structure Kinds where
  i32 : Bool := false
  u32 : Bool := false
  i64 : Bool := false
  u64 : Bool := false
  deriving DecidableEq, Repr

/-- `json_analyze_number` (centijson_sax.c:1063-1126). -/
def analyze (num : List Byte) : Kinds :=
  if num.length ≤ (lit "18446744073709551615").length then
    let num := if num.length = 2 ∧ num[0]? = some 0x2d#8 ∧ num[1]? = some 0x30#8 then num.tail else num
    if 0x2e#8 ∉ num ∧ 0x65#8 ∉ num ∧ 0x45#8 ∉ num then
      { i32 := between num (lit "-2147483648") (lit "2147483647")
        u32 := between num (lit "0") (lit "4294967295")
        i64 := between num (lit "-9223372036854775808") (lit "9223372036854775807")
        u64 := between num (lit "0") (lit "18446744073709551615") }
    else {}
  else {}

/-- The loop of `json_number_to_uint64` (centijson_sax.c:1166-1169). -/
def u64Loop (val : BitVec 64) : List Byte → BitVec 64
  | [] => val
  | c :: rest =>
    if 0x30 ≤ c.toNat ∧ c.toNat ≤ 0x39 then u64Loop (val * 10#64 + BitVec.ofNat 64 (c.toNat - 0x30)) rest else val

/-- `json_number_to_uint64` (centijson_sax.c:1160-1172). -/
def toU64 (num : List Byte) : BitVec 64 := u64Loop 0#64 num

/-- `json_number_to_int64` (centijson_sax.c:1139-1158); `none` when the negation overflows, which is undefined
behaviour. -/
def toI64 (num : List Byte) : Option Int :=
  let neg := num.head? == some 0x2d#8
  let val := toU64 (if neg then num.tail else num)
  if neg then
    if (val - 1#64).toInt = -9223372036854775808 then none
    else some (-(val - 1#64).toInt - 1)
  else some val.toInt

/-- `json_number_to_int32` (centijson_sax.c:1127-1131): conversion to a 32-bit type keeps the low bits. -/
def toI32 (num : List Byte) : Option Int := (toI64 num).map fun v => (BitVec.ofInt 32 v).toInt

/-- `json_number_to_uint32` (centijson_sax.c:1133-1137). -/
def toU32 (num : List Byte) : BitVec 32 := (toU64 num).setWidth 32

/-- The loop of `json_dump_int64` (centijson_sax.c:1269-1272), writing backwards into a buffer with `room` free
bytes; `none` is an overflow of the buffer. -/
def dumpLoop : (room : Nat) → Int → List Byte → Option (Nat × List Byte)
  | 0, i, acc => if i = 0 then some (0, acc) else none
  | room + 1, i, acc =>
    if i = 0 then some (room + 1, acc)
    else dumpLoop room (i.tdiv 10) (BitVec.ofNat 8 (0x30 + (i.tmod 10).natAbs) :: acc)

/-- `json_dump_int64` (centijson_sax.c:1260-1281): the text given to the write function. -/
def dumpI64 (i : Int) : Option (List Byte) :=
  if i ≠ 0 then
    match dumpLoop 32 i [] with
    | none => none
    | some (room, t) => if i < 0 then (if room = 0 then none else some (0x2d#8 :: t)) else some t
  else some [0x30#8]

/-- The loop of `json_dump_uint64` (centijson_sax.c:1290-1293). -/
def dumpULoop : (room : Nat) → Nat → List Byte → Option (List Byte)
  | 0, u, acc => if u = 0 then some acc else none
  | room + 1, u, acc =>
    if u = 0 then some acc else dumpULoop room (u / 10) (BitVec.ofNat 8 (0x30 + u % 10) :: acc)

/-- `json_dump_uint64` (centijson_sax.c:1283-1299). -/
def dumpU64 (u : Nat) : Option (List Byte) := if u ≠ 0 then dumpULoop 32 u [] else some [0x30#8]

/-- `json_control_to_hex` (centijson_sax.c:1411-1422). -/
def controlToHex (c : Byte) : List Byte :=
  lit "\\u00" ++ [(lit "0123456789ABCDEF").getD (c.toNat / 16 % 16) 0#8, (lit "0123456789ABCDEF").getD (c.toNat % 16) 0#8]

/-- `IS_CONTROL(ch) || ch == '\"' || ch == '\\'` (centijson_sax.c:1437). -/
def needsEscape (c : Byte) : Bool := decide (c.toNat ≤ 31) || c == 0x22#8 || c == 0x5c#8

/-- The `switch` of `json_dump_string` (centijson_sax.c:1442-1457). -/
def escape (c : Byte) : List Byte :=
  if c = 0x22#8 then lit "\\\""
  else if c = 0x5c#8 then lit "\\\\"
  else if c = 0x08#8 then lit "\\b"
  else if c = 0x0c#8 then lit "\\f"
  else if c = 0x0a#8 then lit "\\n"
  else if c = 0x0d#8 then lit "\\r"
  else if c = 0x09#8 then lit "\\t"
  else controlToHex c

/-- A write function (`JSON_DUMP_CALLBACK`, wolfsentry/centijson_sax.h): new user data and return code. -/
abbrev Write (σ : Type) := σ → List Byte → σ × Int

/-- The loop of `json_dump_string` (centijson_sax.c:1434-1477). -/
def dumpStrLoop {σ : Type} (w : Write σ) (u : σ) (s : List Byte) : σ × Int :=
  match s with
  | [] => w u [0x22#8]
  | c :: rest =>
    if needsEscape c then
      let (u, r) := w u (escape c)
      if r < 0 then (u, r) else dumpStrLoop w u rest
    else
      let run := c :: rest.takeWhile (fun c => !needsEscape c)
      let (u, r) := w u run
      if r < 0 then (u, r) else dumpStrLoop w u (rest.dropWhile (fun c => !needsEscape c))
  termination_by s.length
  decreasing_by
    · simp
    · have := (List.dropWhile_sublist (l := rest) (fun c => !needsEscape c)).length_le
      simp only [List.length_cons]; omega

/-- `json_dump_string` (centijson_sax.c:1424-1484). -/
def dumpString {σ : Type} (w : Write σ) (u : σ) (s : List Byte) : σ × Int :=
  let (u, r) := w u [0x22#8]
  if r < 0 then (u, r)
  else
    let (u, r) := dumpStrLoop w u s
    if r < 0 then (u, r) else (u, 0)

end WS.JNum
