import Verif.Model.JsonDom
/-
The stored form of JSON strings and numbers, and paths (src/json/centijson_value.c:164-530, 664-856).

A `JSON_VALUE` is sixteen bytes; data that do not fit after the first byte are in memory from the allocator, to which bytes 8 to 15
point.  `size_t` has 64 bits and integers are stored in little-endian order.  A result `none` is undefined behaviour.

Not modelled: the types `JSON_VALUE_FLOAT` and `JSON_VALUE_DOUBLE`, and null pointers as arguments.
-/
namespace WS.JVal
open WS

/-- `JSON_VALUE` (wolfsentry/centijson_value.h:69-78), with the memory its pointer refers to. -/
structure Cell where
  bytes : List Byte
  heap : Option (List Byte)

/-- `JSON_VALUE_NULL` (wolfsentry/centijson_value.h:82-94). -/
def tNull : Byte := 0
/-- `JSON_VALUE_BOOL` (wolfsentry/centijson_value.h:82-94). -/
def tBool : Byte := 1
/-- `JSON_VALUE_INT32` (wolfsentry/centijson_value.h:82-94). -/
def tInt32 : Byte := 2
/-- `JSON_VALUE_UINT32` (wolfsentry/centijson_value.h:82-94). -/
def tUInt32 : Byte := 3
/-- `JSON_VALUE_INT64` (wolfsentry/centijson_value.h:82-94). -/
def tInt64 : Byte := 4
/-- `JSON_VALUE_UINT64` (wolfsentry/centijson_value.h:82-94). -/
def tUInt64 : Byte := 5
/-- `JSON_VALUE_STRING` (wolfsentry/centijson_value.h:82-94). -/
def tString : Byte := 8

/-- `data.data_bytes[0]` (wolfsentry/centijson_value.h:75). -/
def Cell.head (c : Cell) : Byte := c.bytes.headD 0

/-- `json_value_type` (centijson_value.c:246-252). -/
def typeOf (c : Cell) : Byte := c.head &&& 0x0f#8

/-- `json_value_init_ex` with alignment 1 (centijson_value.c:169-197), `json_value_init` (199-211), and the bytes that its callers then write
to the `size` bytes at the pointer returned; `mem` is whether the allocator has memory.  The second component is the return value. -/
def store (mem : Bool) (c : Cell) (type : Byte) (size : Nat) (data : List Byte) : Option (Cell × Int) :=
  if data.length > size then none
  else if (size + 1) % 2 ^ 64 ≤ 16 then some (⟨type :: (data ++ (c.bytes.drop 1).drop data.length), none⟩, 0)
  else if mem then some (⟨(type ||| 0x80#8) :: c.bytes.drop 1, some data⟩, 0)
  else some (⟨tNull :: c.bytes.drop 1, none⟩, -1)

/-- `json_value_payload` (centijson_value.c:227-243): the bytes at the pointer. -/
def payload (c : Cell) : Option (List Byte) := if c.head &&& 0x80#8 = 0#8 then some (c.bytes.drop 1) else c.heap

/-! ### Strings -/

/-- The first loop of `json_value_init_string_` (centijson_value.c:503-508): the number of bytes for the length. -/
def lenSize (n : Nat) : Nat := if 128 ≤ n then 1 + lenSize (n >>> 7) else 1
termination_by n
decreasing_by simp only [Nat.shiftRight_eq_div_pow]; omega

/-- The second loop (centijson_value.c:518-524). -/
def encodeLen (n : Nat) : List Byte :=
  if 128 ≤ n then (0x80#8 ||| BitVec.ofNat 8 (n &&& 0x7f)) :: encodeLen (n >>> 7) else [BitVec.ofNat 8 (n &&& 0x7f)]
termination_by n
decreasing_by simp only [Nat.shiftRight_eq_div_pow]; omega

/-- `json_value_init_string_` (centijson_value.c:488-530). -/
def initString (mem : Bool) (c : Cell) (str : List Byte) : Option (Cell × Int) :=
  store mem c tString ((lenSize str.length + str.length + 1) % 2 ^ 64) (encodeLen str.length ++ str ++ [0#8])

/-- The loop of `json_value_string` (centijson_value.c:829-831): the bytes after the length. -/
def afterLen : List Byte → Option (List Byte)
  | [] => none
  | b :: p => if b &&& 0x80#8 ≠ 0#8 then afterLen p else some p

/-- `json_value_string` (centijson_value.c:819-834): the memory from the pointer returned on; the inner `none` is a null pointer. -/
def string (c : Cell) : Option (Option (List Byte)) :=
  if typeOf c ≠ tString then some none
  else match payload c with
    | none => none
    | some p => (afterLen p).map some

/-- The loop of `json_value_string_length` (centijson_value.c:848-853). -/
def readLen (len shift : Nat) : List Byte → Option Nat
  | [] => none
  | b :: p =>
    if 64 ≤ shift then none
    else if b &&& 0x80#8 ≠ 0#8 then readLen (len ||| ((b &&& 0x7f#8).toNat <<< shift) % 2 ^ 64) (shift + 7) p
    else some (len ||| (b.toNat <<< shift) % 2 ^ 64)

/-- `json_value_string_length` (centijson_value.c:836-856). -/
def stringLength (c : Cell) : Option Nat :=
  if typeOf c ≠ tString then some 0
  else match payload c with
    | none => none
    | some p => readLen 0 0 p

/-- `MAKE_RED` and `MAKE_BLACK` on a key (centijson_value.c:1056-1057), which share the first byte of the key with its type. -/
def setColor (red : Bool) (c : Cell) : Cell :=
  { c with bytes := (if red then c.head ||| 0x10#8 else c.head &&& ~~~0x10#8) :: c.bytes.drop 1 }

/-! ### Booleans and integers -/

/-- `json_value_init_bool` (centijson_value.c:374-384). -/
def initBool (c : Cell) (b : Bool) : Cell := ⟨tBool :: (if b then 1#8 else 0#8) :: c.bytes.drop 2, none⟩

/-- `json_value_bool` (centijson_value.c:669-676). -/
def bool (c : Cell) : Int := if typeOf c ≠ tBool then -1 else ((c.bytes.drop 1).headD 0).toNat

/-- The `n` bytes of an integer in memory (the source of `memcpy`, centijson_value.c:222). -/
def le : Nat → Nat → List Byte
  | 0, _ => []
  | n + 1, x => BitVec.ofNat 8 x :: le n (x / 256)

/-- `memcpy` into an integer (centijson_value.c:692-695). -/
def ofLe : List Byte → Nat
  | [] => 0
  | b :: bs => b.toNat + 256 * ofLe bs

/-- An integer of `bits` bits as a signed number (the members of the union, centijson_value.c:682-689). -/
def signed (bits x : Nat) : Int := Int.bmod x (2 ^ bits)

/-- `json_value_init_simple` (centijson_value.c:213-225) for an integer of `n` bytes: it is stored modulo its size. -/
def initInt (mem : Bool) (c : Cell) (type : Byte) (n : Nat) (i : Int) : Option (Cell × Int) :=
  store mem c type n (le n (i % 2 ^ (8 * n)).toNat)

/-- `json_value_init_int32` (centijson_value.c:386-400). -/
def initInt32 (mem : Bool) (c : Cell) (i : Int) := initInt mem c tInt32 4 i
/-- `json_value_init_uint32` (centijson_value.c:402-416). -/
def initUInt32 (mem : Bool) (c : Cell) (i : Int) := initInt mem c tUInt32 4 i
/-- `json_value_init_int64` (centijson_value.c:418-432). -/
def initInt64 (mem : Bool) (c : Cell) (i : Int) := initInt mem c tInt64 8 i
/-- `json_value_init_uint64` (centijson_value.c:434-448). -/
def initUInt64 (mem : Bool) (c : Cell) (i : Int) := initInt mem c tUInt64 8 i

/-- The union filled by `memcpy` in the getters (centijson_value.c:678-775), for the integer types: `none` for the other ones. -/
def number (c : Cell) : Option (Option Int) :=
  let t := typeOf c
  if t = tInt32 ∨ t = tUInt32 then match payload c with
    | some p => if 4 ≤ p.length then some (some (if t = tInt32 then signed 32 (ofLe (p.take 4)) else ofLe (p.take 4))) else none
    | none => none
  else if t = tInt64 ∨ t = tUInt64 then match payload c with
    | some p => if 8 ≤ p.length then some (some (if t = tInt64 then signed 64 (ofLe (p.take 8)) else ofLe (p.take 8))) else none
    | none => none
  else some none

/-- `json_value_int32` (centijson_value.c:678-700). -/
def int32 (c : Cell) : Option Int := (number c).map fun x => match x with | some i => Int.bmod i (2 ^ 32) | none => -1

/-- `json_value_uint32` (centijson_value.c:702-724). -/
def uint32 (c : Cell) : Option Int := (number c).map fun x => match x with | some i => i % 2 ^ 32 | none => 2 ^ 32 - 1

/-- `json_value_int64` (centijson_value.c:726-748). -/
def int64 (c : Cell) : Option Int := (number c).map fun x => match x with | some i => Int.bmod i (2 ^ 64) | none => -1

/-- `json_value_uint64` (centijson_value.c:750-772). -/
def uint64 (c : Cell) : Option Int := (number c).map fun x => match x with | some i => i % 2 ^ 64 | none => 2 ^ 64 - 1

/-- A getter's value, compared (the conditions in centijson_value.c:263-283). -/
def test (v : Option Int) (p : Int → Bool) : Option Bool := v.map p

/-- `json_value_is_compatible` (centijson_value.c:254-302) for a value and a type among the integer types, null, boolean and string.  Each case
reads the value with the getter of the stored type. -/
def compatible (c : Cell) (type : Byte) : Option Bool :=
  if typeOf c = type then some true
  else if typeOf c = tInt32 then
    if type = tInt64 then some true
    else if type = tUInt32 then test (int32 c) (0 ≤ ·)
    else if type = tUInt64 then test (int32 c) (0 ≤ ·)
    else some false
  else if typeOf c = tUInt32 then
    if type = tInt64 ∨ type = tUInt64 then some true
    else if type = tInt32 then test (uint32 c) (· ≤ 2 ^ 31 - 1)
    else some false
  else if typeOf c = tInt64 then
    if type = tInt32 then test (int64 c) fun i => -2 ^ 31 ≤ i ∧ i ≤ 2 ^ 31 - 1
    else if type = tUInt32 then test (int64 c) fun i => 0 ≤ i ∧ i ≤ 2 ^ 32 - 1
    else if type = tUInt64 then test (int64 c) (0 ≤ ·)
    else some false
  else if typeOf c = tUInt64 then
    if type = tInt32 then test (uint64 c) (· ≤ 2 ^ 31 - 1)
    else if type = tUInt32 then test (uint64 c) (· ≤ 2 ^ 32 - 1)
    else if type = tInt64 then test (uint64 c) (· ≤ 2 ^ 63 - 1)
    else some false
  else some false

/-! ### Paths -/

open WS.Dom

/-- `json_value_array_get` (centijson_value.c:895-904) on a value. -/
def arrayGet (v : V) (i : Nat) : Option V := match v with | .array xs => xs[i]? | _ => none

/-- `json_value_dict_get_` (centijson_value.c:1196-1216) on a value: the entry with the key (C50). -/
def dictGet (v : V) (key : List Byte) : Option V := match v with | .dict _ es => (es.find? fun e => e.1 = key).map (·.2) | _ => none

/-- The loop over the digits of an index (centijson_value.c:334-337): the index, and the rest of the token. -/
def pathIndex (i : Nat) : List Byte → Nat × List Byte
  | [] => (i, [])
  | b :: p => if 0x30#8 ≤ b ∧ b ≤ 0x39#8 then pathIndex ((i * 10 + (b.toNat - 0x30)) % 2 ^ 64) p else (i, b :: p)

/-- One token of a path (centijson_value.c:330-345). -/
def pathToken (v : V) (token : List Byte) : Option V :=
  if 2 < token.length ∧ token.head? = some 0x5b#8 ∧ token.getLast? = some 0x5d#8 then
    let r := pathIndex 0 (token.drop 1)
    if r.2.head? ≠ some 0x5d#8 then none else arrayGet v r.1
  else if 0 < token.length then dictGet v token
  else some v

/-- The loop of `json_value_path` (centijson_value.c:325-355), on a path without its terminating zero; `token` is the part of the current token
that has been scanned. -/
def pathFrom (v : V) (token : List Byte) : List Byte → Option V
  | [] => pathToken v token
  | b :: p => if b = 0x2f#8 then
      match pathToken v token with
      | none => none
      | some v => pathFrom v [] p
    else pathFrom v (token ++ [b]) p

/-- `json_value_path` (centijson_value.c:318-356). -/
def path (root : V) (p : List Byte) : Option V := pathFrom root [] p

end WS.JVal
