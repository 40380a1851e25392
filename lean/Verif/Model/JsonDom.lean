import Verif.Model.JsonNum
import Verif.Model.JsonSax
import Verif.Spec.RbDict
/-
JSON values in memory: built from parsing events and written as text (src/json/centijson_dom.c).

A value owns the values inside it, so it is a tree here.  A dictionary is its list of entries in order of insertion, and the calls on it
are those of the abstract dictionary of Spec/RbDict, which C50 shows the red-black tree to implement.  Strings are their bytes (C61 has the
stored form).  The path of pointers to the containers under construction is a zipper: the innermost container is the head of `path`, and
every other one has a slot that the next inner one is to fill.

Not modelled: memory exhaustion, the release of replaced values, and the conversion of floating-point numbers, which is a parameter in
both directions (`strtod`, `snprintf`).
-/
namespace WS.Dom
open WS WS.Sax

/-- `JSON_VALUE` (wolfsentry/centijson_value.h): what it stands for.  A double is its bit pattern; `ordered` is
`JSON_VALUE_DICT_MAINTAINORDER`. -/
inductive V where
  | null
  | bool (b : Bool)
  | int32 (i : Int)
  | uint32 (n : Nat)
  | int64 (i : Int)
  | uint64 (n : Nat)
  | double (d : BitVec 64)
  | string (s : List Byte)
  | array (xs : List V)
  | dict (ordered : Bool) (es : List (List Byte × V))

/-- A container under construction.  `slot` is the key under which the next inner container is to be stored; an array stores it at its end. -/
inductive Frame where
  | arr (xs : List V)
  | dict (ordered : Bool) (es : List (List Byte × V)) (slot : List Byte)

/-- The fields of `JSON_DOM_PARSER` (wolfsentry/centijson_dom.h:79-88) that are not the parser's.  `key` is `none` when the stored key is null;
`wrapped` means that `path_size` was decremented at zero. -/
structure State where
  root : V := .null
  path : List Frame := []
  key : Option (List Byte) := none
  wrapped : Bool := false

/-- Outcome of one call: `ub` is undefined behaviour. -/
inductive Out where
  | ok (st : State)
  | err (code : Int)
  | ub

/-- `JSON_DOM_DUPKEY_*` (wolfsentry/centijson_dom.h:66-73). -/
inductive DupKey where
  | abort | useFirst | useLast
  deriving DecidableEq, Repr

/-- `flags & JSON_DOM_DUPKEY_MASK` in the `switch` (centijson_dom.c:203-218). -/
def dupKey (flags : BitVec 32) : DupKey :=
  if flags &&& 3#32 = 1#32 then .useFirst else if flags &&& 3#32 = 2#32 then .useLast else .abort

/-- `dict_flags` (centijson_dom.c:300). -/
def maintainOrder (flags : BitVec 32) : Bool := flags &&& 0x10#32 != 0#32

/-- The number of an entry that `init_number` creates, or that the conversion is undefined. -/
inductive NumOut where
  | ok (v : V)
  | err
  | ub

/-- `init_number` (centijson_dom.c:87-141); `strtod` is `json_number_to_double`. -/
def initNumber (strtod : List Byte → Option (BitVec 64)) (t : List Byte) : NumOut :=
  let k := JNum.analyze t
  if k.i32 then (match JNum.toI32 t with | some i => .ok (.int32 i) | none => .ub)
  else if k.u32 then .ok (.uint32 (JNum.toU32 t).toNat)
  else if k.i64 then (match JNum.toI64 t with | some i => .ok (.int64 i) | none => .ub)
  else if k.u64 then .ok (.uint64 (JNum.toU64 t).toNat)
  else match strtod t with
    | some d => .ok (.double d)
    | none => .err

/-- `json_number_to_double` (centijson_sax.c:1175-1246), with `conv` for `strtod`: a number that does not fit the buffer is refused. -/
def toDouble (conv : List Byte → BitVec 64) (t : List Byte) : Option (BitVec 64) := if t.length + 1 < 64 then some (conv t) else none

/-- `json_dump_double` (centijson_sax.c:1302-1408), with `print` for `snprintf` with the format `"%.16lg"`: a text without a point and an exponent
gets `.0`; the first comma, if there is one, becomes the point. -/
def dumpDouble (print : BitVec 64 → List Byte) (d : BitVec 64) : Option (List Byte) :=
  let b := print d
  if b.length < 62 then
    some (if 0x2c#8 ∈ b then b.takeWhile (· != 0x2c#8) ++ 0x2e#8 :: (b.dropWhile (· != 0x2c#8)).tail
      else if 0x2e#8 ∈ b then b
      else if 0x65#8 ∈ b then b
      else b ++ [0x2e#8, 0x30#8])
  else none

/-- The finished container. -/
def Frame.close : Frame → V
  | .arr xs => .array xs
  | .dict o es _ => .dict o es

/-- Initialising the value that `new_json_value` points to. -/
def Frame.put (v : V) : Frame → Frame
  | .arr xs => .arr (xs ++ [v])
  | .dict o es k => .dict o (Rb.absStep Rb.defaultCmp .null es (.set k v)) k

/-- Where a new value goes. -/
def State.store (st : State) (v : V) : State :=
  match st.path with
  | [] => { st with root := v }
  | f :: rest => { st with path := f.put v :: rest }

/-- The part of `json_dom_process` that finds the place of a new value (centijson_dom.c:168-223). -/
inductive Place where
  | at (st : State)
  | skip (st : State)
  | dup
  | ub

/-- Finding the place of a new value, with the treatment of repeated keys (centijson_dom.c:168-223). -/
def locate (policy : DupKey) (st : State) : Place :=
  if st.wrapped then .ub
  else
    match st.path with
    | [] => .at st
    | .arr _ :: _ => .at st
    | .dict o es _ :: rest =>
      let k := st.key.getD []
      let st := { st with key := none, path := .dict o (Rb.absStep Rb.defaultCmp .null es (.add k true)) k :: rest }
      if Rb.has Rb.defaultCmp k es then
        match policy with
        | .useFirst => .skip st
        | .useLast => .at st
        | .abort => .dup
      else .at st

/-- The new value (centijson_dom.c:225-262) and, for containers, the push on the path (264-282). -/
def create (strtod : List Byte → Option (BitVec 64)) (ordered : Bool) (st : State) (type : JType) (data : List Byte) : Out :=
  match type with
  | .null => .ok (st.store .null)
  | .false => .ok (st.store (.bool false))
  | .true => .ok (st.store (.bool true))
  | .number =>
    match initNumber strtod data with
    | .ok v => .ok (st.store v)
    | .err => .err (-2)
    | .ub => .ub
  | .string => .ok (st.store (.string data))
  | .arrayBeg => .ok { st with path := .arr [] :: st.path }
  | .objectBeg => .ok { st with path := .dict ordered [] [] :: st.path }
  | _ => .err (-1)

/-- The end of a container (centijson_dom.c:151-155): `path_size--`. -/
def pop (st : State) : State :=
  if st.wrapped then st
  else
    match st.path with
    | [] => { st with wrapped := true }
    | f :: rest => { st with path := rest }.store f.close

/-- `json_dom_process` (centijson_dom.c:144-285). -/
def process (strtod : List Byte → Option (BitVec 64)) (policy : DupKey) (ordered : Bool) (st : State) (e : Event) : Out :=
  if e.type = .arrayEnd ∨ e.type = .objectEnd then .ok (pop st)
  else if e.type = .key then .ok { st with key := some e.data }
  else
    match locate policy st with
    | .at st => create strtod ordered st e.type e.data
    | .skip st => .ok st
    | .dup => .err (-1000)
    | .ub => .ub

/-- A sequence of events, up to the first failure. -/
def run (strtod : List Byte → Option (BitVec 64)) (policy : DupKey) (ordered : Bool) : State → List Event → Out
  | st, [] => .ok st
  | st, e :: es =>
    match process strtod policy ordered st e with
    | .ok st => run strtod policy ordered st es
    | r => r

/-- `json_dom_process` as a callback; a duplicate key sets the error position to that of the value (centijson_dom.c:216). -/
def callback (strtod : List Byte → Option (BitVec 64)) (policy : DupKey) (ordered : Bool) : Callback Out := fun u e vp _ =>
  match u with
  | .ok st =>
    match process strtod policy ordered st e with
    | .ok st => (.ok st, 0, none)
    | .err c => (.err c, c, if c = -1000 then some vp else none)
    | .ub => (.ub, -1, none)
  | u => (u, -1, none)

/-- The value under construction, inner containers included. -/
def State.value (st : State) : V :=
  match st.path with
  | [] => st.root
  | f :: rest => rest.foldl (fun v g => (g.put v).close) f.close

/-- `json_dom_init`, `json_dom_feed`, `json_dom_fini` (centijson_dom.c:287-405, and `json_dom_parse` 406-430 for one chunk): return code and
value, which is null after a failure. -/
def parse (strtod : List Byte → Option (BitVec 64)) (flags : BitVec 32) (cfg : Config) (chunks : List (List Byte)) : Int × V :=
  let r := Sax.parse cfg (callback strtod (dupKey flags) (maintainOrder flags)) (.ok {}) chunks
  if 0 ≤ r.ret then (r.ret, (match r.user with | .ok st => st.value | _ => .null)) else (r.ret, .null)

/-! ### Writing -/

/-- `JSON_DOM_DUMP_PARAMS` without the write function (centijson_dom.c:432-437; flags: wolfsentry/centijson_dom.h:161-164). -/
structure Params where
  minimize : Bool := false
  crlf : Bool := false
  spaces : Bool := false
  preferOrder : Bool := false
  tabWidth : Nat := 0
  deriving DecidableEq, Repr

/-- The blanks of `json_dom_dump_indent` (centijson_dom.c:439-472), run by run.  Simplification: `i` does not wrap (an
indentation of nearly 2^32 blanks). -/
def indentRuns (c : Byte) (run n : Nat) : Nat → List (List Byte)
  | 0 => []
  | fuel + 1 => if n = 0 then [] else List.replicate (min run n) c :: indentRuns c run (n - run) fuel

/-- A write function and its user data, threaded; a negative code stops. -/
abbrev Wr (σ : Type) := σ → σ × Int

/-- The `if(ret < 0) return ret;` after every write (centijson_dom.c:496-679). -/
def seq {σ : Type} (a b : Wr σ) : Wr σ := fun u => if (a u).2 < 0 then a u else b (a u).1

/-- Nothing written (centijson_dom.c:452, 479). -/
def nop {σ : Type} : Wr σ := fun u => (u, 0)

/-- `json_dom_dump_indent` (centijson_dom.c:439-472). -/
def dumpIndent {σ : Type} (w : JNum.Write σ) (p : Params) (level : Nat) : Wr σ :=
  if p.minimize ∨ level = 0 then nop
  else
    let n := if p.spaces then level * p.tabWidth % 4294967296 else level
    (indentRuns (if p.spaces then 0x20#8 else 0x09#8) (if p.spaces then 32 else 8) n n).foldr (fun b k => seq (fun u => w u b) k) nop

/-- `json_dom_dump_newline` (centijson_dom.c:474-484). -/
def dumpNewline {σ : Type} (w : JNum.Write σ) (p : Params) : Wr σ :=
  if p.minimize then nop
  else if p.crlf then fun u => w u [0x0d#8, 0x0a#8]
  else fun u => w u [0x0a#8]

/-- `json_value_dict_keys_sorted`: the entries in ascending order of keys (C50_sorted_walk). -/
def insertSorted {β : Type} (e : List Byte × β) : List (List Byte × β) → List (List Byte × β)
  | [] => [e]
  | x :: xs => if Rb.defaultCmp e.1 x.1 = .lt then e :: x :: xs else x :: insertSorted e xs

/-- `json_value_dict_keys_sorted` (centijson_value.c:1146-1174) on all entries. -/
def sortEntries {β : Type} (es : List (List Byte × β)) : List (List Byte × β) := es.foldr insertSorted []

/-- The text of a C integer, which `json_dump_int64` and `json_dump_uint64` hand to the write function in one piece. -/
def dumpText {σ : Type} (w : JNum.Write σ) : Option (List Byte) → Wr σ
  | some t => fun u => w u t
  | none => fun u => (u, -1)

/-- The elements of an array (centijson_dom.c:563-583). -/
def dumpElements {σ : Type} (w : JNum.Write σ) (p : Params) : List (Wr σ) → Wr σ
  | [] => nop
  | [x] => seq x (dumpNewline w p)
  | x :: xs => seq x (seq (fun u => w u [0x2c#8]) (seq (dumpNewline w p) (dumpElements w p xs)))

/-- A key, the colon, and the value (centijson_dom.c:623-664). -/
def dumpMember {σ : Type} (w : JNum.Write σ) (p : Params) (level : Nat) (e : List Byte × Wr σ) : Wr σ :=
  seq (seq (dumpIndent w p level) (fun u => JNum.dumpString w u e.1))
    (seq (fun u => w u (if p.minimize then [0x3a#8] else [0x3a#8, 0x20#8])) e.2)

mutual
/-- `json_dom_dump_helper` (centijson_dom.c:487-679); `first` is whether the value is to be indented (`nest_level >= 0`).  The value of a key
is looked up by it (`json_value_dict_get_`): the entry itself, as keys differ. -/
def dump {σ : Type} (fmt : BitVec 64 → Option (List Byte)) (w : JNum.Write σ) (p : Params) (first : Bool) (level : Nat) : V → Wr σ
  | .null => seq (if first then dumpIndent w p level else nop) fun u => w u (JNum.lit "null")
  | .bool b => seq (if first then dumpIndent w p level else nop) fun u => w u (if b then JNum.lit "true" else JNum.lit "false")
  | .int32 i => seq (if first then dumpIndent w p level else nop) (dumpText w (JNum.dumpI64 i))
  | .uint32 n => seq (if first then dumpIndent w p level else nop) (dumpText w (JNum.dumpU64 n))
  | .int64 i => seq (if first then dumpIndent w p level else nop) (dumpText w (JNum.dumpI64 i))
  | .uint64 n => seq (if first then dumpIndent w p level else nop) (dumpText w (JNum.dumpU64 n))
  | .double d => seq (if first then dumpIndent w p level else nop) (dumpText w (fmt d))
  | .string s => seq (if first then dumpIndent w p level else nop) fun u => JNum.dumpString w u s
  | .array xs =>
    seq (if first then dumpIndent w p level else nop)
      (seq (fun u => w u [0x5b#8]) (seq (dumpNewline w p)
        (seq (dumpElements w p (dumpAll fmt w p (level + 1) xs)) (seq (dumpIndent w p level) fun u => w u [0x5d#8]))))
  | .dict o es =>
    seq (if first then dumpIndent w p level else nop)
      (seq (fun u => w u [0x7b#8]) (seq (dumpNewline w p)
        (seq (dumpElements w p (((if p.preferOrder ∧ o then dumpValues fmt w p (level + 1) es
            else sortEntries (dumpValues fmt w p (level + 1) es))).map (dumpMember w p (level + 1))))
          (seq (dumpIndent w p level) fun u => w u [0x7d#8]))))
/-- The calls for the elements of an array (centijson_dom.c:565-570). -/
def dumpAll {σ : Type} (fmt : BitVec 64 → Option (List Byte)) (w : JNum.Write σ) (p : Params) (level : Nat) : List V → List (Wr σ)
  | [] => []
  | v :: vs => dump fmt w p true level v :: dumpAll fmt w p level vs
/-- The calls for the values of a dictionary (centijson_dom.c:650-656). -/
def dumpValues {σ : Type} (fmt : BitVec 64 → Option (List Byte)) (w : JNum.Write σ) (p : Params) (level : Nat) :
    List (List Byte × V) → List (List Byte × Wr σ)
  | [] => []
  | (k, v) :: es => (k, dump fmt w p false level v) :: dumpValues fmt w p level es
end

/-- `json_dom_dump` (centijson_dom.c:682-711). -/
def dumpRoot {σ : Type} (fmt : BitVec 64 → Option (List Byte)) (w : JNum.Write σ) (p : Params) (v : V) : Wr σ :=
  seq (dump fmt w p true 0 v) (dumpNewline w p)

end WS.Dom
