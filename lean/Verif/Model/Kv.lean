import Verif.Model.Events
import Verif.Model.Base64
/-
The user-value ("KV") store (src/kv.c).

Objects are table entries of `Model/Table.lean` keyed by the key string; table 0 holds the user
values of a context, tables 1, 2, ... stand for its other tables, which share the ID space.  The
value and the read-only bit (`v_type` and the payload of `struct wolfsentry_kv_pair`,
wolfsentry/wolfsentry.h:3033-3061) are kept per object ID.  Allocation failures, reference counts of
value records and `kv_render_value` are not modelled; the lock is the subject of `Model/LockBal.lean`.
A JSON value is an opaque token.
-/
namespace WS

/-- `wolfsentry_kv_type_t` without the flag bit (wolfsentry/wolfsentry.h:3017-3029). -/
inductive KvType where
  | none | null | true | false | uint | sint | float | string | bytes | json
  deriving DecidableEq, Repr

/-- A typed value.  Integers and doubles are their 64-bit patterns (they share a C union). -/
inductive KvVal where
  | null | true | false
  | uint (b : BitVec 64)
  | sint (b : BitVec 64)
  | float (b : BitVec 64)
  | string (s : List Byte)
  | bytes (s : List Byte)
  | json (token : Nat)
  deriving DecidableEq, Repr

/-- `WOLFSENTRY_KV_TYPE` (wolfsentry/wolfsentry.h:3067). -/
def KvVal.type : KvVal → KvType
  | .null => .null
  | .true => .true
  | .false => .false
  | .uint _ => .uint
  | .sint _ => .sint
  | .float _ => .float
  | .string _ => .string
  | .bytes _ => .bytes
  | .json _ => .json

/-- A stored pair: the value and `WOLFSENTRY_KV_FLAG_READONLY`. -/
structure KvObj where
  val : KvVal
  ro : Bool := Bool.false
  deriving DecidableEq, Repr

/-- IEEE 754 binary64 "is a NaN": exponent all ones, fraction non-zero. -/
def f64IsNaN (b : BitVec 64) : Bool := (b <<< 1).toNat > 0xFFE0000000000000

/-- C `==` on doubles. -/
def f64Eq (a b : BitVec 64) : Bool :=
  !f64IsNaN a && !f64IsNaN b && (a == b || (a <<< 1 == 0#64 && b <<< 1 == 0#64))

/-- `wolfsentry_kv_value_eq_1` (src/kv.c:184-219). -/
def kvValueEq : KvVal → KvVal → Bool
  | .null, .null => Bool.true
  | .true, .true => Bool.true
  | .false, .false => Bool.true
  | .uint a, .uint b => a == b
  | .sint a, .sint b => a == b
  | .float a, .float b => f64Eq a b
  | .string a, .string b => a == b
  | .bytes a, .bytes b => a == b
  | _, _ => Bool.false

/-- A validator (`wolfsentry_kv_validator_t`, wolfsentry/wolfsentry.h:3087-3095): a function of the
key and the pair it is shown.  (A C validator might also depend on other state; that is not
modelled.) -/
abbrev KvValidator := List Byte → KvObj → Except Err Unit

/-- The user-value part of a context (`wolfsentry->user_values`, src/wolfsentry_internal.h). -/
structure Kv where
  store : Store (List Byte) := {}
  obj : Nat → KvObj := fun _ => ⟨.null, Bool.false⟩
  validator : Option KvValidator := none

/-- The table of user values. -/
abbrev tblKv : Nat := 0

def Kv.setObj (s : Kv) (id : Nat) (o : KvObj) : Kv :=
  { s with obj := fun i => if i = id then o else s.obj i }

/-- `WOLFSENTRY_KV_MAX_VALUE_BYTES` (wolfsentry/wolfsentry_settings.h). -/
def kvMaxValueBytes : Nat := 16384

/-- `wolfsentry_kv_new` (src/kv.c:57-82): the key to use, or the failure.  A NULL key with a
non-zero length is undefined behaviour in C and mapped to `INVALID_ARG`. -/
def kvKey (a : LabelArg) (dataLen : Int) : Except Err (List Byte) :=
  if a.len == 0 || a.mem.isNone then .error .invalidArg
  else if dataLen < 0 then .error .invalidArg
  else if dataLen > (kvMaxValueBytes : Int) then .error .numericArgTooBig
  else if a.effLen > maxLabelBytes then .error .stringArgTooLong
  else .ok a.text

/-- The value argument of one of the `wolfsentry_user_value_store_*` functions. -/
inductive KvInput where
  | null
  | bool (t : KvType)
  | uint (b : BitVec 64)
  | sint (b : BitVec 64)
  | double (b : BitVec 64)
  | string (v : LabelArg)
  | bytes (mem : List Byte) (len : Int)
  | base64 (v : LabelArg)
  | json (token : Nat)

def byteNats (l : List Byte) : List Nat := l.map BitVec.toNat
def natBytes (l : List Nat) : List Byte := l.map (BitVec.ofNat 8)

/-- The argument checks and the construction of the new pair in
`wolfsentry_user_value_store_null` (src/kv.c:744-765), `_bool` (767-791), `_uint` (811-833), `_sint`
(850-873), `_double` (890-913), `_string` (930-960), `_bytes` (980-1005), `_bytes_base64`
(1007-1044) and `_json` (1081-1105), in the order the code performs them. -/
def kvDecode (a : LabelArg) : KvInput → Except Err (List Byte × KvVal)
  | .null => (kvKey a 0).map (·, .null)
  | .bool .true => (kvKey a 0).map (·, .true)
  | .bool .false => (kvKey a 0).map (·, .false)
  | .bool _ => .error .wrongType
  | .uint b => (kvKey a 0).map (·, .uint b)
  | .sint b => (kvKey a 0).map (·, .sint b)
  | .double b => (kvKey a 0).map (·, .float b)
  | .string v =>
    if v.effLen > kvMaxValueBytes then .error .stringArgTooLong
    else (kvKey a ((v.effLen : Int) + 1)).map (·, .string v.text)
  | .bytes mem len => (kvKey a len).map (·, .bytes (mem.take len.toNat))
  | .base64 v =>
    let src := byteNats v.text
    if Base64.bufspc src > kvMaxValueBytes then .error .stringArgTooLong
    else match kvKey a (Base64.bufspc src : Int) with
      | .error e => .error e
      | .ok k =>
        match Base64.decode src (Base64.bufspc src) Bool.true with
        | .error (e, _) => .error e
        | .ok out => .ok (k, .bytes (natBytes out))
  | .json t => (kvKey a 0).map (·, .json t)

/-- `wolfsentry_kv_insert_1` (src/kv.c:155-165): allocate an ID and insert into the table. -/
def kvInsert1 (s : Kv) (k : List Byte) (o : KvObj) : Except Err Unit × Kv :=
  match storeInsert catCmp s.store tblKv k with
  | (.error e, st) => (.error e, { s with store := st })
  | (.ok ent, st) => (.ok (), ({ s with store := st } : Kv).setObj ent.id o)

/-- The validator call at the start of `wolfsentry_kv_insert` and `wolfsentry_kv_set`
(src/kv.c:174-177, 233-236). -/
def kvValidate (s : Kv) (k : List Byte) (o : KvObj) : Except Err Unit :=
  match s.validator with
  | none => .ok ()
  | some v => v k o

/-- The part of `wolfsentry_kv_set` after the validator call, under the lock (src/kv.c:238-262). -/
def kvSetLocked (s : Kv) (k : List Byte) (o : KvObj) : Except Err Unit × Kv :=
  match tableGet catCmp s.store tblKv k with
  | .error _ => kvInsert1 s k o
  | .ok old =>
    if (s.obj old.id).ro then (.error .notPermitted, s)
    else if kvValueEq o.val (s.obj old.id).val then (.ok (), s)
    else kvInsert1 { s with store := tableDelete1 s.store old } k o

/-- The locked parts of a store with and without `overwrite_p`. -/
def kvCommit (s : Kv) (k : List Byte) (o : KvObj) (overwrite : Bool) : Except Err Unit × Kv :=
  if overwrite then kvSetLocked s k o else kvInsert1 s k o

/-- `wolfsentry_user_value_store_*` (src/kv.c:744-1105): build the pair, then `wolfsentry_kv_set`
(225-263) if `overwrite_p`, else `wolfsentry_kv_insert` (167-182).  A new pair is writable. -/
def kvStore (s : Kv) (a : LabelArg) (inp : KvInput) (overwrite : Bool) : Except Err Unit × Kv :=
  match kvDecode a inp with
  | .error e => (.error e, s)
  | .ok (k, v) =>
    match kvValidate s k ⟨v, Bool.false⟩ with
    | .error e => (.error e, s)
    | .ok () => kvCommit s k ⟨v, Bool.false⟩ overwrite

/-- The type test of `wolfsentry_kv_get_1` (src/kv.c:275-283). -/
def kvTypeOk (req : KvType) (v : KvVal) : Bool :=
  match req, v with
  | .uint, .sint b => decide (0 ≤ b.toInt)
  | .none, _ => Bool.true
  | t, v => t == v.type

/-- `wolfsentry_kv_get_1` (src/kv.c:265-288) and `wolfsentry_kv_get_2` (290-306): find the entry. -/
def kvFind (s : Kv) (a : LabelArg) (req : KvType) : Except Err (Ent (List Byte)) :=
  match kvKey a 0 with
  | .error e => .error e
  | .ok k =>
    match tableGet catCmp s.store tblKv k with
    | .error e => .error e
    | .ok e => if kvTypeOk req (s.obj e.id).val then .ok e else .error .wrongType

/-- The value read by a typed getter that requests type `req`. -/
def kvGet (s : Kv) (a : LabelArg) (req : KvType) : Except Err KvVal :=
  (kvFind s a req).map (fun e => (s.obj e.id).val)

/-- `wolfsentry_user_value_get_uint` (src/kv.c:835-848). -/
def userGetUint (s : Kv) (a : LabelArg) : Except Err KvVal := kvGet s a .uint
/-- `wolfsentry_user_value_get_sint` (src/kv.c:875-888). -/
def userGetSint (s : Kv) (a : LabelArg) : Except Err KvVal := kvGet s a .sint
/-- `wolfsentry_user_value_get_float` (src/kv.c:915-928). -/
def userGetFloat (s : Kv) (a : LabelArg) : Except Err KvVal := kvGet s a .float
/-- `wolfsentry_user_value_get_string` (src/kv.c:962-978). -/
def userGetString (s : Kv) (a : LabelArg) : Except Err KvVal := kvGet s a .string
/-- `wolfsentry_user_value_get_bytes` (src/kv.c:1046-1062). -/
def userGetBytes (s : Kv) (a : LabelArg) : Except Err KvVal := kvGet s a .bytes
/-- `wolfsentry_user_value_get_json` (src/kv.c:1065-1079) passes `WOLFSENTRY_KV_STRING`. -/
def userGetJson (s : Kv) (a : LabelArg) : Except Err KvVal := kvGet s a .string
/-- `wolfsentry_user_value_get_bool` (src/kv.c:793-809). -/
def userGetBool (s : Kv) (a : LabelArg) : Except Err KvVal :=
  match kvGet s a .none with
  | .error e => .error e
  | .ok .true => .ok .true
  | .ok .false => .ok .false
  | .ok _ => .error .wrongType
/-- `wolfsentry_user_value_get_type` (src/kv.c:342-358, 727-734). -/
def userGetType (s : Kv) (a : LabelArg) : Except Err KvType := (kvGet s a .none).map KvVal.type
/-- `wolfsentry_user_value_get_mutability` (src/kv.c:712-725). -/
def userGetMutability (s : Kv) (a : LabelArg) : Except Err Bool :=
  (kvFind s a .none).map (fun e => !(s.obj e.id).ro)

/-- `wolfsentry_user_value_set_mutability` (src/kv.c:699-710) and `wolfsentry_kv_set_mutability`
(120-143). -/
def kvSetMutability (s : Kv) (a : LabelArg) (m : Int) : Except Err Unit × Kv :=
  match kvFind s a .none with
  | .error e => (.error e, s)
  | .ok e =>
    if m = 0 then (.ok (), s.setObj e.id { s.obj e.id with ro := Bool.true })
    else if m = 1 then (.ok (), s.setObj e.id { s.obj e.id with ro := Bool.false })
    else (.error .invalidArg, s)

/-- `wolfsentry_kv_delete` (src/kv.c:523-549). -/
def kvDelete (s : Kv) (a : LabelArg) : Except Err Unit × Kv :=
  match kvFind s a .none with
  | .error e => (.error e, s)
  | .ok e =>
    if (s.obj e.id).ro then (.error .notPermitted, s)
    else (.ok (), { s with store := tableDelete1 s.store e })

/-- `wolfsentry_table_map` with `apply_validator` (src/wolfsentry_internal.c:623-645,
src/kv.c:559-566): stop at the first failure. -/
def kvMapValidator (s : Kv) (v : KvValidator) : List (Ent (List Byte)) → Except Err Unit
  | [] => .ok ()
  | e :: rest =>
    match v e.key (s.obj e.id) with
    | .error x => .error x
    | .ok () => kvMapValidator s v rest

/-- `wolfsentry_kv_set_validator` (src/kv.c:568-592). -/
def kvSetValidator (s : Kv) (v : Option KvValidator) : Except Err Unit × Kv :=
  match v with
  | none => (.ok (), { s with validator := none })
  | some f =>
    match kvMapValidator s f (s.store.tables tblKv).ents with
    | .error e => (.error e, s)
    | .ok () => (.ok (), { s with validator := some f })

/-- One API call.  `flush` is `wolfsentry_context_flush` (src/wolfsentry_util.c:3786-3805), which
frees all user values; `otherInsert`/`otherDelete` stand for calls that add and remove objects of
other kinds. -/
inductive KvOp where
  | store (a : LabelArg) (v : KvInput) (overwrite : Bool)
  | delete (a : LabelArg)
  | setMutability (a : LabelArg) (m : Int)
  | setValidator (v : Option KvValidator)
  | flush
  | otherInsert (t : Nat) (k : List Byte)
  | otherDelete (t : Nat) (k : List Byte)

/-- One call: what it returns and the state it leaves. -/
def kvStep (s : Kv) : KvOp → Except Err Unit × Kv
  | .store a v ow => kvStore s a v ow
  | .delete a => kvDelete s a
  | .setMutability a m => kvSetMutability s a m
  | .setValidator v => kvSetValidator s v
  | .flush => (.ok (), { s with store := tableFlush s.store tblKv })
  | .otherInsert t k =>
    ((storeInsert catCmp s.store (t + 1) k).1.map (fun _ => ()),
     { s with store := (storeInsert catCmp s.store (t + 1) k).2 })
  | .otherDelete t k =>
    ((tableDelete catCmp s.store (t + 1) k).1.map (fun _ => ()),
     { s with store := (tableDelete catCmp s.store (t + 1) k).2 })

/-- The state after a history of calls on a new context. -/
def kvRun (ops : List KvOp) : Kv := ops.foldl (fun s op => (kvStep s op).2) {}

end WS
