import Verif.Model.Kv
/-
What users are told about the user-value store: it is a map from keys to typed values with a
read-only bit, and an optional validator.  Nothing here mentions tables, IDs or counters.
`kvDecode` and `kvKey` (Model/Kv.lean) only turn C arguments into a key and a value.
-/
namespace WS.Spec
open WS

/-- The abstract store. -/
structure KvSpec where
  map : List Byte → Option KvObj
  validator : Option KvValidator

/-- The map with one key changed. -/
def put (m : List Byte → Option KvObj) (k : List Byte) (o : Option KvObj) : List Byte → Option KvObj :=
  fun k' => if k' = k then o else m k'

/-- Is this a floating-point zero (of either sign)? -/
def IsFloatZero : KvVal → Prop
  | .float b => b = 0#64 ∨ b = 0x8000000000000000#64
  | _ => False

/-- What an overwrite of `old` by `new` may leave behind: `new`; when both are floating-point zeros
the old zero may stay. -/
def Overwritten (old new result : KvVal) : Prop :=
  result = new ∨ (IsFloatZero old ∧ IsFloatZero new ∧ result = old)

/-- The validator, if any, accepts the pair. -/
def Accepts (v : Option KvValidator) (k : List Byte) (o : KvObj) : Except Err Unit :=
  match v with
  | none => .ok ()
  | some f => f k o

/-- Storing `v` under `k` when arguments are fine and the validator accepts the pair. -/
def StoreSpec (st : KvSpec) (k : List Byte) (v : KvVal) (overwrite : Bool) (r : Except Err Unit) (st' : KvSpec) : Prop :=
  match st.map k with
  | none => r = .ok () ∧ st' = { st with map := put st.map k (some ⟨v, false⟩) }
  | some o =>
    if overwrite = false then r = .error .itemAlreadyPresent ∧ st' = st
    else if o.ro = true then r = .error .notPermitted ∧ st' = st
    else r = .ok () ∧ ∃ w, Overwritten o.val v w ∧ st' = { st with map := put st.map k (some ⟨w, false⟩) }

/-- What one call may return and do. -/
def KvSpecStep (st : KvSpec) (op : KvOp) (r : Except Err Unit) (st' : KvSpec) : Prop :=
  match op with
  | .store a inp ow =>
    match kvDecode a inp with
    | .error e => r = .error e ∧ st' = st
    | .ok (k, v) =>
      match Accepts st.validator k ⟨v, false⟩ with
      | .error e => r = .error e ∧ st' = st
      | .ok () => StoreSpec st k v ow r st'
  | .delete a =>
    match kvKey a 0 with
    | .error e => r = .error e ∧ st' = st
    | .ok k =>
      match st.map k with
      | none => r = .error .itemNotFound ∧ st' = st
      | some o =>
        if o.ro = true then r = .error .notPermitted ∧ st' = st
        else r = .ok () ∧ st' = { st with map := put st.map k none }
  | .setMutability a m =>
    match kvKey a 0 with
    | .error e => r = .error e ∧ st' = st
    | .ok k =>
      match st.map k with
      | none => r = .error .itemNotFound ∧ st' = st
      | some o =>
        if m = 0 then r = .ok () ∧ st' = { st with map := put st.map k (some { o with ro := true }) }
        else if m = 1 then r = .ok () ∧ st' = { st with map := put st.map k (some { o with ro := false }) }
        else r = .error .invalidArg ∧ st' = st
  | .setValidator none => r = .ok () ∧ st' = { st with validator := none }
  | .setValidator (some f) =>
    (r = .ok () ∧ (∀ k o, st.map k = some o → f k o = .ok ()) ∧ st' = { st with validator := some f }) ∨
    (∃ k o e, st.map k = some o ∧ f k o = .error e ∧ r = .error e ∧ st' = st)
  | .flush => r = .ok () ∧ st' = { st with map := fun _ => none }
  | .otherInsert _ _ => st' = st
  | .otherDelete _ _ => st' = st

/-- The extra outcome of a store when the 32-bit object IDs have run out: the call fails with
`INVALID_ARG`; the map is as before, except that an existing writable value that was to be
overwritten is gone. -/
def OutOfIds (st : KvSpec) (op : KvOp) (r : Except Err Unit) (st' : KvSpec) : Prop :=
  ∃ a inp ow k v, op = .store a inp ow ∧ kvDecode a inp = .ok (k, v) ∧ r = .error .invalidArg ∧
    (st' = st ∨ (ow = true ∧ (∃ w, st.map k = some ⟨w, false⟩) ∧ st' = { st with map := put st.map k none }))

/-- A signed integer that is not negative. -/
def NonNegSigned (v : KvVal) : Prop := ∃ b : BitVec 64, v = .sint b ∧ 0 ≤ b.toInt

instance (v : KvVal) : Decidable (NonNegSigned v) :=
  match v with
  | .sint b => if h : 0 ≤ b.toInt then .isTrue ⟨b, rfl, h⟩
      else .isFalse (fun ⟨_, hb, hc⟩ => h (by cases hb; exact hc))
  | .null => .isFalse (fun ⟨_, hb, _⟩ => by cases hb)
  | .true => .isFalse (fun ⟨_, hb, _⟩ => by cases hb)
  | .false => .isFalse (fun ⟨_, hb, _⟩ => by cases hb)
  | .uint _ => .isFalse (fun ⟨_, hb, _⟩ => by cases hb)
  | .float _ => .isFalse (fun ⟨_, hb, _⟩ => by cases hb)
  | .string _ => .isFalse (fun ⟨_, hb, _⟩ => by cases hb)
  | .bytes _ => .isFalse (fun ⟨_, hb, _⟩ => by cases hb)
  | .json _ => .isFalse (fun ⟨_, hb, _⟩ => by cases hb)

/-- What a read requesting type `t` returns: absent keys are `ITEM_NOT_FOUND`, values of another
type `WRONG_TYPE`; a non-negative signed integer may be read as unsigned. -/
def ReadSpec (st : KvSpec) (k : List Byte) (t : KvType) : Except Err KvVal :=
  match st.map k with
  | none => .error .itemNotFound
  | some o =>
    if t = .none ∨ t = o.val.type ∨ (t = .uint ∧ NonNegSigned o.val) then .ok o.val
    else .error .wrongType

/-- The abstract content of a concrete store: what a lookup of each key finds, whatever its type. -/
def content (s : Kv) : KvSpec :=
  { map := fun k =>
      match tableGet catCmp s.store tblKv k with
      | .ok e => some (s.obj e.id)
      | .error _ => none,
    validator := s.validator }

end WS.Spec
