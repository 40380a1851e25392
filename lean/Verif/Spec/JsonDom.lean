import Verif.Model.JsonDom
import Verif.Spec.JsonNum
/-
What value a JSON text stands for (properties C58, C59).  From Model/JsonDom only the data types are used: `V`, `DupKey`, `Params`.
-/
namespace WS.Spec.Dom
open WS WS.Sax WS.Dom WS.Spec.Json

/-- A JSON text as a tree: numbers carry their text, strings their bytes. -/
inductive T where
  | null
  | bool (b : Bool)
  | num (t : List Byte)
  | str (s : List Byte)
  | arr (xs : List T)
  | obj (ms : List (List Byte × T))

mutual
/-- The parsing events of a tree. -/
def T.events : T → List Event
  | .null => [⟨.null, []⟩]
  | .bool b => [⟨if b then .true else .false, []⟩]
  | .num t => [⟨.number, t⟩]
  | .str s => [⟨.string, s⟩]
  | .arr xs => ⟨.arrayBeg, []⟩ :: (elements xs ++ [⟨.arrayEnd, []⟩])
  | .obj ms => ⟨.objectBeg, []⟩ :: (members ms ++ [⟨.objectEnd, []⟩])
def elements : List T → List Event
  | [] => []
  | v :: vs => v.events ++ elements vs
def members : List (List Byte × T) → List Event
  | [] => []
  | (k, v) :: ms => ⟨.key, k⟩ :: (v.events ++ members ms)
end

/-- The first member of every key, in order. -/
def firsts {β : Type} : List (List Byte × β) → List (List Byte × β)
  | [] => []
  | e :: l => e :: (firsts l).filter fun x => x.1 ≠ e.1

/-- The value of the last member with key `k`. -/
def lastOf {β : Type} (k : List Byte) (l : List (List Byte × β)) : Option β := ((l.filter fun x => x.1 = k).map (·.2)).getLast?

/-- One entry for every key, in the order in which the keys first occur, with the value that the key has last. -/
def Lasts {β : Type} (l es : List (List Byte × β)) : Prop :=
  es.map (·.1) = (firsts l).map (·.1) ∧ ∀ e ∈ es, lastOf e.1 l = some e.2

/-- The value of a number: an integer of the first type in the list int32, uint32, int64, uint64 that has it, else a floating-point
number. -/
inductive Num (strtod : List Byte → Option (BitVec 64)) : List Byte → V → Prop
  | int32 {t : List Byte} {i : Int} : Integer t i → -2 ^ 31 ≤ i → i < 2 ^ 31 → Num strtod t (.int32 i)
  | uint32 {t : List Byte} {n : Nat} : Integer t n → 2 ^ 31 ≤ n → n < 2 ^ 32 → Num strtod t (.uint32 n)
  | int64 {t : List Byte} {i : Int} : Integer t i → -2 ^ 63 ≤ i → i < 2 ^ 63 → (i < -2 ^ 31 ∨ 2 ^ 32 ≤ i) → Num strtod t (.int64 i)
  | uint64 {t : List Byte} {n : Nat} : Integer t n → 2 ^ 63 ≤ n → n < 2 ^ 64 → Num strtod t (.uint64 n)
  | double {t : List Byte} {d : BitVec 64} : Number t → (∀ i, Integer t i → i < -2 ^ 63 ∨ 2 ^ 64 ≤ i) → strtod t = some d →
      Num strtod t (.double d)

mutual
/-- The value of a tree, with the given treatment of members with equal keys. -/
inductive Reads (strtod : List Byte → Option (BitVec 64)) (policy : DupKey) (ordered : Bool) : T → V → Prop
  | null : Reads strtod policy ordered .null .null
  | bool (b : Bool) : Reads strtod policy ordered (.bool b) (.bool b)
  | num {t : List Byte} {v : V} : Num strtod t v → Reads strtod policy ordered (.num t) v
  | str (s : List Byte) : Reads strtod policy ordered (.str s) (.string s)
  | arr {ts : List T} {vs : List V} : ReadsAll strtod policy ordered ts vs → Reads strtod policy ordered (.arr ts) (.array vs)
  | distinct {ms : List (List Byte × T)} {es : List (List Byte × V)} : policy = .abort → (ms.map (·.1)).Nodup →
      ReadsMembers strtod policy ordered ms es → Reads strtod policy ordered (.obj ms) (.dict ordered es)
  | first {ms : List (List Byte × T)} {es : List (List Byte × V)} : policy = .useFirst →
      ReadsMembers strtod policy ordered (firsts ms) es → Reads strtod policy ordered (.obj ms) (.dict ordered es)
  | last {ms : List (List Byte × T)} {l es : List (List Byte × V)} : policy = .useLast →
      ReadsMembers strtod policy ordered ms l → Lasts l es → Reads strtod policy ordered (.obj ms) (.dict ordered es)
inductive ReadsAll (strtod : List Byte → Option (BitVec 64)) (policy : DupKey) (ordered : Bool) : List T → List V → Prop
  | nil : ReadsAll strtod policy ordered [] []
  | cons {t : T} {v : V} {ts : List T} {vs : List V} : Reads strtod policy ordered t v → ReadsAll strtod policy ordered ts vs →
      ReadsAll strtod policy ordered (t :: ts) (v :: vs)
inductive ReadsMembers (strtod : List Byte → Option (BitVec 64)) (policy : DupKey) (ordered : Bool) :
    List (List Byte × T) → List (List Byte × V) → Prop
  | nil : ReadsMembers strtod policy ordered [] []
  | cons {k : List Byte} {t : T} {v : V} {ms : List (List Byte × T)} {es : List (List Byte × V)} :
      Reads strtod policy ordered t v → ReadsMembers strtod policy ordered ms es →
      ReadsMembers strtod policy ordered ((k, t) :: ms) ((k, v) :: es)
end

mutual
/-- The numbers of the tree are JSON numbers. -/
def T.Numeric : T → Prop
  | .num t => Number t
  | .arr xs => allNumeric xs
  | .obj ms => membersNumeric ms
  | _ => True
def allNumeric : List T → Prop
  | [] => True
  | v :: vs => v.Numeric ∧ allNumeric vs
def membersNumeric : List (List Byte × T) → Prop
  | [] => True
  | (_, v) :: ms => v.Numeric ∧ membersNumeric ms
end

/-- Not an array or an object. -/
def T.Plain : T → Prop
  | .arr _ => False
  | .obj _ => False
  | _ => True

/-- A member whose key an earlier one has is not an array or an object. -/
def RepeatsPlain : List (List Byte × T) → Prop
  | [] => True
  | (k, _) :: ms => (∀ e ∈ ms, e.1 = k → e.2.Plain) ∧ RepeatsPlain ms

mutual
/-- In no object of the tree does a key with an array or an object repeat an earlier one. -/
def T.Tame : T → Prop
  | .arr xs => allTame xs
  | .obj ms => RepeatsPlain ms ∧ membersTame ms
  | _ => True
def allTame : List T → Prop
  | [] => True
  | v :: vs => v.Tame ∧ allTame vs
def membersTame : List (List Byte × T) → Prop
  | [] => True
  | (_, v) :: ms => v.Tame ∧ membersTame ms
end

end WS.Spec.Dom

/-! ### Writing and reading back -/

namespace WS.Spec.Dom
open WS WS.Sax WS.Dom WS.Spec.Json

/-- The bytes are the UTF-8 of a sequence of Unicode scalar values. -/
def Utf8 (b : List Byte) : Prop := ∃ s : List Nat, (∀ n ∈ s, Scalar n) ∧ b = utf8s s

mutual
/-- A value that can be written as JSON and read back: integers within their types, strings and keys in UTF-8, the keys of a
dictionary different, and floating-point numbers that `print` writes as a JSON number from whose final form `conv` recovers them. -/
def Writable (print : BitVec 64 → List Byte) (conv : List Byte → BitVec 64) : V → Prop
  | .null => True
  | .bool _ => True
  | .int32 i => -2 ^ 31 ≤ i ∧ i < 2 ^ 31
  | .uint32 n => n < 2 ^ 32
  | .int64 i => -2 ^ 63 ≤ i ∧ i < 2 ^ 63
  | .uint64 n => n < 2 ^ 64
  | .double d => Number (print d) ∧ ch 'E' ∉ print d ∧ (print d).length ≤ 60 ∧ ∀ t, (t = print d ∨ t = print d ++ [ch '.', ch '0']) → Number t → conv t = d
  | .string s => Utf8 s
  | .array xs => allWritable print conv xs
  | .dict _ es => (es.map (·.1)).Nodup ∧ membersWritable print conv es
def allWritable (print : BitVec 64 → List Byte) (conv : List Byte → BitVec 64) : List V → Prop
  | [] => True
  | v :: vs => Writable print conv v ∧ allWritable print conv vs
def membersWritable (print : BitVec 64 → List Byte) (conv : List Byte → BitVec 64) : List (List Byte × V) → Prop
  | [] => True
  | (k, v) :: es => Utf8 k ∧ Writable print conv v ∧ membersWritable print conv es
end

mutual
/-- The floating-point numbers in a value. -/
def doubles : V → List (BitVec 64)
  | .double d => [d]
  | .array xs => doublesAll xs
  | .dict _ es => doublesOf es
  | _ => []
def doublesAll : List V → List (BitVec 64)
  | [] => []
  | v :: vs => doubles v ++ doublesAll vs
def doublesOf : List (List Byte × V) → List (BitVec 64)
  | [] => []
  | (_, v) :: es => doubles v ++ doublesOf es
end

/-- The integer a value stands for. -/
def intOf : V → Option Int
  | .int32 i => some i
  | .uint32 n => some n
  | .int64 i => some i
  | .uint64 n => some n
  | _ => none

/-- Keys in ascending order of bytes. -/
def Ascending {β : Type} (es : List (List Byte × β)) : Prop := es.Pairwise fun a b => a.1.map (·.toNat) < b.1.map (·.toNat)

mutual
/-- The same value up to the types of its integers, and the order of the entries of dictionaries: `ordered` dictionaries have the same order
if `keep`, the others are in ascending order of keys. -/
inductive Same (keep ordered : Bool) : V → V → Prop
  | null : Same keep ordered .null .null
  | bool (b : Bool) : Same keep ordered (.bool b) (.bool b)
  | int {v w : V} {i : Int} : intOf v = some i → intOf w = some i → Same keep ordered v w
  | double (d : BitVec 64) : Same keep ordered (.double d) (.double d)
  | string (s : List Byte) : Same keep ordered (.string s) (.string s)
  | array {xs ys : List V} : SameAll keep ordered xs ys → Same keep ordered (.array xs) (.array ys)
  | dict {o : Bool} {es l es' : List (List Byte × V)} : (if keep ∧ o then l = es else l.Perm es ∧ Ascending l) →
      SameMembers keep ordered l es' → Same keep ordered (.dict o es) (.dict ordered es')
inductive SameAll (keep ordered : Bool) : List V → List V → Prop
  | nil : SameAll keep ordered [] []
  | cons {v w : V} {vs ws : List V} : Same keep ordered v w → SameAll keep ordered vs ws → SameAll keep ordered (v :: vs) (w :: ws)
inductive SameMembers (keep ordered : Bool) : List (List Byte × V) → List (List Byte × V) → Prop
  | nil : SameMembers keep ordered [] []
  | cons {k : List Byte} {v w : V} {es es' : List (List Byte × V)} : Same keep ordered v w → SameMembers keep ordered es es' →
      SameMembers keep ordered ((k, v) :: es) ((k, w) :: es')
end

/-- None of the limits of the configuration is below `n`, and every type of root is allowed. -/
def Roomy (cfg : Config) (n : Nat) : Prop :=
  Within cfg.maxTotalLen n ∧ Within cfg.maxTotalValues n ∧ Within cfg.maxNumberLen n ∧ Within cfg.maxStringLen n ∧
  Within cfg.maxKeyLen n ∧ Within cfg.maxNesting n ∧ cfg.flags &&& 0x3f#32 = 0#32

end WS.Spec.Dom
