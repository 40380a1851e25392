/-
Arrays of JSON values (src/json/centijson_value.c:866-1050).

An array is a buffer of cells with a number of cells in use and a number of cells allocated.  The values in the cells are abstract (`α`),
with the fresh value that `json_value_init_new` writes and with the effect and result of `json_value_fini`.  `size_t` has 64 bits and a
`JSON_VALUE` has 16 bytes.  Every answer of the allocator is a parameter.  A result `none` is undefined behaviour: use of memory that was
released, or outside its bounds.
-/
namespace WS.JArr

/-- `json_value_buf`: a null pointer, a pointer to cells, or a pointer to memory that has been released. -/
inductive Buf (α : Type) where
  | null
  | live (cells : List α)
  | freed

/-- `ARRAY` (centijson_value.c:97-102). -/
structure Arr (α : Type) where
  buf : Buf α
  size : Nat
  alloc : Nat

/-- `size_t` arithmetic. -/
def wrap (n : Nat) : Nat := n % 2 ^ 64

/-- What the allocator does when asked for memory: a null pointer, or memory, with the given content where it is new. -/
abbrev Reply (α : Type) := Option (Nat → α)

/-- The cells of a buffer after its size was changed to `n` cells. -/
def resize {α : Type} (cells : List α) (n : Nat) (junk : Nat → α) : List α :=
  cells.take n ++ (List.range (n - cells.length)).map junk

/-- `json_realloc` (centijson_value.c:78-85): the pointer returned (`none` if null), and what the old one now is.  `zeroFrees` says whether
the `realloc` of the allocator, as that of glibc, releases the memory and returns null when asked for zero bytes.  No allocator has 2^63 bytes
in one piece. -/
def realloc {α : Type} (zeroFrees : Bool) (r : Reply α) (b : Buf α) (bytes : Nat) : Option (Option (Buf α) × Buf α) :=
  match b with
  | .freed => none
  | .null => match (if bytes < 2 ^ 63 then r else none) with
    | none => some (none, .null)
    | some junk => some (some (.live (resize [] (bytes / 16) junk)), .null)
  | .live cells =>
    if zeroFrees && bytes = 0 then some (none, .freed)
    else match (if bytes < 2 ^ 63 then r else none) with
      | none => some (none, .live cells)
      | some junk => some (some (.live (resize cells (bytes / 16) junk)), .freed)

/-- `json_value_array_realloc` (centijson_value.c:877-893). -/
def arrayRealloc {α : Type} (zeroFrees : Bool) (r : Reply α) (a : Arr α) (alloc : Nat) : Option (Arr α × Int) :=
  match realloc zeroFrees r a.buf (wrap (alloc * 16)) with
  | none => none
  | some (none, old) => some ({ a with buf := old }, -1)
  | some (some b, _) => some ({ a with buf := b, alloc := alloc }, 0)

/-- `memmove` of `n` cells inside a buffer; `none` if it leaves the buffer. -/
def memmove {α : Type} (cells : List α) (dst src n : Nat) : Option (List α) :=
  if dst + n ≤ cells.length ∧ src + n ≤ cells.length then
    some (cells.take dst ++ (cells.drop src).take n ++ cells.drop (dst + n))
  else none

/-- `json_value_array_init` (centijson_value.c:540-563): an array without elements. -/
def init {α : Type} : Arr α := ⟨.null, 0, 0⟩

/-- `json_value_array_get` (centijson_value.c:895-904), and the value read through the pointer; the inner `none` is a null pointer. -/
def get {α : Type} (a : Arr α) (index : Nat) : Option (Option α) :=
  if index < a.size then
    match a.buf with
    | .live cells => match cells[index]? with
      | some v => some (some v)
      | none => none
    | _ => none
  else some none

/-- The value at a pointer into the array that `get` or `insert` returned is initialised (`json_value_init_*`). -/
def put {α : Type} (a : Arr α) (index : Nat) (v : α) : Option (Arr α) :=
  match a.buf with
  | .live cells => if index < cells.length then some { a with buf := .live (cells.set index v) } else none
  | _ => none

/-- The last part of `json_value_array_insert` (centijson_value.c:959-966), where there is room. -/
def place {α : Type} (fresh : α) (a : Arr α) (index : Nat) : Option (Arr α) :=
  match a.buf with
  | .live cells =>
    match (if index < a.size then memmove cells (wrap (index + 1)) index (a.size - index) else some cells) with
    | none => none
    | some cells => if index < cells.length then some { a with buf := .live (cells.set index fresh), size := wrap (a.size + 1) } else none
  | _ => none

/-- `json_value_array_insert` (centijson_value.c:939-967); the second component is whether a pointer to the new element is returned. -/
def insert {α : Type} (fresh : α) (zeroFrees : Bool) (r : Reply α) (a : Arr α) (index : Nat) : Option (Arr α × Bool) :=
  if a.size < index then some (a, false)
  else if a.alloc ≤ a.size then
    match arrayRealloc zeroFrees r a (if 0 < a.alloc then wrap (a.alloc * 2) else 1) with
    | none => none
    | some (a', rc) => if rc ≠ 0 then some (a', false) else (place fresh a' index).map (·, true)
  else (place fresh a index).map (·, true)

/-- `json_value_array_append` (centijson_value.c:926-937). -/
def append {α : Type} (fresh : α) (zeroFrees : Bool) (r : Reply α) (a : Arr α) : Option (Arr α × Bool) :=
  insert fresh zeroFrees r a a.size

/-- The loop that releases elements from `i` on, `n` of them (centijson_value.c:997-1004, 1031-1038): the cells, and the first negative
result. -/
def finis {α : Type} (fini : α → α × Int) (cells : List α) (i : Nat) : Nat → Option (List α × Int)
  | 0 => some (cells, 0)
  | n + 1 => match cells[i]? with
    | none => none
    | some v =>
      if (fini v).2 < 0 then some (cells.set i (fini v).1, (fini v).2)
      else finis fini (cells.set i (fini v).1) (i + 1) n

/-- The end of `json_value_array_remove_range` (centijson_value.c:1013-1018): the result of the reallocation is ignored. -/
def shrink {α : Type} (zeroFrees : Bool) (r : Reply α) (a : Arr α) : Option (Arr α) :=
  if wrap (4 * a.size) < a.alloc then (arrayRealloc zeroFrees r a (a.alloc / 2)).map (·.1) else some a

/-- `json_value_array_remove_range` (centijson_value.c:983-1021). -/
def removeRange {α : Type} (fini : α → α × Int) (zeroFrees : Bool) (r : Reply α) (a : Arr α) (index count : Nat) : Option (Arr α × Int) :=
  if a.size < wrap (index + count) then some (a, -1)
  else match a.buf with
    | .live cells =>
      match finis fini cells index (wrap (index + count) - index) with
      | none => none
      | some (cells, rc) =>
        if rc < 0 then some ({ a with buf := .live cells }, rc)
        else match (if wrap (index + count) < a.size then memmove cells index (wrap (index + count)) (a.size - wrap (index + count)) else some cells) with
          | none => none
          | some cells =>
            (shrink zeroFrees r { a with buf := .live cells, size := wrap (a.size + 2 ^ 64 - count) }).map (·, 0)
    | _ =>
      -- nothing to read or move in an array without elements; otherwise a null or stale pointer would be used
      if index < wrap (index + count) ∨ wrap (index + count) < a.size then none
      else (shrink zeroFrees r { a with size := wrap (a.size + 2 ^ 64 - count) }).map (·, 0)

/-- `json_value_array_remove` (centijson_value.c:969-981). -/
def remove {α : Type} (fini : α → α × Int) (zeroFrees : Bool) (r : Reply α) (a : Arr α) (index : Nat) : Option (Arr α × Int) :=
  removeRange fini zeroFrees r a index 1

/-- `json_value_array_clean` (centijson_value.c:1023-1046). -/
def clean {α : Type} (fini : α → α × Int) (a : Arr α) : Option (Arr α × Int) :=
  match a.buf with
  | .live cells => match finis fini cells 0 a.size with
    | none => none
    | some (cells, rc) => if rc < 0 then some ({ a with buf := .live cells }, rc) else some (init, 0)
  | .null => if 0 < a.size then none else some (init, 0)
  | .freed => none

/-- A call on an array, with the answer of the allocator where it is asked: an insertion followed by the initialisation of the new element,
an assignment to an element, a removal, and the removal of everything. -/
inductive Call (α : Type) where
  | insert (r : Reply α) (index : Nat) (v : α)
  | append (r : Reply α) (v : α)
  | put (index : Nat) (v : α)
  | removeRange (r : Reply α) (index count : Nat)
  | remove (r : Reply α) (index : Nat)
  | clean

/-- What a call reports: whether there was a pointer, or a return value. -/
inductive Report where
  | pointer (ok : Bool)
  | code (c : Int)
  deriving DecidableEq

/-- One call. -/
def step {α : Type} (fresh : α) (fini : α → α × Int) (zeroFrees : Bool) (a : Arr α) : Call α → Option (Arr α × Report)
  | .insert r i v => match insert fresh zeroFrees r a i with
    | none => none
    | some (a, false) => some (a, .pointer false)
    | some (a, true) => (put a i v).map (·, .pointer true)
  | .append r v => match append fresh zeroFrees r a with
    | none => none
    | some (a', false) => some (a', .pointer false)
    | some (a', true) => (put a' a.size v).map (·, .pointer true)
  | .put i v => match get a i with
    | none => none
    | some none => some (a, .pointer false)
    | some (some _) => (put a i v).map (·, .pointer true)
  | .removeRange r i n => (removeRange fini zeroFrees r a i n).map fun x => (x.1, .code x.2)
  | .remove r i => (remove fini zeroFrees r a i).map fun x => (x.1, .code x.2)
  | .clean => (clean fini a).map fun x => (x.1, .code x.2)

/-- A history of calls, with what each reported. -/
def run {α : Type} (fresh : α) (fini : α → α × Int) (zeroFrees : Bool) (a : Arr α) : List (Call α) → Option (Arr α × List Report)
  | [] => some (a, [])
  | c :: cs => match step fresh fini zeroFrees a c with
    | none => none
    | some (a', rep) => (run fresh fini zeroFrees a' cs).map fun x => (x.1, rep :: x.2)

end WS.JArr
