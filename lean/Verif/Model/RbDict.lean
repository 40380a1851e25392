import Verif.Model.Basic
/-
The dictionary of JSON values (src/json/centijson_value.c:92-143, 1056-2033): a red-black tree without
parent pointers, with an optional list of its entries in order of insertion.

Representation.  A C node is its subtree; the array `path[]` of node pointers from the root is the list
of `Step`s (innermost first), each holding the node's fields other than the child the path continues
into.  The stores `parent->left = x` along the path become `zip`.  Comparisons `parent->left == node` of
pointers are the direction of the step: for a non-NULL node this is exact because nodes are distinct; for
a NULL node the C test may differ from the direction only when both children are NULL, and then both
branches select the sibling NULL, which the model reports as undefined behaviour.

`none` is undefined behaviour: a NULL dereference, or a store past the end of `path[]`.

Colour is kept in the key's type byte in C (lines 1061-1065).
Not modelled: the representation of keys and values (`json_value_init_string_`, `json_value_fini`).
-/
namespace WS.Rb

abbrev Key := List Byte

inductive Color where
  | red | black
  deriving DecidableEq, Repr

/-- `RBTREE` (src/json/centijson_value.c:105-116). -/
inductive Tree (β : Type) where
  | nil
  | node (c : Color) (l : Tree β) (k : Key) (v : β) (r : Tree β)
  deriving DecidableEq, Repr

/-- One element of `path[]`. -/
structure Step (β : Type) where
  left : Bool
  color : Color
  key : Key
  val : β
  sib : Tree β
  deriving DecidableEq, Repr

variable {β : Type}

/-- The node of a step with a given child. -/
def plug (s : Step β) (t : Tree β) : Tree β :=
  if s.left then .node s.color t s.key s.val s.sib else .node s.color s.sib s.key s.val t

/-- The whole tree: `path[]` applied to its last element. -/
def zip : List (Step β) → Tree β → Tree β
  | [], t => t
  | s :: p, t => zip p (plug s t)

/-- `x != NULL && IS_RED(x)`. -/
def isRed : Tree β → Bool
  | .node .red _ _ _ _ => true
  | _ => false

/-- `MAKE_BLACK`, `MAKE_RED`, `TOGGLE_COLOR` (src/json/centijson_value.c:1061-1063). -/
def setColor (c : Color) : Tree β → Tree β
  | .nil => .nil
  | .node _ l k v r => .node c l k v r

def Tree.isNil : Tree β → Bool
  | .nil => true
  | _ => false

def size : Tree β → Nat
  | .nil => 0
  | .node _ l _ _ r => size l + 1 + size r

/-- `memcmp` of two arrays of the same length, as a sign. -/
def memcmp : List Byte → List Byte → Ordering
  | a :: as, b :: bs => if a.toNat < b.toNat then .lt else if b.toNat < a.toNat then .gt else memcmp as bs
  | _, _ => .eq

/-- `json_value_dict_default_cmp` (src/json/centijson_value.c:1076-1099). -/
def defaultCmp (k1 k2 : Key) : Ordering :=
  let minLen := if k1.length < k2.length then k1.length else k2.length
  match memcmp (k1.take minLen) (k2.take minLen) with
  | .eq => if k1.length = k2.length then .eq else if k1.length < k2.length then .lt else .gt
  | c => c

/-- `json_value_dict_get_` (src/json/centijson_value.c:1197-1217); `cmp` is the comparison selected by
`json_value_dict_cmp` (1101-1109). -/
def get (cmp : Key → Key → Ordering) (k : Key) : Tree β → Option β
  | .nil => none
  | .node _ l k' v r =>
    match cmp k k' with
    | .lt => get cmp k l
    | .gt => get cmp k r
    | .eq => some v

/-- The descending loop of `json_value_dict_get_or_add_` (1381-1393) and `json_value_dict_remove_`
(1568-1580), with a `path[]` of `cap` elements; ends at NULL or at the matching node. -/
def descend (cmp : Key → Key → Ordering) (cap : Nat) (k : Key) : List (Step β) → Tree β → Option (List (Step β) × Tree β)
  | p, .nil => some (p, .nil)
  | p, .node c l k' v r =>
    if cap < p.length + 1 then none
    else
      match cmp k k' with
      | .lt => descend cmp cap k (⟨true, c, k', v, r⟩ :: p) l
      | .gt => descend cmp cap k (⟨false, c, k', v, l⟩ :: p) r
      | .eq => some (p, .node c l k' v r)

/-- `json_value_dict_rotate_left` (src/json/centijson_value.c:1224-1239), on the subtree of `node`. -/
def rotateLeft : Tree β → Option (Tree β)
  | .node c l k v (.node c' l' k' v' r') => some (.node c' (.node c l k v l') k' v' r')
  | _ => none

/-- `json_value_dict_rotate_right` (src/json/centijson_value.c:1241-1256). -/
def rotateRight : Tree β → Option (Tree β)
  | .node c (.node c' l' k' v' r') k v r => some (.node c' l' k' v' (.node c r' k v r))
  | _ => none

/-- The part of `json_value_dict_fix_after_insert` for a black uncle (src/json/centijson_value.c:1286-1312):
`g` is the grandparent's step, `s` the parent's, `t` the node.  The two recolourings at the end are
applied before the last rotation. -/
def fixBlackUncle (g s : Step β) (t : Tree β) : Option (Tree β) :=
  let inner := if g.left && !s.left then rotateLeft (plug s t)
    else if !g.left && s.left then rotateRight (plug s t)
    else some (plug s t)
  let nodeIsLeft := if g.left && !s.left then true else if !g.left && s.left then false else s.left
  match inner with
  | none => none
  | some par =>
    let gp := plug { g with color := .red } (setColor .black par)
    if nodeIsLeft then rotateRight gp else rotateLeft gp

/-- `json_value_dict_fix_after_insert` (src/json/centijson_value.c:1258-1324): `t` is the red node
`path[path_len-1]`.  Gives the whole tree. -/
def fixInsert : List (Step β) → Tree β → Option (Tree β)
  | [], t => some (setColor .black t)
  | [s], t => if s.color = .black then some (zip [s] t) else none
  | s :: g :: p, t =>
    if s.color = .black then some (zip (s :: g :: p) t)
    else if isRed g.sib then
      fixInsert p (plug { g with color := .red, sib := setColor .black g.sib } (plug { s with color := .black } t))
    else (fixBlackUncle g s t).map (zip p)

/-- `DICT` (src/json/centijson_value.c:124-134): `order` is present with `HAS_ORDERLIST` and lists the keys
of the nodes from `order_head` along `order_next`. -/
structure Dict (β : Type) where
  root : Tree β := .nil
  size : Nat := 0
  order : Option (List Key) := none
  deriving DecidableEq, Repr

/-- `rbtree_stack_size_needed` in elements (src/json/centijson_value.c:136-143), with
`LOG2_32(x) = 31 - __builtin_clz((unsigned int)x)` (wolfsentry/wolfsentry_util.h:68-69), undefined at 0. -/
def stackSlots (n : Nat) : Option Nat :=
  let x := (n + 1) % 4294967296
  if x = 0 then none else some (2 * x.log2)

/-- What `json_value_dict_get_or_add_` gives back: NULL, or the value found or made. -/
inductive Added (β : Type) where
  | null
  | existing (v : β)
  | fresh
  deriving DecidableEq, Repr

/-- `json_value_dict_get_or_add_` (src/json/centijson_value.c:1356-1441).  `alloc` tells whether the
allocations of the node and its key succeed; `new` is the content of a new value
(`json_value_init_new`). -/
def getOrAdd (cmp : Key → Key → Ordering) (new : β) (alloc : Bool) (k : Key) (d : Dict β) : Option (Dict β × Added β) :=
  match stackSlots d.size with
  | none => none
  | some slots =>
    match descend cmp (slots + 1) k [] d.root with
    | none => none
    | some (_, .node _ _ _ v _) => some (d, .existing v)
    | some (p, .nil) =>
      if alloc then
        if slots + 1 < p.length + 1 then none
        else
          match fixInsert p (.node .red .nil k new .nil) with
          | none => none
          | some root => some ({ root := root, size := d.size + 1, order := d.order.map (· ++ [k]) }, .fresh)
      else some (d, .null)

/-- `json_value_dict_leftmost_path` (src/json/centijson_value.c:1111-1122) as used by the removal (1595): the
steps below `node->right` down to its leftmost node, and that node. -/
def leftmost (cap base : Nat) : List (Step β) → Tree β → Option (List (Step β) × Tree β)
  | _, .nil => none
  | q, .node c l k v r =>
    if cap < base + q.length + 1 then none
    else if l.isNil then some (q, .node c l k v r)
    else leftmost cap base (⟨true, c, k, v, r⟩ :: q) l

/-- Sum of the sizes of the siblings along a path, for termination. -/
def sibSizes : List (Step β) → Nat
  | [] => 0
  | s :: p => size s.sib + sibSizes p

/-- The part of `json_value_dict_fix_after_remove` for a black sibling with a red child
(src/json/centijson_value.c:1502-1527): the subtree of `parent` afterwards. -/
def fixRedNephew (s : Step β) (t sl : Tree β) (sk : Key) (sv : β) (sr : Tree β) : Option (Tree β) :=
  let inner := if s.left && !isRed sr then rotateRight (.node .red (setColor .black sl) sk sv sr)
    else if !s.left && !isRed sl then rotateLeft (.node .red sl sk sv (setColor .black sr))
    else some (.node .black sl sk sv sr)
  match inner with
  | some (.node _ l k v r) =>
    if s.left then
      if r.isNil then none
      else rotateLeft (.node .black t s.key s.val (.node s.color l k v (setColor .black r)))
    else
      if l.isNil then none
      else rotateRight (.node .black (.node s.color (setColor .black l) k v r) s.key s.val t)
  | _ => none

/-- `json_value_dict_fix_after_remove` (src/json/centijson_value.c:1459-1540): the subtree `t` at the end of
the path is one black node short. -/
def fixRemove (cap : Nat) : List (Step β) → Tree β → Option (Tree β)
  | p, t =>
    if isRed t then some (zip p (setColor .black t))
    else
      match p with
      | [] => some t
      | s :: p' =>
        match hs : s.sib with
        | .nil => none
        | .node sc sl sk sv sr =>
          if sc = .red then
            if cap < p'.length + 1 + 2 then none
            else if s.left then
              fixRemove cap (⟨true, .red, s.key, s.val, sl⟩ :: ⟨true, .black, sk, sv, sr⟩ :: p') t
            else
              fixRemove cap (⟨false, .red, s.key, s.val, sr⟩ :: ⟨false, .black, sk, sv, sl⟩ :: p') t
          else if isRed sl || isRed sr then (fixRedNephew s t sl sk sv sr).map (zip p')
          else if s.color = .red then
            some (zip p' (plug { s with color := .black, sib := .node .red sl sk sv sr } t))
          else fixRemove cap p' (plug { s with sib := .node .red sl sk sv sr } t)
termination_by p t => 2 * sibSizes p + p.length
decreasing_by
  · simp only [sibSizes, List.length_cons, hs, size]; omega
  · simp only [sibSizes, List.length_cons, hs, size]; omega
  · simp only [sibSizes, List.length_cons, hs, size]; omega

/-- The disconnecting part of `json_value_dict_remove_` (src/json/centijson_value.c:1583-1660) for the node
with the given fields at the end of path `p`: the new path, the single child at its end, and the colour
of the node when it is disconnected (after the exchange of colours with its successor). -/
def disconnect (cap : Nat) (p : List (Step β)) (c : Color) (l : Tree β) (r : Tree β) :
    Option (List (Step β) × Tree β × Color) :=
  match r with
  | .nil => some (p, (if l.isNil then r else l), c)
  | .node rc rl rk rv rr =>
    if !rl.isNil then
      match leftmost cap (p.length + 1) [] (.node rc rl rk rv rr) with
      | some (q, .node sc _ sk sv sr) => some (q ++ ⟨false, c, sk, sv, l⟩ :: p, sr, sc)
      | _ => none
    else if !l.isNil then
      if cap < p.length + 2 then none
      else some (⟨false, c, rk, rv, l⟩ :: p, rr, rc)
    else some (p, .node rc rl rk rv rr, c)

/-- `json_value_dict_remove_` (src/json/centijson_value.c:1542-1695): the new dictionary and whether an entry
was removed (0) or not found (-1). -/
def remove (cmp : Key → Key → Ordering) (k : Key) (d : Dict β) : Option (Dict β × Bool) :=
  if d.root.isNil then some (d, false)
  else
    match stackSlots d.size with
    | none => none
    | some cap =>
      match descend cmp cap k [] d.root with
      | none => none
      | some (_, .nil) => some (d, false)
      | some (p, .node c l k' _ r) =>
        match disconnect cap p c l r with
        | none => none
        | some (p', child, col) =>
          match (if col = .black then fixRemove cap p' child else some (zip p' child)) with
          | none => none
          | some root => some ({ root := root, size := d.size - 1, order := d.order.map (·.erase k') }, true)

/-- Storing through the pointer returned for a key. -/
def update (cmp : Key → Key → Ordering) (k : Key) (v : β) : Tree β → Tree β
  | .nil => .nil
  | .node c l k' v' r =>
    match cmp k k' with
    | .lt => .node c (update cmp k v l) k' v' r
    | .gt => .node c l k' v' (update cmp k v r)
    | .eq => .node c l k' v r

/-- An element of the stack of a walk, without the part already visited. -/
abbrev Frame (β : Type) := Key × β × Tree β

/-- `json_value_dict_leftmost_path` (src/json/centijson_value.c:1111-1122) pushing on a stack (last pushed
first) of capacity `cap`. -/
def leftPath (cap : Nat) : List (Frame β) → Tree β → Option (List (Frame β))
  | st, .nil => some st
  | st, .node _ l k v r => if cap < st.length + 1 then none else leftPath cap ((k, v, r) :: st) l

def stackSize : List (Frame β) → Nat
  | [] => 0
  | f :: st => 1 + size f.2.2 + stackSize st

theorem leftPath_size (cap : Nat) (t : Tree β) : ∀ (st st' : List (Frame β)), leftPath cap st t = some st' →
    stackSize st' = stackSize st + size t := by
  induction t with
  | nil => intro st st' h; simp only [leftPath, Option.some.injEq] at h; subst h; rfl
  | node c l k v r ihl ihr =>
    intro st st' h
    rw [leftPath] at h
    split at h
    · cases h
    · have := ihl _ _ h
      simp only [stackSize, size] at this ⊢
      omega

/-- The loop of `json_value_dict_walk_sorted` (src/json/centijson_value.c:1753-1759): `visit` gets the
accumulated state and stops the walk by an error. -/
def walkLoop {σ : Type} (cap : Nat) (visit : σ → Key → β → Except Int σ) (st : List (Frame β)) (acc : σ) : Option (Except Int σ) :=
  match st with
  | [] => some (.ok acc)
  | (k, v, r) :: st =>
    match visit acc k v with
    | .error e => some (.error e)
    | .ok acc =>
      match h : leftPath cap st r with
      | none => none
      | some st' => walkLoop cap visit st' acc
termination_by stackSize st
decreasing_by
  have := leftPath_size cap r _ _ h
  simp only [stackSize]
  omega

/-- `json_value_dict_walk_sorted` (src/json/centijson_value.c:1730-1762). -/
def walkSorted {σ : Type} (visit : σ → Key → β → Except Int σ) (acc : σ) (d : Dict β) : Option (Except Int σ) :=
  match stackSlots d.size with
  | none => none
  | some cap =>
    match leftPath cap [] d.root with
    | none => none
    | some st => walkLoop cap visit st acc

/-- The loop of `json_value_dict_keys_sorted` (src/json/centijson_value.c:1167-1171). -/
def keysLoop (cap : Nat) (room : Nat) (st : List (Frame β)) : Option (List Key) :=
  match room, st with
  | 0, _ => some []
  | _, [] => some []
  | room + 1, (k, _, r) :: st =>
    match leftPath cap st r with
    | none => none
    | some st' => (keysLoop cap room st').map (k :: ·)
termination_by room

/-- `json_value_dict_keys_sorted` (src/json/centijson_value.c:1146-1174) into a buffer of `room` elements. -/
def keysSorted (room : Nat) (d : Dict β) : Option (List Key) :=
  match stackSlots d.size with
  | none => none
  | some cap =>
    match leftPath cap [] d.root with
    | none => none
    | some st => keysLoop cap room st

/-- `json_value_dict_keys_ordered` (src/json/centijson_value.c:1176-1194). -/
def keysOrdered (room : Nat) (d : Dict β) : List Key :=
  match d.order with
  | none => []
  | some l => l.take room

/-- `json_value_dict_add_` (src/json/centijson_value.c:1326-1340): `isNew` is `json_value_is_new`. -/
def add (cmp : Key → Key → Ordering) (new : β) (isNew : β → Bool) (alloc : Bool) (k : Key) (d : Dict β) : Option (Dict β × Bool) :=
  match getOrAdd cmp new alloc k d with
  | none => none
  | some (d', .null) => some (d', false)
  | some (d', .fresh) => some (d', isNew new)
  | some (d', .existing v) => some (d', isNew v)

/-- `JSON_ERR_OUTOFMEMORY` (wolfsentry/centijson_sax.h:88). -/
def jsonErrOutOfMemory : Int := -2

/-- The loop of `json_value_clone` for a dictionary with maintained order
(src/json/centijson_value.c:1923-1932): `src` are the source nodes along `order_next`.  `cloneV` is the
recursive call for the value (an error leaves the value as it was made); the loop goes on after an error
and `ret` keeps only the last result.  `allocs` tells for each node whether its allocations succeed. -/
def cloneOrderedLoop (cmp : Key → Key → Ordering) (new : β) (cloneV : β → Except Int β) : List (Key × β) → List Bool → Int → Dict β → Option (Dict β × Int)
  | [], _, ret, d => some (d, ret)
  | (k, v) :: src, allocs, _, d =>
    match getOrAdd cmp new (allocs.headD true) k d with
    | none => none
    | some (d', .null) => some (d', jsonErrOutOfMemory)
    | some (d', _) =>
      match cloneV v with
      | .ok v' => cloneOrderedLoop cmp new cloneV src allocs.tail 0 { d' with root := update cmp k v' d'.root }
      | .error e => cloneOrderedLoop cmp new cloneV src allocs.tail e d'

/-- The loop for a dictionary without maintained order (src/json/centijson_value.c:1941-1953), which stops at
the first error. -/
def cloneSortedLoop (cmp : Key → Key → Ordering) (new : β) (cloneV : β → Except Int β) : List (Key × β) → List Bool → Dict β → Option (Dict β × Int)
  | [], _, d => some (d, 0)
  | (k, v) :: src, allocs, d =>
    match getOrAdd cmp new (allocs.headD true) k d with
    | none => none
    | some (d', .null) => some (d', jsonErrOutOfMemory)
    | some (d', _) =>
      match cloneV v with
      | .ok v' => cloneSortedLoop cmp new cloneV src allocs.tail { d' with root := update cmp k v' d'.root }
      | .error e => some (d', e)

/-- `json_value_clone` of a dictionary (src/json/centijson_value.c:1909-1964) with the comparison of the
source.  The nodes of the source are visited along the order list, or by the stack walk of
`json_value_dict_walk_sorted`.  Not modelled: `json_value_fini` of the clone on failure. -/
def cloneDict (cmp : Key → Key → Ordering) (new : β) (cloneV : β → Except Int β) (allocs : List Bool) (d : Dict β) : Option (Dict β × Int) :=
  match d.order with
  | some o => cloneOrderedLoop cmp new cloneV (o.filterMap (fun k => (get cmp k d.root).map (k, ·))) allocs 0 { order := some [] }
  | none =>
    match walkSorted (fun acc k v => .ok (acc ++ [(k, v)])) [] d with
    | some (.ok src) => cloneSortedLoop cmp new cloneV src allocs {}
    | _ => none

end WS.Rb
