import Verif.Model.ContextLife
/-
Specification for C82: making and shutting down a context.
-/
namespace WS.Spec.CL
open WS WS.CL WS.RC

/-- The blocks of a context that was made. -/
def whole (o : Opts) : List Block :=
  [.builtin, .fallthrough, .context, .events, .actions, .routes, .values, .byNumber] ++ if o.names then [.byName] else []

/-- The memory a call asks for, in order: a context, its tables, the fallthrough rule, the built-in action. -/
def demand (o : Opts) : List Block :=
  [.context, .events, .actions, .routes, .values, .byNumber] ++ (if o.names then [.byName] else []) ++ [.fallthrough, .builtin]

/-- The first allocation refused is number `j`. -/
def FirstRefused (v : Env) (j : Nat) : Prop := v.mem j = false ∧ ∀ i, i < j → v.mem i = true

/-- The caller supplies an allocator and a clock, or leaves them to a library that has its own; what is supplied is complete, the two
aligned calls come together, and are there if private data is to be aligned. -/
def Complete (o : Opts) (h : Option Hpi) (aligned : Bool) : Prop :=
  (match h with
   | some h => if h.malloc then h.free ∧ h.realloc ∧ (h.memalign ↔ h.freeAligned) ∧ (aligned → h.memalign) else o.mallocBuiltins
   | none => o.mallocBuiltins) ∧
  (match h with
   | some h => if h.getTime then h.diffTime ∧ h.addTime ∧ h.toEpoch ∧ h.fromEpoch ∧ h.intervalTo ∧ h.intervalFrom else o.clockBuiltins
   | none => o.clockBuiltins)

/-- The build settings inside the caller's table of callbacks are empty or those given to the call. -/
def SameSettings (caller : RT.Build) (h : Option Hpi) : Prop :=
  ∀ x, h = some x → (x.settings.version = 0 ∧ x.settings.config = 0) ∨ x.settings = caller

/-- Nothing about the arguments speaks against making a context. -/
def Acceptable (o : Opts) (lib caller : RT.Build) (h : Option Hpi) (v : Env) : Prop :=
  RT.compatible lib caller = .ok ∧ SameSettings caller h ∧ v.confCheck = .ok () ∧ Complete o h v.aligned

/-- The entries of all tables. -/
def entries (w : World) : List Nat := w.routes ++ w.actions ++ w.events ++ w.values ++ w.families

/-- The references the rule table itself holds. -/
def own (w : World) : List Nat := w.fallthrough.toList ++ w.default.toList

/-- A context between two calls: the objects came about by a history of reference-counted operations, no drop is under way, the tables'
entries are the objects marked so, and the rule table's own references are among those handed out. -/
structure Settled (w : World) : Prop where
  reach : Reach w.heap
  quiet : w.heap.dropping = []
  nodup : (entries w).Nodup
  marked : ∀ x, (w.heap.objs x).inTable = true ↔ x ∈ entries w
  owned : ∀ x, (own w).count x ≤ w.heap.handles x

/-- Some caller still holds the object, or an object that refers to it. -/
inductive Kept (w : World) : Nat → Prop where
  | held (x : Nat) (h : (own w).count x < w.heap.handles x) : Kept w x
  | through (y x : Nat) (hy : Kept w y) (hx : x ∈ (w.heap.objs y).refs) : Kept w x

/-- No object refers to itself, directly or through others: along references some number grows. -/
def NoCycle (h : Heap) : Prop := ∃ r : Nat → Nat, ∀ y x, x ∈ (h.objs y).refs → r x < r y

end WS.Spec.CL
