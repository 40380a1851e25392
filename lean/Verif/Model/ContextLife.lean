import Verif.Model.RefCount
import Verif.Model.ResultText
/-
Making and shutting down a context (src/wolfsentry_util.c:3478-3711, 3805-3851; src/routes.c:1066-1095, 4671-4686;
src/wolfsentry_internal.c:529-562, 623-644; src/action_builtins.c:135-151).

The blocks of memory a context consists of are named; the objects in its tables are those of `Model/RefCount.lean`.
Handlers called on the way (cleanup hooks, delete actions) are left out (`Model/Cleanup.lean`, `Model/RouteOps.lean`), so are the
time conversions of the configuration (`Model/EventConf.lean`).
-/
namespace WS.CL

/-- The build: `WOLFSENTRY_THREADSAFE`, `WOLFSENTRY_PROTOCOL_NAMES`, and the built-in allocator and clock. -/
structure Opts where
  threads : Bool
  names : Bool
  mallocBuiltins : Bool := true
  clockBuiltins : Bool := true

/-- The blocks: the context, its tables, the fallthrough rule and the built-in action. -/
inductive Block where
  | context | events | actions | routes | values | byNumber | byName | fallthrough | builtin
  deriving DecidableEq, Repr

/-- `struct wolfsentry_host_platform_interface`: which callbacks are there (`true`: not NULL). -/
structure Hpi where
  settings : RT.Build := ⟨0, 0⟩
  malloc : Bool := true
  free : Bool := true
  realloc : Bool := true
  memalign : Bool := true
  freeAligned : Bool := true
  getTime : Bool := true
  diffTime : Bool := true
  addTime : Bool := true
  toEpoch : Bool := true
  fromEpoch : Bool := true
  intervalTo : Bool := true
  intervalFrom : Bool := true

/-- The surroundings of one call: which allocations are granted, whether the lock can be made (`Model/LockLife.lean`), and what
`wolfsentry_eventconfig_check` says about the configuration given (`Model/EventConf.lean`). -/
structure Env where
  mem : Nat → Bool
  lockInit : Except Err Unit := .ok ()
  confCheck : Except Err Unit := .ok ()
  /-- `config && config->route_private_data_alignment > 0` -/
  aligned : Bool := false

inductive Ret where
  | ok
  | err (e : Err)
  | mismatch
  deriving DecidableEq, Repr

/-- What a call leaves behind: its result, the blocks still allocated, whether `*wolfsentry` was set to a context, and whether
memory was read that nobody had written. -/
structure Out where
  ret : Ret
  live : List Block := []
  handle : Bool := false
  uninit : Bool := false
  deriving DecidableEq

/-- `wolfsentry_context_free_1` (src/wolfsentry_util.c:3478-3512) on a context that owns `live`.  `mutex`: the caller holds the
context's lock for writing.  `written`: the tables have been zeroed; otherwise `wolfsentry_route_table_free`
(src/routes.c:4671-4686) reads pointers nobody wrote.  The call unlocks and destroys the lock; whether that succeeds is
`Model/LockLife.lean`, here it does. -/
def free1 (o : Opts) (mutex written : Bool) (live : List Block) : List Block × Bool :=
  if o.threads && !mutex then (live, false)
  else if live.contains .routes && !written then (live, true)
  else (live.filter (fun b => b == .builtin), false)

/-- The tables in the order in which they are allocated (src/wolfsentry_util.c:3564-3572). -/
def tables (o : Opts) : List Block :=
  [.events, .actions, .routes, .values, .byNumber] ++ if o.names then [.byName] else []

/-- The chain of allocations: the blocks obtained, and whether all were (src/wolfsentry_util.c:3564-3572). -/
def allocTables (mem : Nat → Bool) : Nat → List Block → List Block × Bool
  | _, [] => ([], true)
  | n, b :: bs =>
    if mem n then ((b :: (allocTables mem (n + 1) bs).1), (allocTables mem (n + 1) bs).2) else ([], false)

/-- A failing call that first tries to undo what it did. -/
def undo (o : Opts) (e : Err) (written : Bool) (live : List Block) : Out :=
  let r := free1 o false written live
  { ret := .err e, live := r.1, handle := !r.1.isEmpty || r.2, uninit := r.2 }

/-- `wolfsentry_context_alloc_1` with `wolfsentry_context_init_1` (src/wolfsentry_util.c:3514-3601).  The pairing of the two family
tables and the initialisation of the tables cannot fail on zeroed tables. -/
def contextAlloc (o : Opts) (v : Env) : Out :=
  if !v.mem 0 then { ret := .err .sysResourceFailed }
  else
    let t := allocTables v.mem 1 (tables o)
    if !t.2 then undo o .sysResourceFailed false (.context :: t.1)
    else
      match (if o.threads then v.lockInit else .ok ()) with
      | .error e => undo o e true (.context :: t.1)
      | .ok () => { ret := .ok, live := .context :: t.1, handle := true }

/-- The allocator and clock in force (src/wolfsentry_util.c:3637-3680): the user's if given, otherwise the built-in ones. -/
def checkHpi (o : Opts) (h : Option Hpi) (aligned : Bool) : Option Ret :=
  let alloc : Option (Bool × Bool × Bool × Bool × Bool) :=
    match h with
    | some h => if h.malloc then some (h.malloc, h.free, h.realloc, h.memalign, h.freeAligned)
        else if o.mallocBuiltins then some (true, true, true, true, true) else none
    | none => if o.mallocBuiltins then some (true, true, true, true, true) else none
  let clock : Option Bool :=
    match h with
    | some h => if h.getTime then some (h.getTime && h.diffTime && h.addTime && h.toEpoch && h.fromEpoch && h.intervalTo && h.intervalFrom)
        else if o.clockBuiltins then some true else none
    | none => if o.clockBuiltins then some true else none
  match alloc with
  | none => some (.err .implementationMissing)
  | some (m, f, r, ma, fa) =>
    if !m || !f || !r then some (.err .invalidArg)
    else if ma != fa then some (.err .invalidArg)
    else match clock with
      | none => some (.err .implementationMissing)
      | some false => some (.err .invalidArg)
      | some true => if !ma && aligned then some (.err .invalidArg) else none

/-- The number of blocks `contextAlloc` asks for. -/
def nAlloc (o : Opts) : Nat := 1 + (tables o).length

/-- `wolfsentry_init_ex` (src/wolfsentry_util.c:3603-3711).  `lib` is the library's own build. -/
def init (o : Opts) (lib caller : RT.Build) (h : Option Hpi) (v : Env) : Out :=
  match RT.compatible lib caller with
  | .invalidArg => { ret := .err .invalidArg }
  | .libMismatch => { ret := .err .libMismatch }
  | .libconfigMismatch => { ret := .mismatch }
  | .ok =>
    if h.any (fun h => (h.settings.version != 0 || h.settings.config != 0) &&
        (h.settings.version != caller.version || h.settings.config != caller.config)) then { ret := .err .invalidArg }
    else match v.confCheck with
      | .error e => { ret := .err e }
      | .ok () =>
        match checkHpi o h v.aligned with
        | some r => { ret := r }
        | none =>
          let a := contextAlloc o v
          match a.ret with
          | .ok =>
            -- wolfsentry_route_table_fallthrough_route_alloc
            if !v.mem (nAlloc o) then undo o .sysResourceFailed true a.live
            -- wolfsentry_action_insert_builtins
            else if !v.mem (nAlloc o + 1) then undo o .sysResourceFailed true (.fallthrough :: a.live)
            else { ret := .ok, live := .builtin :: .fallthrough :: a.live, handle := true }
          | _ => a

/-! ### shutting down -/

/-- Pending drops are executed until none is left; `n` bounds their number. -/
def drain : Nat → RC.Heap → RC.Heap
  | 0, h => h
  | n + 1, h =>
    match h.dropping with
    | [] => h
    | x :: _ => drain n (RC.decrement h x).1

/-- The references there are to give up: those being dropped and those held by the objects below `n`. -/
def pending (h : RC.Heap) : Nat → Nat
  | 0 => h.dropping.length
  | n + 1 => pending h n + (h.objs n).refs.length

/-- One entry leaves its table and loses the table's reference, with all that follows (src/wolfsentry_internal.c:544-559,
src/routes.c:2161-2230). -/
def freeEnt (h : RC.Heap) (x : Nat) : RC.Heap :=
  let h' := (RC.step h (.removeTable x)).1
  drain (pending h' h'.next) h'

/-- `wolfsentry_table_free_ents` and `wolfsentry_route_flush_table` (src/wolfsentry_internal.c:529-562, src/routes.c:3176-3195): all
entries, from the head. -/
def freeEnts (h : RC.Heap) (xs : List Nat) : RC.Heap := xs.foldl freeEnt h

/-- A context in use: its blocks, its objects, the entries of its tables in order, and the fallthrough rule and the default
event, whose references are among the handles. -/
structure World where
  blocks : List Block
  heap : RC.Heap
  routes : List Nat := []
  actions : List Nat := []
  events : List Nat := []
  values : List Nat := []
  families : List Nat := []
  fallthrough : Option Nat := none
  default : Option Nat := none

/-- The context `wolfsentry_init_ex` hands out: the fallthrough rule and the built-in action are its first objects. -/
def fresh (out : Out) : World :=
  { blocks := out.live.filter (fun b => b != .fallthrough && b != .builtin)
    heap := (RC.step (RC.step (RC.step {} .create).1 .create).1 (.insertTable 1)).1
    actions := [1]
    fallthrough := some 0 }

/-- The lock of the context as `wolfsentry_shutdown` finds it after acquiring it for writing: the number of the caller's nested
holds, and the numbers of waiting readers and writers. -/
structure Lock where
  holds : Nat := 1
  readers : Nat := 0
  writers : Nat := 0

/-- A reference of the rule table is given up (src/routes.c:4675-4682). -/
def giveUp (h : RC.Heap) : Option Nat → RC.Heap
  | none => h
  | some e =>
    let h' := (RC.step h (.giveUp e)).1
    drain (pending h' h'.next) h'

/-- `wolfsentry_shutdown` with `wolfsentry_context_free` (src/wolfsentry_util.c:3805-3851) and `wolfsentry_route_table_free`
(src/routes.c:4671-4686).  `lk` is what the acquisition of the lock gave; without threads there is no lock. -/
def shutdown (o : Opts) (lk : Except Err Lock) (w : World) : Except Err Unit × World :=
  match (if o.threads then lk else .ok {}) with
  | .error e => (.error e, w)
  | .ok l =>
    if l.holds ≠ 1 ∨ l.readers ≠ 0 ∨ l.writers ≠ 0 then (.error .busy, w)
    else
      let h1 := freeEnts w.heap w.routes
      let h2 := freeEnts h1 w.actions
      let h3 := freeEnts h2 w.events
      let h4 := freeEnts h3 w.values
      let h5 := freeEnts h4 w.families
      let h6 := giveUp (giveUp h5 w.fallthrough) w.default
      (.ok (), { blocks := (free1 o true true w.blocks).1, heap := h6 })

end WS.CL
