import Verif.Model.Basic
/-
The compare-and-swap loops of wolfsentry/wolfsentry_util.h:193-286, run by any number of threads
under any schedule, and the counter functions built from them (src/routes.c:1601-1624, 3330-3411).

Every loop has the same shape: read the variable; compute the new value from the value read; if it
equals the value read (no change, or overflow/underflow refused), stop; otherwise CAS, and on
failure start over with the value the CAS reported.  Memory order is SEQ_CST for the CAS.
Simplification: the initial plain read `_pre_i = (i)` is taken to be atomic and sequentially
consistent, and computation local to a thread happens in the same step as the read before it.
-/
namespace WS.Atomic

/-- One invocation of an atomic macro on an unsigned variable. -/
inductive Op where
  /-- `WOLFSENTRY_ATOMIC_UPDATE_FLAGS` (wolfsentry/wolfsentry_util.h:193-208), 32-bit words. -/
  | updateFlags (set clear : Flags)
  /-- `WOLFSENTRY_ATOMIC_RESET` (212-226). -/
  | reset
  /-- `WOLFSENTRY_ATOMIC_INCREMENT_UNSIGNED_SAFELY` (230-252). -/
  | inc (x : Nat)
  /-- `WOLFSENTRY_ATOMIC_DECREMENT_UNSIGNED_SAFELY` (259-281). -/
  | dec (x : Nat)
  deriving DecidableEq, Repr

/-- What one pass of the loop body computes from the value read: the value to store and what the
macro reports (`post` for flags/increment/decrement, `pre` for reset).  `max` is `MAX_UINT_OF(i)`. -/
def Op.eval (max : Nat) (v : Nat) : Op → Nat × Nat
  | .updateFlags set clear =>
    let post := (Flags.setClear (BitVec.ofNat 32 v) set clear).toNat
    (post, post)
  | .reset => (0, v)
  | .inc x => if max - v < x then (v, 0) else (v + x, v + x)
  | .dec x => if v < x then (v, max) else (v - x, v - x)

/-- Where a thread is inside its loop. -/
inductive PC where
  | idle
  /-- about to CAS from `pre` (the value it last saw) -/
  | cas (op : Op) (pre : Nat)
  deriving DecidableEq, Repr

/-- The shared variable and all threads. -/
structure St where
  value : Nat
  pcs : List PC
  deriving DecidableEq, Repr

/-- A completed invocation: which operation, and what it reported. -/
structure Done where
  op : Op
  result : Nat
  deriving DecidableEq, Repr

/-- The thread has just seen value `v` (initial read, or failed CAS): finish without writing when
there is nothing to write, else go to the CAS. -/
def afterRead (max : Nat) (v : Nat) (op : Op) : PC × Option Done :=
  let (v', r) := op.eval max v
  if v' = v then (.idle, some ⟨op, r⟩) else (.cas op v, none)

/-- A scheduler choice: thread number, and the operation it starts if it is idle. -/
abbrev Choice := Nat × Op

/-- One atomic step of one thread.  (No such thread: nothing happens.) -/
def step (max : Nat) (st : St) (c : Choice) : St × Option Done :=
  match st.pcs[c.1]? with
  | none => (st, none)
  | some .idle =>
    let (pc, d) := afterRead max st.value c.2
    ({ st with pcs := st.pcs.set c.1 pc }, d)
  | some (.cas op pre) =>
    if st.value = pre then
      let (v', r) := op.eval max pre
      ({ value := v', pcs := st.pcs.set c.1 .idle }, some ⟨op, r⟩)
    else
      let (pc, d) := afterRead max st.value op
      ({ st with pcs := st.pcs.set c.1 pc }, d)

/-- Run a schedule; collects the completed invocations in completion order. -/
def run (max : Nat) (st : St) : List Choice → St × List Done
  | [] => (st, [])
  | c :: cs =>
    let (st', d) := step max st c
    let (st'', ds) := run max st' cs
    (st'', d.toList ++ ds)

/-! ### Sequential counter functions -/

/-- `wolfsentry_route_increment_derogatory_count` (src/routes.c:3330-3354) and
`wolfsentry_route_increment_commendable_count` (3356-3380), run without interference on a 16-bit
counter: new counter and result.  `INT_MIN` (negation overflows in C) is outside the model. -/
def incrementCount (v : Nat) (countToAdd : Int) : Nat × Except Err Nat :=
  if countToAdd > 0 then
    let (v', r) := (Op.inc countToAdd.toNat).eval 65535 v
    if r = 0 then (v', .error .overflowAverted) else (v', .ok r)
  else
    let (v', r) := (Op.dec (-countToAdd).toNat).eval 65535 v
    if r = 65535 then (v', .error .overflowAverted) else (v', .ok r)

/-- `wolfsentry_route_increment_hitcount` (src/routes.c:1601-1624): 32-bit hit counter and rule
flags.  (`update_flags` cannot refuse `DONT_COUNT_HITS`; the `UPDATE` action result is left out.) -/
def incrementHitcount (flags : Flags) (hit : Nat) : Flags × Nat :=
  if flags.has RF.DONT_COUNT_HITS then (flags, hit)
  else
    let (hit', post) := (Op.inc 1).eval 4294967295 hit
    if post = 0 then (flags ||| RF.DONT_COUNT_HITS, hit') else (flags, hit')

end WS.Atomic
