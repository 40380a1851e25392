import Verif.Model.Basic
/-
Counting of concurrent connections on one rule in `wolfsentry_route_event_dispatch_0`
(src/routes.c:2486-2509), executed by any number of threads under any schedule.  The counter is a
`uint16_t` (src/wolfsentry_internal.h:370), the configured maximum a `uint32_t`
(wolfsentry/wolfsentry.h:1217).
-/
namespace WS.Conn

/-- Where a thread is inside the counting code. -/
inductive PC where
  | idle
  /-- passed `connection_count >= max_connection_count` (2488), about to increment (2493) -/
  | checked
  /-- its increment overshot, about to decrement (2494) -/
  | over
  /-- in the decrement loop of 2505, about to CAS from `pre` -/
  | disc (pre : Nat)
  deriving DecidableEq, Repr

/-- What a completed dispatch told its caller. -/
inductive Outcome where
  | admitted | rejected | disconnected | underflow
  deriving DecidableEq, Repr

/-- Shared counter, threads, and the callers' side: `open_` counts the connections that were
admitted and for which no disconnect has been dispatched yet. -/
structure St where
  count : Nat := 0
  pcs : List PC
  open_ : Nat := 0
  deriving DecidableEq, Repr

/-- What an idle thread is asked to do. -/
inductive Req where
  | connect | disconnect
  deriving DecidableEq, Repr

/-- The thread has just read `v` in the safe-decrement macro
(wolfsentry/wolfsentry_util.h:259-281 with x = 1). -/
def discRead (v : Nat) : PC × Option Outcome :=
  if v < 1 then (.idle, some .underflow) else (.disc v, none)

/-- One atomic step of thread `i`.  A disconnect is only dispatched for an admitted connection
(`0 < open_`): that is the obligation of the callers. -/
def step (max : Nat) (st : St) (i : Nat) (rq : Req) : St × Option Outcome :=
  match st.pcs[i]? with
  | none => (st, none)
  | some .idle =>
    match rq with
    | .connect =>
      if st.count ≥ max then (st, some .rejected)
      else ({ st with pcs := st.pcs.set i .checked }, none)
    | .disconnect =>
      if st.open_ = 0 then (st, none)
      else
        let (pc, o) := discRead st.count
        ({ st with pcs := st.pcs.set i pc, open_ := st.open_ - 1 }, o)
  | some .checked =>
    let c := (st.count + 1) % 65536
    if c > max then ({ st with count := c, pcs := st.pcs.set i .over }, none)
    else ({ count := c, pcs := st.pcs.set i .idle, open_ := st.open_ + 1 }, some .admitted)
  | some .over =>
    ({ st with count := (st.count + 65535) % 65536, pcs := st.pcs.set i .idle }, some .rejected)
  | some (.disc pre) =>
    if st.count = pre then
      ({ st with count := pre - 1, pcs := st.pcs.set i .idle }, some .disconnected)
    else
      let (pc, o) := discRead st.count
      ({ st with pcs := st.pcs.set i pc }, o)

/-- Run a schedule, collecting the outcomes of completed dispatches. -/
def run (max : Nat) (st : St) : List (Nat × Req) → St × List Outcome
  | [] => (st, [])
  | c :: cs =>
    let (st', o) := step max st c.1 c.2
    let (st'', os) := run max st' cs
    (st'', o.toList ++ os)

/-- `n` idle threads, a fresh rule. -/
def init (n : Nat) : St := { pcs := List.replicate n .idle }

end WS.Conn
