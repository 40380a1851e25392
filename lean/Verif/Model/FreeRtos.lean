import Verif.Model.Time
/-
Semaphores on FreeRTOS (src/wolfsentry_util.c:764-774, 1081-1424): the clock in ticks, arithmetic on `struct timespec`, and the timed wait.

`hz` is `configTICK_RATE_HZ`, `tb` the number of bits of `TickType_t` (32 or 64); `time_t`, `long` and `long long` have 64 bits.  The kernel's
semaphore is known by when it can be taken.
-/
namespace WS.FreeRtos
open WS WS.Time

/-- `struct timespec`. -/
structure Ts where
  sec : Int
  nsec : Int
  deriving DecidableEq, Repr

/-- `FREERTOS_NANOSECONDS_PER_SECOND`, `FREERTOS_NANOSECONDS_PER_TICK` (wolfsentry/wolfsentry_settings.h:104-105). -/
def NS : Int := 1000000000
def nsPerTick (hz : Nat) : Int := NS.tdiv hz

/-- The count of ticks since the start, from the state the kernel keeps (src/wolfsentry_util.c:768-770); a shift by the full width of
`uint64_t` is undefined (`none`). -/
def tickCount (tb overflows entering : Nat) : Option Nat :=
  if tb < 64 then some ((overflows * 2 ^ tb + entering) % 2 ^ 64) else none

/-- `freertos_now` at the tick `t` (src/wolfsentry_util.c:772-773). -/
def now (hz t : Nat) : Ts := ⟨((t / hz : Nat) : Int), ((((t % hz) * 1000000000) % 2 ^ 64 / hz : Nat) : Int)⟩

/-- `UTILS_TimespecCompare` of two structures (src/wolfsentry_util.c:1118-1164). -/
def compare (x y : Ts) : Int :=
  if x.sec > y.sec then 1
  else if x.sec < y.sec then -1
  else if x.nsec > y.nsec then 1
  else if x.nsec < y.nsec then -1
  else 0

/-- The results of the arithmetic: success, an error number, or undefined behaviour. -/
inductive R (α : Type) where
  | ok (a : α)
  | einval (a : α)
  | etimedout
  | ub
  deriving DecidableEq, Repr

/-- `UTILS_TimespecSubtract` (src/wolfsentry_util.c:1166-1215): `etimedout` is its status 1 (`x < y`), `einval` its status -1.  The result
structure is written in the latter case too. -/
def subtract (x y : Ts) : R Ts :=
  if compare x y = -1 then .etimedout
  else if compare x y = 0 then .ok ⟨0, 0⟩
  else
    match chk (x.sec - y.sec), chk (x.nsec - y.nsec) with
    | .ok s, .ok n =>
      let s' := if n < 0 then s - 1 else s
      let n' := if n < 0 then n + NS else n
      if n' < 0 then .einval ⟨s', n'⟩ else .ok ⟨s', n'⟩
    | _, _ => .ub

/-- `UTILS_ValidateTimespec` (src/wolfsentry_util.c:1217-1232). -/
def valid (x : Ts) : Bool := 0 ≤ x.nsec ∧ x.nsec < NS

/-- `UTILS_TimespecToTicks` (src/wolfsentry_util.c:1234-1292).  `einval d`: the error, with `d` written to the result all the same
(`none`: not written). -/
def toTicks (hz tb : Nat) (x : Ts) : R (Option Nat) :=
  if !valid x then .einval none
  else
    match chk (hz * x.sec) with
    | .ok t =>
      match chk (t + (x.nsec.tdiv (nsPerTick hz) + if x.nsec.tmod (nsPerTick hz) ≠ 0 then 1 else 0)) with
      | .ok total =>
        let d := (total % 2 ^ tb).toNat
        if total < 0 then .einval (some d)
        else if tb = 32 ∧ total > 2 ^ 32 - 1 then .einval (some d)
        else .ok (some d)
      | _ => .ub
    | _ => .ub

/-- `UTILS_AbsoluteTimespecToDeltaTicks` (src/wolfsentry_util.c:1294-1329). -/
def deltaTicks (hz tb : Nat) (abs cur : Ts) : R (Option Nat) :=
  match subtract abs cur with
  | .etimedout => .etimedout
  | .einval _ => .einval none
  | .ub => .ub
  | .ok d => toTicks hz tb d

/-- The kernel's `xSemaphoreTake`, called at tick `t0`: `avail` is the tick from which on the semaphore can be taken by this caller, if
ever.  `none`: it waits for ever. -/
def take (tb : Nat) (avail : Option Nat) (t0 delay : Nat) : Option (Bool × Nat) :=
  match avail with
  | some t =>
    if t ≤ t0 then some (true, t0)
    else if delay = 2 ^ tb - 1 ∨ t < t0 + delay then some (true, t)
    else some (false, t0 + delay)
  | none => if delay = 2 ^ tb - 1 then none else some (false, t0 + delay)

/-- How a wait ends. -/
inductive Wait where
  | taken (t : Nat)
  | failed (e : Err) (t : Nat)
  | forever
  | ub
  deriving DecidableEq, Repr

/-- `errno` of a failure: EINVAL, ETIMEDOUT, EAGAIN as the library's codes. -/
def waitEnd (tb : Nat) (avail : Option Nat) (t0 delay : Nat) (e : Err) : Wait :=
  match take tb avail t0 delay with
  | none => .forever
  | some (true, t) => .taken t
  | some (false, t) => .failed e t

/-- `freertos_sem_timedwait` (src/wolfsentry_util.c:1331-1383).  The clock is read at tick `t1`, the semaphore taken from tick `t0`
on.  `xDelay` starts as `portMAX_DELAY`. -/
def timedwait (hz tb : Nat) (avail : Option Nat) (t1 t0 : Nat) (abs : Option Ts) : Wait :=
  match abs with
  | none => waitEnd tb avail t0 (2 ^ tb - 1) .timedOut
  | some a =>
    if !valid a then waitEnd tb avail t0 0 .invalidArg
    else
      match deltaTicks hz tb a (now hz t1) with
      | .ub => .ub
      | .etimedout => waitEnd tb avail t0 0 .timedOut
      | .einval d => waitEnd tb avail t0 (d.getD (2 ^ tb - 1)) .invalidArg
      | .ok d => waitEnd tb avail t0 (d.getD (2 ^ tb - 1)) .timedOut

/-- `freertos_sem_wait` (src/wolfsentry_util.c:1387-1390). -/
def wait (hz tb : Nat) (avail : Option Nat) (t0 : Nat) : Wait := timedwait hz tb avail t0 t0 none

/-- `freertos_sem_trywait` (src/wolfsentry_util.c:1394-1412); `.busy` is EAGAIN. -/
def trywait (hz tb : Nat) (avail : Option Nat) (t1 t0 : Nat) : Wait :=
  match timedwait hz tb avail t1 t0 (some ⟨0, 0⟩) with
  | .failed .timedOut t => .failed .busy t
  | r => r

end WS.FreeRtos
