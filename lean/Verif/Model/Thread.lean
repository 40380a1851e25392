import Verif.Model.RwLock
import Verif.Model.Time
/-
Thread contexts: identities, deadlines, the read-only mark (src/wolfsentry_util.c:786-968), the queries
about a lock (src/wolfsentry_util.c:2941-3036), and what a deadline or the read-only mark does to a lock
call.
-/
namespace WS.Thread
open WS

/-- `wolfsentry_thread_id_t`: `pthread_t`, an unsigned long, or a `TaskHandle_t`
(wolfsentry/wolfsentry_settings.h:585-593), 64 bits.  `WOLFSENTRY_THREAD_NO_ID` is 0 (608). -/
abbrev Id := BitVec 64
def NO_ID : Id := 0#64

/-! ### identities -/

/-- A context structure in memory: not initialised; inside `wolfsentry_init_thread_context`, about to move
the counter back (803); initialised; inside `wolfsentry_destroy_thread_context`, about to try to give the
identity back (887).  `fb`: the identity comes from the counter. -/
inductive Slot where
  | absent
  | bumping (id : Id)
  | live (id : Id) (fb : Bool)
  | leaving (id : Id) (fb : Bool)
  deriving DecidableEq, Repr

/-- `fallback_thread_id_counter` (src/wolfsentry_util.c:786) and the contexts. -/
structure Ids where
  counter : Id := NO_ID
  slots : Nat → Slot := fun _ => .absent

/-- The identity where the counter is moved back (src/wolfsentry_util.c:806). -/
def WRAP : Id := NO_ID - 0xffffff#64

def setSlot (s : Ids) (k : Nat) (x : Slot) : Ids := { s with slots := fun j => if j = k then x else s.slots j }

/-- The atomic steps of `wolfsentry_init_thread_context` and `wolfsentry_destroy_thread_context` that touch
the counter. -/
inductive Step where
  /-- the host's answer, and the decrement if it has none (src/wolfsentry_util.c:794-796) -/
  | start (k : Nat) (host : Id)
  /-- the increment (src/wolfsentry_util.c:806-807) -/
  | bump (k : Nat)
  /-- the plain comparison (src/wolfsentry_util.c:886) -/
  | test (k : Nat)
  /-- the compare-and-exchange, and the end of the call (src/wolfsentry_util.c:887-891) -/
  | swap (k : Nat)
  deriving DecidableEq, Repr

/-- One step; `none` when the context is not at that point.  A context holds no lock when it is destroyed
(the tests of src/wolfsentry_util.c:869-880 are in `destroy`). -/
def idStep (s : Ids) : Step → Option Ids
  | .start k host =>
    match s.slots k with
    | .absent =>
      if host ≠ NO_ID then some (setSlot s k (.live host false))
      else
        let id := s.counter - 1#64
        let s' := { s with counter := id }
        some (setSlot s' k (if id = WRAP then .bumping id else .live id true))
    | _ => none
  | .bump k =>
    match s.slots k with
    | .bumping id => some (setSlot { s with counter := s.counter + 0xffffff#64 } k (.live id true))
    | _ => none
  | .test k =>
    match s.slots k with
    | .live id fb => some (setSlot s k (if id = s.counter then .leaving id fb else .absent))
    | _ => none
  | .swap k =>
    match s.slots k with
    | .leaving id _ =>
      some (setSlot (if s.counter = id then { s with counter := id + 1#64 } else s) k .absent)
    | _ => none

/-! ### the context -/

/-- `struct timespec`. -/
structure Ts where
  sec : Int
  nsec : Int
  deriving DecidableEq, Repr

/-- `WOLFSENTRY_DEADLINE_NEVER`, `WOLFSENTRY_DEADLINE_NOW` in both fields
(wolfsentry/wolfsentry_settings.h:499, 503). -/
def NEVER : Ts := ⟨-1, -1⟩
def NOW : Ts := ⟨-2, -2⟩

/-- `WOLFSENTRY_THREAD_FLAG_DEADLINE`, `WOLFSENTRY_THREAD_FLAG_READONLY`
(wolfsentry/wolfsentry.h, `wolfsentry_thread_flags_t`). -/
def DEADLINE : Flags := bit 0
def READONLY : Flags := bit 1

/-- `struct wolfsentry_thread_context` (src/wolfsentry_internal.h:72-89).  `trk`: the number of the tracked
lock; `cache` is never used. -/
structure Ctx where
  user : Option Nat := none
  deadline : Ts := ⟨0, 0⟩
  flags : Flags := 0
  id : Id := NO_ID
  trk : Option Nat := none
  dep : Int := 0
  sc : Int := 0
  mrc : Int := 0
  deriving DecidableEq, Repr

/-- `wolfsentry_init_thread_context` without concurrent calls (src/wolfsentry_util.c:788-812): the context, the counter, and
whether the result is `USED_FALLBACK`. -/
def initCtx (counter host : Id) (flags : Flags) (user : Option Nat) : Ctx × Id × Bool :=
  let c : Ctx := { user := user, deadline := NEVER, flags := flags, id := host }
  if host = NO_ID then
    let id := counter - 1#64
    ({ c with id := id }, (if id = WRAP then id + 0xffffff#64 else id), true)
  else (c, counter, false)

/-- `WOLFSENTRY_THREAD_ASSERT_INITED` (src/wolfsentry_internal.h:93-96). -/
def inited {α : Type} (c : Ctx) (k : Except Err α) : Except Err α := if c.id = NO_ID then .error .invalidArg else k

/-- `wolfsentry_destroy_thread_context` without concurrent calls (src/wolfsentry_util.c:866-893): the
context, the counter. -/
def destroy (counter : Id) (c : Ctx) : Except Err (Ctx × Id) :=
  inited c <|
  if c.sc > 0 then .error .busy
  else if c.sc < 0 then .error .internalCheckFatal
  else if c.mrc > 0 then .error .busy
  else if c.mrc < 0 then .error .internalCheckFatal
  else if c.dep ≠ 0 then .error .internalCheckFatal
  else if c.trk ≠ none then .error .internalCheckFatal
  else .ok ({}, if c.id = counter then c.id + 1#64 else counter)

/-- `wolfsentry_get_thread_id` with a place for the answer (src/wolfsentry_util.c:828-834). -/
def getId (c : Ctx) : Except Err Id := inited c (.ok c.id)

/-- `wolfsentry_get_thread_user_context` (src/wolfsentry_util.c:836-844). -/
def getUser (c : Ctx) : Except Err Nat :=
  inited c <| match c.user with
  | none => .error .invalidArg
  | some u => .ok u

/-- `wolfsentry_get_thread_deadline` (src/wolfsentry_util.c:846-856). -/
def getDeadline (c : Ctx) : Except Err Ts :=
  inited c (.ok (if !c.flags.has DEADLINE then NEVER else c.deadline))

/-- `wolfsentry_get_thread_flags` (src/wolfsentry_util.c:858-864). -/
def getFlags (c : Ctx) : Except Err Flags := inited c (.ok c.flags)

/-- The time callbacks of the context, as one call sees them: `wolfsentry_get_time`, `wolfsentry_add_time`,
`wolfsentry_to_epoch_time`. -/
structure Clock where
  now : Except Err Int
  add : Int → Int → Int
  epoch : Int → Except Err Ts

/-- `wolfsentry_set_deadline_rel_usecs` (src/wolfsentry_util.c:906-925).  A failing conversion to epoch time
leaves the structure alone. -/
def setDeadlineRel (T : Clock) (c : Ctx) (usecs : Int) : Except Err Ctx :=
  inited c <|
  if usecs < 0 then .error .invalidArg
  else if usecs > 0 then
    match T.now with
    | .error e => .error e
    | .ok now =>
      match T.epoch (T.add now usecs) with
      | .error e => .error e
      | .ok ts => .ok { c with deadline := ts, flags := c.flags ||| DEADLINE }
  else .ok { c with deadline := NOW, flags := c.flags ||| DEADLINE }

/-- `wolfsentry_set_deadline_abs` (src/wolfsentry_util.c:927-941). -/
def setDeadlineAbs (c : Ctx) (sec nsec : Int) : Except Err Ctx :=
  inited c <|
  if nsec < 0 ∨ nsec ≥ 1000000000 then .error .invalidArg
  else if sec = -1 ∨ sec = -2 then .error .invalidArg
  else .ok { c with deadline := ⟨sec, nsec⟩, flags := c.flags ||| DEADLINE }

/-- `wolfsentry_clear_deadline` (src/wolfsentry_util.c:943-951). -/
def clearDeadline (c : Ctx) : Except Err Ctx :=
  inited c (.ok { c with deadline := NEVER, flags := c.flags &&& ~~~DEADLINE })

/-- `wolfsentry_set_thread_readonly` (src/wolfsentry_util.c:953-960). -/
def setReadonly (c : Ctx) : Except Err Ctx :=
  inited c <|
  if c.mrc > 0 then .error .incompatibleState
  else .ok { c with flags := c.flags ||| READONLY }

/-- `wolfsentry_set_thread_readwrite` (src/wolfsentry_util.c:962-969). -/
def setReadwrite (c : Ctx) : Except Err Ctx :=
  inited c <|
  if c.sc > c.dep then .error .incompatibleState
  else .ok { c with flags := c.flags &&& ~~~READONLY }

/-! ### what a deadline does to a lock call -/

/-- The `abs_timeout` pointer: NULL, `&timespec_deadline_now`, or a structure of the caller's or of the
thread context. -/
inductive Timeout where
  | none
  | constNow
  | at_ (ts : Ts)
  deriving DecidableEq, Repr

/-- The substitution at the head of the lock calls (src/wolfsentry_util.c:1698-1702, 1996-2001, 2309-2313,
2573-2577). -/
def effective (c : Ctx) (t : Timeout) : Timeout :=
  if t = .none ∧ c.flags.has DEADLINE then .at_ c.deadline else t

/-- `sem_timedwait` on a semaphore that nobody posts, of value `v` (POSIX: the structure is looked at only
if the call has to wait; EINVAL if the nanoseconds are out of range). -/
inductive SemRes where
  | got | einval | etimedout
  deriving DecidableEq, Repr
def semTimedwait (v : Nat) (ts : Ts) : SemRes :=
  if 0 < v then .got
  else if ts.nsec < 0 ∨ ts.nsec ≥ 1000000000 then .einval
  else .etimedout

/-- What a lock call by a thread without holdings returns when another thread has the lock exclusively and
keeps it, and `lock->sem` is free (src/wolfsentry_util.c:1716-1803 shared, 2003-2094 exclusive); `none`: it
waits for ever. -/
def contended (t : Timeout) : Option Err :=
  match t with
  | .none => none
  | .constNow => some .busy
  | .at_ ts =>
    match semTimedwait 1 ts with      -- lock->sem
    | .einval => some .invalidArg
    | .etimedout => some .timedOut
    | .got =>
      match semTimedwait 0 ts with    -- the waiters' semaphore
      | .etimedout => some .timedOut
      | _ => some .sysOpFatal

/-- The same when `lock->sem` itself is taken and not given back (src/wolfsentry_util.c:1716-1738). -/
def contendedSem (t : Timeout) : Option Err :=
  match t with
  | .none => none
  | .constNow => some .busy
  | .at_ ts =>
    match semTimedwait 0 ts with
    | .einval => some .invalidArg
    | .etimedout => some .timedOut
    | .got => none

end WS.Thread

namespace WS.RW
open WS

/-! ### queries -/

/-- What the queries return: the success codes `HAVE_READ_LOCK`, `HAVE_MUTEX`, `YES`, `NO`, plain `OK`, or an
error; `NOT_OK` is an error of its own. -/
inductive Ans where
  | haveRead | haveMutex | yes | no | ok | notOk | err (e : Err)
  deriving DecidableEq, Repr

/-- `wolfsentry_lock_have_shared` (src/wolfsentry_util.c:2941-2975) of an initialised lock. -/
def haveShared (l : Lock) (x : Thr) (ro : Bool) : Ans :=
  if l.st ≠ .shared then .err .lackingReadLock
  else if ro then
    if x.trk then .haveRead else if x.sc > 0 then .ok else .err .lackingReadLock
  else if x.trk then .haveRead else .err .lackingReadLock

/-- `wolfsentry_lock_have_mutex` (src/wolfsentry_util.c:2977-2999). -/
def haveMutex (t : Tid) (l : Lock) : Ans :=
  if l.st = .exclusive then
    if l.wh = some t then .haveMutex else .err .notPermitted
  else .err .lackingMutex

/-- `wolfsentry_lock_have_either` with a thread context (src/wolfsentry_util.c:3001-3017). -/
def haveEither (t : Tid) (l : Lock) (x : Thr) (ro : Bool) : Ans :=
  match haveShared l x ro with
  | .err .lackingReadLock =>
    match haveMutex t l with
    | .err .notPermitted | .err .lackingMutex => .err .lackingReadLock
    | a => a
  | a => a

/-- `wolfsentry_lock_have_shared2mutex_reservation` (src/wolfsentry_util.c:3019-3027). -/
def haveReservation (t : Tid) (l : Lock) : Ans := if l.rh = some t then .ok else .notOk

/-- `wolfsentry_lock_shared2mutex_is_reserved` (src/wolfsentry_util.c:3029-3037). -/
def isReserved (l : Lock) : Ans := if l.rh = none then .no else .yes

/-! ### read-only threads -/

/-- The entry of a call by a thread marked read-only: the tests of `THREAD_FLAG_READONLY`
(src/wolfsentry_util.c:1688-1692 with 1937-1938, 1817 and 1856, 1934-1939, 2245-2246, 2552-2553).  A request
for a reservation if there is one to be had is dropped, and the call continues as one without. -/
def callRo (t : Tid) (l : Lock) (x : Thr) : Op → Out
  | .lockShared r w nrs nrm =>
    if l.wh = some t then fin l x (.err .notPermitted)
    else if r = .get then fin l x (.err .incompatibleState)
    else if nrs && x.trk then fin l x (.err .already)
    else goto l { x with cur := .lockShared .no w nrs nrm } (.shCS .no w)
  | .lockMutex _ _ | .reserve | .shared2mutex _ => fin l x (.err .notPermitted)
  | op => callOp t l x op

/-- A system of threads with read-only marks. -/
structure SysRo where
  s : Sys := {}
  ro : Tid → Bool := fun _ => false

/-- One step: a step of a call, the call itself under the caller's mark, or a change of the mark
(`wolfsentry_set_thread_readonly`, `wolfsentry_set_thread_readwrite`: src/wolfsentry_util.c:953-969), which
is refused with a mutex or reservation held, or with shared locks other than the tracked one. -/
inductive ChoiceRo where
  | lock (c : Choice) | setRo | setRw
  deriving DecidableEq, Repr

def stepRo (y : SysRo) (t : Tid) : ChoiceRo → Option SysRo
  | .lock (.call op) =>
    if (y.s.th t).pc = .idle then
      let x := { y.s.th t with cur := op }
      some { y with s := commit y.s t (if y.ro t then callRo t y.s.l x op else callOp t y.s.l x op) }
    else none
  | .lock c => (step y.s t c).map fun s => { y with s := s }
  | .setRo =>
    if (y.s.th t).pc = .idle then
      if (y.s.th t).mrc > 0 then some y else some { y with ro := upd y.ro t true }
    else none
  | .setRw =>
    if (y.s.th t).pc = .idle then
      if (y.s.th t).sc > (y.s.th t).dep then some y else some { y with ro := upd y.ro t false }
    else none

end WS.RW
