import Verif.Model.Basic
/-
The readers/writer lock of wolfSentry (src/wolfsentry_util.c:1678-2939, struct
src/wolfsentry_internal.h:49-68, per-thread bookkeeping 72-89), executed by any number of threads
under any schedule.

Granularity.  Every section of code between `sem_wait(&lock->sem)` and `sem_post(&lock->sem)` is one
atomic step: `lock->sem` is a binary semaphore and all of those sections exclude each other.  The
lock-free code before such a section (tests of `state`, `write_lock_holder`,
`read2write_reservation_holder` at function entry), the waits on the three waiter semaphores, the
stores after a wake-up, and the lock-free recursion (`++lock->holder_count.write`,
`--lock->holder_count.write`) are separate steps, so other threads run in between.  The lock-free
loads of one function entry form one step: each compares with the calling thread's own ID, which
only that thread's steps (or a grant while it waits) can change.

Simplifications: one lock, so `thread->tracked_shared_lock` is NULL or this lock (`trk`); every
caller passes a thread context without `THREAD_FLAG_READONLY`; `RETAIN_SEMAPHORE` (interrupt
handlers) is left out; semaphore operations do not fail except by timing out; `EINTR` is the same as
a time-out where the code treats it so and is retried where the code retries; a thread's `DEADLINE`
is a timed wait; counters are unbounded integers instead of `int`.
-/
namespace WS.RW

abbrev Tid := Nat

/-- `enum wolfsentry_rwlock_state` (src/wolfsentry_internal.h:40-47) of an initialised lock. -/
inductive LState where
  | unlocked | shared | exclusive
  deriving DecidableEq, Repr

/-- `struct wolfsentry_rwlock` (src/wolfsentry_internal.h:49-68).  `hc` is the union
`holder_count.read`/`holder_count.write`; `semR`, `semW`, `semX` are the values of
`sem_read_waiters`, `sem_write_waiters`, `sem_read2write_waiters`; `none` is
`WOLFSENTRY_THREAD_NO_ID`. -/
structure Lock where
  st : LState := .unlocked
  hc : Int := 0
  wh : Option Tid := none
  rh : Option Tid := none
  rw : Int := 0
  ww : Int := 0
  r2w : Int := 0
  prom : Int := 0
  semR : Nat := 0
  semW : Nat := 0
  semX : Nat := 0
  deriving DecidableEq, Repr

/-- The `abs_timeout` argument: NULL, `&timespec_deadline_now`, or a deadline. -/
inductive Wait where
  | block | now | timed
  deriving DecidableEq, Repr

/-- `GET_RESERVATION_TOO` / `TRY_RESERVATION_TOO` (wolfsentry/wolfsentry.h:367-369). -/
inductive Rsv where
  | no | get | try_
  deriving DecidableEq, Repr

/-- The API calls. `nrs`/`nrm` are `NONRECURSIVE_SHARED`/`NONRECURSIVE_MUTEX`. -/
inductive Op where
  | lockShared (r : Rsv) (w : Wait) (nrs nrm : Bool)
  | lockMutex (w : Wait) (nrm : Bool)
  | unlock (abandonToo autoDowngrade : Bool)
  | mutex2shared (rsv nrs : Bool)
  | reserve
  | redeem (w : Wait)
  | abandon
  | shared2mutex (w : Wait)
  deriving DecidableEq, Repr

/-- What a call returns: success, `LOCK_OK_AND_GOT_RESV`, or an error. -/
inductive Res where
  | ok | gotResv | err (e : Err)
  deriving DecidableEq, Repr

/-- Where a thread is inside a call.  `k = true` means the call is a `lock_mutex` that is promoting
and still has to do `++lock->holder_count.write` (1967-1981). -/
inductive Pc where
  | idle
  | shCS (r : Rsv) (w : Wait)      -- 1717: about to take lock->sem
  | shWait (r : Rsv) (w : Wait)    -- 1762: waiting on sem_read_waiters
  | shTimed (r : Rsv)              -- 1782: timed out, about to retake lock->sem
  | shResv (r : Rsv)               -- 1818: woken, reservation requested
  | shResvCS (r : Rsv)             -- 1831: inside reserve, about to take lock->sem
  | shUnlockCS                     -- 1823/1836: inside unlock, about to take lock->sem
  | mxCS (w : Wait)                -- 2008
  | mxWait (w : Wait)              -- 2051
  | mxTimed                        -- 2072
  | mxOwn                          -- 2096: woken, about to store write_lock_holder
  | incW                           -- 1968/1977: about to ++holder_count.write
  | unCS (ab ad : Bool)            -- 2789
  | m2sCS (rsv nrs : Bool)         -- 2152
  | rsvCS                          -- 2255
  | rdCS (w : Wait) (k : Bool)     -- 2316
  | rdWait (w : Wait) (k : Bool)   -- 2401
  | rdTimed (k : Bool)             -- 2421
  | rdOwn (k : Bool)               -- 2453
  | abCS                           -- 2509
  | smCS (w : Wait) (k : Bool)     -- 2580
  | smWait (w : Wait) (k : Bool)   -- 2661
  | smTimed (k : Bool)             -- 2679
  | smOwn (k : Bool)               -- 2719
  deriving DecidableEq, Repr

/-- The lock-related part of `struct wolfsentry_thread_context` (src/wolfsentry_internal.h:72-89):
`trk` is `tracked_shared_lock == lock`, `dep` is `recursion_of_tracked_lock`, `sc` is
`shared_count`, `mrc` is `mutex_and_reservation_count`. -/
structure Thr where
  pc : Pc := .idle
  cur : Op := .reserve
  trk : Bool := false
  dep : Int := 0
  sc : Int := 0
  mrc : Int := 0
  deriving DecidableEq, Repr

/-- The result of one step of a thread: new lock, new thread record, and the value returned to the
caller if the call finished. -/
abbrev Out := Lock × Thr × Option Res

def fin (l : Lock) (x : Thr) (r : Res) : Out := (l, { x with pc := .idle }, some r)
def goto (l : Lock) (x : Thr) (p : Pc) : Out := (l, { x with pc := p }, none)

/-- `++thread->shared_count; if (!tracked) {tracked = lock; recursion = 1} else ++recursion`
(1806-1813, 1865-1872). -/
def track (x : Thr) : Thr :=
  { x with sc := x.sc + 1, trk := true, dep := (if x.trk then x.dep + 1 else 1) }

/-- End of a successful promotion: return, or go on to the increment of 1968/1977. -/
def promoted (l : Lock) (x : Thr) (k : Bool) : Out := if k then goto l x .incW else fin l x .ok

/-! ### function entries (lock-free) -/

/-- `wolfsentry_lock_shared2mutex_redeem_abstimed`, 2302-2307. -/
def redeemEntry (t : Tid) (l : Lock) (x : Thr) (w : Wait) (k : Bool) : Out :=
  if l.st = .exclusive then fin l x (.err (if l.wh = some t then .already else .notPermitted))
  else goto l x (.rdCS w k)

/-- `wolfsentry_lock_shared2mutex_abstimed`, 2555-2571. -/
def s2mEntry (t : Tid) (l : Lock) (x : Thr) (w : Wait) (k : Bool) : Out :=
  match l.st with
  | .exclusive => if l.wh = some t then promoted l x k else fin l x (.err .notPermitted)
  | .shared => if l.rh = some t then redeemEntry t l x w k else goto l x (.smCS w k)
  | .unlocked => fin l x (.err .incompatibleState)

/-- `wolfsentry_lock_mutex_abstimed`, 1934-1990. -/
def mutexEntry (t : Tid) (l : Lock) (x : Thr) (w : Wait) (nrm : Bool) : Out :=
  match l.st with
  | .exclusive =>
    if l.wh = some t then
      if nrm then fin l x (.err .already)
      else fin { l with hc := l.hc + 1 } { x with mrc := x.mrc + 1 } .ok
    else goto l x (.mxCS w)
  | .shared =>
    if l.rh = some t then
      if nrm then fin l x (.err .incompatibleState) else redeemEntry t l x w true
    else if x.trk then s2mEntry t l x w true
    else goto l x (.mxCS w)
  | .unlocked => goto l x (.mxCS w)

/-- `wolfsentry_lock_shared_abstimed`, 1681-1715. -/
def sharedEntry (t : Tid) (l : Lock) (x : Thr) (r : Rsv) (w : Wait) (nrs nrm : Bool) : Out :=
  if l.wh = some t then mutexEntry t l x w nrm
  else if nrs && x.trk then fin l x (.err .already)
  else goto l x (.shCS r w)

/-- `wolfsentry_lock_shared2mutex_reserve`, 2245-2253. -/
def reserveEntry (t : Tid) (l : Lock) (x : Thr) (p : Pc) : Out :=
  if l.st = .exclusive then fin l x (.err (if l.wh = some t then .already else .incompatibleState))
  else goto l x p

/-- `wolfsentry_lock_unlock`, 2766-2786: releasing a recursive mutex is lock-free. -/
def unlockEntry (t : Tid) (l : Lock) (x : Thr) (ab ad : Bool) : Out :=
  if l.wh = some t ∧ 1 < l.hc then fin { l with hc := l.hc - 1 } { x with mrc := x.mrc - 1 } .ok
  else goto l x (.unCS ab ad)

/-- `wolfsentry_lock_mutex2shared`, 2141-2150. -/
def m2sEntry (l : Lock) (x : Thr) (rsv nrs : Bool) : Out :=
  if l.st = .shared then fin l x (.err .already)
  else if x.trk then fin l x (.err .incompatibleState)
  else goto l x (.m2sCS rsv nrs)

/-- `wolfsentry_lock_shared2mutex_abandon`, 2502-2507. -/
def abandonEntry (t : Tid) (l : Lock) (x : Thr) : Out :=
  if l.rh = some t then goto l x .abCS
  else fin l x (.err (if l.rh = none then .incompatibleState else .notPermitted))

def callOp (t : Tid) (l : Lock) (x : Thr) : Op → Out
  | .lockShared r w nrs nrm => sharedEntry t l x r w nrs nrm
  | .lockMutex w nrm => mutexEntry t l x w nrm
  | .unlock ab ad => unlockEntry t l x ab ad
  | .mutex2shared rsv nrs => m2sEntry l x rsv nrs
  | .reserve => reserveEntry t l x .rsvCS
  | .redeem w => redeemEntry t l x w false
  | .abandon => abandonEntry t l x
  | .shared2mutex w => s2mEntry t l x w false

/-! ### critical sections -/

/-- `wolfsentry_lock_shared_abstimed`, 1748-1903. -/
def sharedCS (t : Tid) (l : Lock) (x : Thr) (r : Rsv) (w : Wait) : Out :=
  if l.st = .exclusive ∨ (0 < l.ww ∧ x.trk = false) then
    if w = .now then fin l x (.err .busy)
    else goto { l with rw := l.rw + 1 } x (.shWait r w)
  else if r = .get ∧ l.rh ≠ none ∧ l.rh ≠ some t then fin l x (.err .busy)
  else if r ≠ .no ∧ l.rh = none then
    fin { l with st := .shared, rh := some t, hc := l.hc + 2, r2w := (track x).dep }
      { track x with mrc := x.mrc + 1 } .gotResv
  else
    fin { l with st := .shared, hc := l.hc + 1, r2w := (if l.rh = some t then l.r2w + 1 else l.r2w) }
      (track x) .ok

/-- After `sem_read_waiters` was obtained: 1806-1848. -/
def sharedWoken (l : Lock) (x : Thr) (r : Rsv) : Out :=
  if r = .no then fin l (track x) .ok else goto l (track x) (.shResv r)

/-- `wolfsentry_lock_mutex_abstimed`, 2036-2117. -/
def mutexCS (t : Tid) (l : Lock) (x : Thr) (w : Wait) : Out :=
  if l.st ≠ .unlocked then
    if w = .now then fin l x (.err .busy)
    else goto { l with ww := l.ww + 1 } x (.mxWait w)
  else if l.hc ≠ 0 then
    fin { l with st := .exclusive, wh := some t } x (.err .internalCheckFatal)
  else fin { l with st := .exclusive, wh := some t, hc := 1 } { x with mrc := x.mrc + 1 } .ok

/-- `wolfsentry_lock_mutex2shared`, 2161-2228. -/
def m2sCS (t : Tid) (l : Lock) (x : Thr) (rsv nrs : Bool) : Out :=
  if l.st ≠ .exclusive then fin l x (.err .incompatibleState)
  else if l.wh ≠ some t then fin l x (.err .notPermitted)
  else if 1 < l.hc ∧ nrs = true then fin l x (.err .incompatibleState)
  else if rsv = true ∧ l.rh ≠ none then fin l x (.err .internalCheckFatal)
  else
    let x' := { x with mrc := x.mrc + (if rsv then 1 else 0) - l.hc, sc := x.sc + l.hc, dep := l.hc, trk := true }
    let l1 := { l with
      st := .shared, wh := none, prom := 0
      rh := (if rsv then some t else l.rh)
      r2w := (if rsv then l.hc else l.r2w)
      hc := l.hc + (if rsv then 1 else 0) }
    let l2 := if l1.ww = 0 ∧ 0 < l1.rw then
        { l1 with hc := l1.hc + l1.rw, rw := 0, semR := l1.semR + l1.rw.toNat }
      else l1
    fin l2 x' .ok

/-- `wolfsentry_lock_shared2mutex_reserve`, 2266-2290. -/
def reserveCS (t : Tid) (l : Lock) (x : Thr) : Lock × Thr × Res :=
  if l.st ≠ .shared then (l, x, .err .incompatibleState)
  else if l.rh ≠ none then (l, x, .err .busy)
  else ({ l with rh := some t, hc := l.hc + 1, r2w := x.dep }, { x with mrc := x.mrc + 1 }, .ok)

/-- `wolfsentry_lock_shared2mutex_redeem_abstimed`, 2342-2399. -/
def redeemCS (t : Tid) (l : Lock) (x : Thr) (w : Wait) (k : Bool) : Out :=
  if l.st ≠ .shared then fin l x (.err .incompatibleState)
  else if l.rh = none then fin l x (.err .incompatibleState)
  else if l.rh ≠ some t then fin l x (.err .notPermitted)
  else if l.hc < 2 then fin l x (.err .incompatibleState)
  else if l.hc = l.r2w + 1 then
    promoted { l with hc := l.hc - 1, prom := l.hc - 1, st := .exclusive, wh := l.rh, rh := none, r2w := 0 }
      { x with
        mrc := x.mrc + l.r2w - 1, sc := x.sc - l.r2w
        dep := (if x.trk then 0 else x.dep), trk := false } k
  else if w = .now then fin l x (.err .busy)
  else goto { l with hc := l.hc - 1, ww := l.ww + 1, r2w := (if x.trk then x.dep else 1) } x (.rdWait w k)

/-- The stores after a promotion was granted by an unlocking thread (2454-2470, 2721-2734).  The two
functions store the same values: `write_lock_holder` is the caller (who is the reservation holder). -/
def ownR2W (t : Tid) (l : Lock) (x : Thr) (k : Bool) : Out :=
  promoted { l with wh := some t, rh := none }
    (if x.trk then { x with mrc := x.mrc + x.dep - 1, sc := x.sc - x.dep, dep := 0, trk := false }
     else { x with sc := x.sc - 1 }) k

/-- `wolfsentry_lock_shared2mutex_abandon`, 2520-2535. -/
def abandonCS (l : Lock) (x : Thr) : Out :=
  if l.st ≠ .shared then fin l x (.err .incompatibleState)
  else fin { l with hc := l.hc - 1, r2w := 0, rh := none } { x with mrc := x.mrc - 1 } .ok

/-- `wolfsentry_lock_shared2mutex_abstimed`, 2606-2659. -/
def s2mCS (t : Tid) (l : Lock) (x : Thr) (w : Wait) (k : Bool) : Out :=
  if l.st ≠ .shared then fin l x (.err .incompatibleState)
  else if l.rh ≠ none then fin l x (.err .busy)
  else if l.hc = 1 ∨ (x.trk = true ∧ l.hc = x.dep) then
    promoted { l with st := .exclusive, wh := some t }
      (if x.trk then { x with mrc := x.mrc + x.dep, sc := x.sc - x.dep, dep := 0, trk := false }
       else { x with mrc := x.mrc + 1, sc := x.sc - 1 }) k
  else if w = .now then fin l x (.err .busy)
  else goto { l with rh := some t, r2w := (if x.trk then x.dep else 1), ww := l.ww + 1 }
    { x with mrc := x.mrc + 1 } (.smWait w k)

/-- The waiter notification at the end of `wolfsentry_lock_unlock`, 2911-2932.  Note that the loop
of 2926 posts `holder_count.read` times, not once per waiter. -/
def notify (l : Lock) : Lock :=
  if 0 < l.ww then
    if l.st = .unlocked then { l with ww := l.ww - 1, st := .exclusive, hc := 1, semW := l.semW + 1 } else l
  else if 0 < l.rw then
    { l with hc := l.hc + l.rw, rw := 0, st := .shared, semR := l.semR + (l.hc + l.rw).toNat }
  else l

/-- The `ABANDON_RESERVATION_TOO` part of an unlock (2826-2833). -/
def unlockAbandon (t : Tid) (l : Lock) (x : Thr) (ab : Bool) : Lock × Thr :=
  if ab = true ∧ l.rh = some t then
    ({ l with hc := l.hc - 1, r2w := 0, rh := none }, { x with mrc := x.mrc - 1 })
  else (l, x)

/-- `--thread->shared_count` and the tracked recursion (2835-2840). -/
def untrack (x : Thr) : Thr :=
  if x.trk then { x with sc := x.sc - 1, dep := x.dep - 1, trk := (if x.dep - 1 = 0 then false else true) }
  else { x with sc := x.sc - 1 }

/-- The release of one shared hold, once the reservation was dealt with (2842-2867). -/
def unlockSharedTail (t : Tid) (l : Lock) : Lock :=
  if l.hc - 1 = 0 then notify { l with hc := l.hc - 1, st := .unlocked }
  else if l.hc - 1 = l.r2w ∧ l.rh ≠ none ∧ l.rh ≠ some t then
    { l with hc := l.hc - 1, prom := l.hc - 1, ww := l.ww - 1, r2w := 0, st := .exclusive, wh := l.rh, semX := l.semX + 1 }
  else if l.rh = some t then notify { l with hc := l.hc - 1, r2w := l.r2w - 1 }
  else notify { l with hc := l.hc - 1 }

/-- Does 2817-2823 turn on `ABANDON_RESERVATION_TOO`, or (`none`) fail with `INTERNAL_CHECK_FATAL`? -/
def autoAbandon (t : Tid) (l : Lock) (ab : Bool) : Option Bool :=
  if ab = false ∧ l.rh ≠ none ∧ l.hc + l.ww = 2 then
    if l.rh = some t then some true else none
  else some ab

/-- `wolfsentry_lock_unlock`, 2801-2939.  The `AUTO_DOWNGRADE` branch is modelled without the
reservation flags. -/
def unlockCS (t : Tid) (l : Lock) (x : Thr) (ab ad : Bool) : Lock × Thr × Res :=
  match l.st with
  | .shared =>
    match autoAbandon t l ab with
    | none => (l, x, .err .internalCheckFatal)
    | some ab =>
      let (l1, x1) := unlockAbandon t l x ab
      (unlockSharedTail t l1, untrack x1, .ok)
  | .exclusive =>
    if l.wh ≠ some t then (l, x, .err .notPermitted)
    else
      let l1 := { l with hc := l.hc - 1 }
      let x1 := { x with mrc := x.mrc - 1 }
      if l1.hc < 0 then (l1, x1, .err .internalCheckFatal)
      else if l1.hc = 0 then (notify { l1 with st := .unlocked, wh := none, prom := 0 }, x1, .ok)
      else if l1.prom = l1.hc then
        if ad = true ∧ x.trk = false then (notify { l1 with prom := 0, st := .shared }, x1, .ok)
        else ({ l1 with prom := 0 }, x1, .ok)
      else (l1, x1, .ok)
  | .unlocked => (l, x, .err .incompatibleState)

def fin3 (r : Lock × Thr × Res) : Out := fin r.1 r.2.1 r.2.2

/-! ### recovery from a time-out (run with `lock->sem` held) -/

/-- 1792-1803. -/
def sharedTimed (l : Lock) (x : Thr) : Out :=
  if 0 < l.semR then fin { l with semR := l.semR - 1 } x .ok
  else fin { l with rw := l.rw - 1 } x (.err .timedOut)

/-- 2080-2094. -/
def mutexTimed (l : Lock) (x : Thr) : Out :=
  if 0 < l.semW then fin { l with semW := l.semW - 1 } { x with mrc := x.mrc + 1 } .ok
  else fin { l with ww := l.ww - 1 } x (.err .timedOut)

/-- 2432-2446. -/
def redeemTimed (t : Tid) (l : Lock) (x : Thr) (k : Bool) : Out :=
  if 0 < l.semX then promoted { l with semX := l.semX - 1, wh := some t } x k
  else fin { l with hc := l.hc + 1, ww := l.ww - 1 } x (.err .timedOut)

/-- 2689-2716. -/
def s2mTimed (t : Tid) (l : Lock) (x : Thr) (k : Bool) : Out :=
  if 0 < l.semX then
    promoted { l with semX := l.semX - 1, wh := some t }
      (if x.trk then { x with mrc := x.mrc + x.dep - 1, sc := x.sc - x.dep, dep := 0, trk := false }
       else { x with sc := x.sc - 1 }) k
  else fin { l with rh := none, ww := l.ww - 1 } { x with mrc := x.mrc - 1 } (.err .timedOut)

/-! ### one step of one thread -/

/-- `call op`: an idle thread enters the API.  `run`: the thread executes its next step.  `fail`: a
try-lock of `lock->sem` fails, or a timed wait expires. -/
inductive Choice where
  | call (op : Op) | run | fail
  deriving DecidableEq, Repr

/-- What a failed attempt to take `lock->sem` returns (e.g. 1722-1736). -/
def semFail (l : Lock) (x : Thr) : Wait → Option Out
  | .block => none
  | .now => some (fin l x (.err .busy))
  | .timed => some (fin l x (.err .timedOut))

def failStep (l : Lock) (x : Thr) : Option Out :=
  match x.pc with
  | .shCS _ w | .mxCS w | .rdCS w _ | .smCS w _ => semFail l x w
  | .shWait r .timed => some (goto l x (.shTimed r))
  | .mxWait .timed => some (goto l x .mxTimed)
  | .rdWait .timed k => some (goto l x (.rdTimed k))
  | .smWait .timed k => some (goto l x (.smTimed k))
  | _ => none

/-- 1818-1843: what a woken reader that asked for a reservation does. -/
def sharedResv (t : Tid) (l : Lock) (x : Thr) (r : Rsv) : Out :=
  if l.rh ≠ none then
    if r = .get then goto l x .shUnlockCS else fin l x .ok
  else reserveEntry t l x (.shResvCS r)

/-- 1831-1843: the reservation attempt itself. -/
def sharedResvCS (t : Tid) (l : Lock) (x : Thr) (r : Rsv) : Out :=
  match reserveCS t l x with
  | (l', x', .err .busy) => if r = .get then goto l' x' .shUnlockCS else fin l' x' .ok
  | (l', x', .err e) => fin l' x' (.err e)
  | (l', x', _) => fin l' x' .gotResv

/-- 1823-1827: giving the shared lock back because the reservation is taken. -/
def sharedUnlockCS (t : Tid) (l : Lock) (x : Thr) : Out :=
  match unlockCS t l x false false with
  | (l', x', .err e) => fin l' x' (.err e)
  | (l', x', _) => fin l' x' (.err .busy)

/-- The next step of a thread that is inside a call; `none` when it is blocked on a semaphore. -/
def runStep (t : Tid) (l : Lock) (x : Thr) : Option Out :=
  match x.pc with
  | .idle => none
  | .shCS r w => some (sharedCS t l x r w)
  | .shWait r _ => if 0 < l.semR then some (sharedWoken { l with semR := l.semR - 1 } x r) else none
  | .shTimed _ => some (sharedTimed l x)
  | .shResv r => some (sharedResv t l x r)
  | .shResvCS r => some (sharedResvCS t l x r)
  | .shUnlockCS => some (sharedUnlockCS t l x)
  | .mxCS w => some (mutexCS t l x w)
  | .mxWait _ => if 0 < l.semW then some (goto { l with semW := l.semW - 1 } x .mxOwn) else none
  | .mxTimed => some (mutexTimed l x)
  | .mxOwn => some (fin { l with wh := some t } { x with mrc := x.mrc + 1 } .ok)
  | .incW => some (fin { l with hc := l.hc + 1 } { x with mrc := x.mrc + 1 } .ok)
  | .unCS ab ad => some (fin3 (unlockCS t l x ab ad))
  | .m2sCS rsv nrs => some (m2sCS t l x rsv nrs)
  | .rsvCS => some (fin3 (reserveCS t l x))
  | .rdCS w k => some (redeemCS t l x w k)
  | .rdWait _ k => if 0 < l.semX then some (goto { l with semX := l.semX - 1 } x (.rdOwn k)) else none
  | .rdTimed k => some (redeemTimed t l x k)
  | .rdOwn k => some (ownR2W t l x k)
  | .abCS => some (abandonCS l x)
  | .smCS w k => some (s2mCS t l x w k)
  | .smWait _ k => if 0 < l.semX then some (goto { l with semX := l.semX - 1 } x (.smOwn k)) else none
  | .smTimed k => some (s2mTimed t l x k)
  | .smOwn k => some (ownR2W t l x k)

def tstep (t : Tid) (l : Lock) (x : Thr) : Choice → Option Out
  | .call op => if x.pc = .idle then some (callOp t l { x with cur := op } op) else none
  | .run => runStep t l x
  | .fail => failStep l x

/-! ### the system -/

/-- A finished call. -/
structure Ev where
  tid : Tid
  op : Op
  res : Res
  deriving DecidableEq, Repr

/-- The lock, the threads, and the finished calls (latest first). -/
structure Sys where
  l : Lock := {}
  th : Tid → Thr := fun _ => {}
  log : List Ev := []

def upd {α : Type} (f : Tid → α) (t : Tid) (v : α) : Tid → α := fun u => if u = t then v else f u

/-- The system after thread `t`'s step. -/
def commit (s : Sys) (t : Tid) (o : Out) : Sys :=
  { l := o.1, th := upd s.th t o.2.1,
    log := match o.2.2 with | none => s.log | some r => ⟨t, o.2.1.cur, r⟩ :: s.log }

def step (s : Sys) (t : Tid) (c : Choice) : Option Sys := (tstep t s.l (s.th t) c).map (commit s t)

end WS.RW
