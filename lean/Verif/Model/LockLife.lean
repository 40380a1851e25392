import Verif.Model.RwLock
/-
Creating and destroying locks (src/wolfsentry_util.c:1477-1672).
-/
namespace WS.RW
open WS

/-- A lock in memory: `inited` is `state != WOLFSENTRY_LOCK_UNINITED`, `sem` the value of `lock->sem`. -/
structure Obj where
  l : Lock := {}
  sem : Nat := 1
  inited : Bool := true
  deriving DecidableEq, Repr

/-- `wolfsentry_lock_destroy` (src/wolfsentry_util.c:1590-1656): the error, if any, and the lock afterwards.  `sem_destroy` and
`sem_post` do not fail; `EINTR` is retried. -/
def destroy (o : Obj) : Option Err × Obj :=
  if !o.inited then (some .invalidArg, o)
  else if o.sem = 0 then (some .incompatibleState, o)
  else
    let o1 := { o with sem := o.sem - 1 }
    if o.l.st ≠ .unlocked then (some .incompatibleState, o)
    else if o.l.wh ≠ none ∨ o.l.rh ≠ none ∨ o.l.hc ≠ 0 ∨ o.l.rw ≠ 0 ∨ o.l.ww ≠ 0 ∨ o.l.r2w ≠ 0 ∨ o.l.prom ≠ 0 then (some .internalCheckFatal, o)
    else if 0 < o1.sem then (some .internalCheckFatal, { o1 with sem := o1.sem - 1 })
    else if 0 < o.l.semR then (some .internalCheckFatal, { o1 with l := { o.l with semR := o.l.semR - 1 } })
    else if 0 < o.l.semW then (some .internalCheckFatal, { o1 with l := { o.l with semW := o.l.semW - 1 } })
    else if 0 < o.l.semX then (some .internalCheckFatal, { o1 with l := { o.l with semX := o.l.semX - 1 } })
    else (none, { o1 with inited := false })

/-- `wolfsentry_lock_free` (src/wolfsentry_util.c:1658-1672): the error, and the lock if it still exists. -/
def free (o : Obj) : Option Err × Option Obj :=
  if o.inited then
    match destroy o with
    | (some e, o') => (some e, some o')
    | (none, _) => (none, none)
  else (none, none)

/-- The four semaphores of a lock. -/
inductive Sem where
  | main | readers | writers | promoters
  deriving DecidableEq, Repr

/-- A call on a semaphore, as the host sees it. -/
inductive SemCall where
  | init (s : Sem) (value : Nat)
  | post (s : Sem)
  deriving DecidableEq, Repr

/-- One call: the host decides (`ok`, by the number of the call) whether it succeeds; the calls made are recorded, the latest first. -/
def semCall (ok : Nat → Bool) (log : List SemCall) (c : SemCall) : Bool × List SemCall := (ok log.length, c :: log)

/-- `wolfsentry_lock_init` (src/wolfsentry_util.c:1477-1536) with flags that are not refused, by a valid caller: the error, the lock, and the
calls on semaphores.  The labels `free_write_waiters`, `free_read_waiters`, `free_sem` call `sem_init` again. -/
def init (badFlags : Bool) (ok : Nat → Bool) : Option Err × List SemCall :=
  if badFlags then (some .invalidArg, [])
  else
    let (r, log) := semCall ok [] (.init .main 0)
    if !r then (some .sysResourceFailed, log)
    else
      let (r, log) := semCall ok log (.post .main)
      if !r then (some .sysOpFatal, log)
      else
        let (r, log) := semCall ok log (.init .readers 0)
        if !r then (some .sysResourceFailed, (semCall ok log (.init .main 1)).2)
        else
          let (r, log) := semCall ok log (.init .writers 0)
          if !r then
            let (r, log) := semCall ok log (.init .readers 0)
            if !r then (some .sysResourceFailed, log) else (some .sysResourceFailed, (semCall ok log (.init .main 1)).2)
          else
            let (r, log) := semCall ok log (.init .promoters 0)
            if !r then
              let (r, log) := semCall ok log (.init .writers 0)
              if !r then (some .sysResourceFailed, log)
              else
                let (r, log) := semCall ok log (.init .readers 0)
                if !r then (some .sysResourceFailed, log) else (some .sysResourceFailed, (semCall ok log (.init .main 1)).2)
            else (none, log)

/-- `wolfsentry_lock_alloc` (src/wolfsentry_util.c:1542-1564): the error and whether the caller gets a lock; `memory`: the allocation
succeeds. -/
def alloc (pshared badFlags memory : Bool) (ok : Nat → Bool) : Option Err × Option Obj :=
  if pshared then (some .implementationMissing, none)
  else if !memory then (some .sysResourceFailed, none)
  else
    match (init badFlags ok).1 with
    | some e => (some e, none)
    | none => (none, some {})

end WS.RW
