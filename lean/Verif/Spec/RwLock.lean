import Verif.Model.RwLock
/-
What a user of the lock knows: which calls have returned, with what result.  From that alone follow
each thread's holdings; nothing below looks inside the lock except the two predicates on time-outs.
-/
namespace WS.RW.Spec
open WS.RW

/-- What a thread holds: `sh` nested shared holds, `ex` nested exclusive holds, and possibly the
reservation of the promotion. -/
structure Hold where
  sh : Nat := 0
  ex : Nat := 0
  resv : Bool := false
  deriving DecidableEq, Repr

/-- The effect of a finished call on the caller's holdings. -/
def holdStep (h : Hold) : Op → Res → Hold
  | _, .err _ => h
  | .lockShared .., r =>
    if 0 < h.ex then { h with ex := h.ex + 1 } else { h with sh := h.sh + 1, resv := h.resv || r == .gotResv }
  | .lockMutex .., _ => { sh := 0, ex := h.sh + h.ex + 1, resv := false }
  | .unlock ab _, _ =>
    if 0 < h.ex then { h with ex := h.ex - 1 } else { h with sh := h.sh - 1, resv := h.resv && !ab }
  | .mutex2shared rsv _, _ => { sh := h.ex, ex := 0, resv := rsv }
  | .reserve, _ => { h with resv := true }
  | .redeem _, _ => { sh := 0, ex := h.sh + h.ex, resv := false }
  | .shared2mutex _, _ => { sh := 0, ex := h.sh + h.ex, resv := false }
  | .abandon, _ => { h with resv := false }

/-- A thread's holdings after the calls of a log (latest first). -/
def holds : List Ev → Tid → Hold
  | [], _ => {}
  | e :: log, t => if e.tid = t then holdStep (holds log t) e.op e.res else holds log t

/-- The caller's obligations (documented at src/wolfsentry_util.c:2232-2237, 2759-2762): only a
holder may unlock, promote or reserve, and the outermost unlock of a shared lock must give up the
reservation. -/
def ClientOk (h : Hold) : Op → Prop
  | .unlock ab _ => 0 < h.sh + h.ex ∧ (h.resv = true → h.sh = 1 → ab = true)
  | .reserve => 0 < h.sh + h.ex
  | .shared2mutex _ => 0 < h.sh + h.ex
  | _ => True

/-- An expired wait is harmless when it was not granted at the last moment and does not leave
readers queued with nobody in line before them. -/
def TimeoutOk (l : Lock) : Pc → Prop
  | .shTimed _ => l.semR = 0
  | .mxTimed => l.semW = 0 ∧ (0 < l.rw → l.st = .exclusive ∨ 1 < l.ww)
  | .rdTimed _ => l.semX = 0 ∧ (0 < l.rw → 1 < l.ww)
  | .smTimed _ => l.semX = 0 ∧ (0 < l.rw → 1 < l.ww)
  | _ => True

def StepOk (s : Sys) (t : Tid) : Choice → Prop
  | .call op => ClientOk (holds s.log t) op
  | .run => TimeoutOk s.l (s.th t).pc
  | .fail => True

/-- The states reachable by `n` threads that meet their obligations, under every schedule, when
every expired wait is harmless. -/
inductive Reach (n : Nat) : Sys → Prop
  | init : Reach n {}
  | step {s s' : Sys} {t : Tid} {c : Choice} :
      Reach n s → t < n → StepOk s t c → step s t c = some s' → Reach n s'

/-- The states reachable by `n` threads when every step meets `P`: with `P` the obligations of the
caller alone, waits may expire at any moment. -/
inductive ReachP (P : Sys → Tid → Choice → Prop) (n : Nat) : Sys → Prop
  | init : ReachP P n {}
  | step {s s' : Sys} {t : Tid} {c : Choice} :
      ReachP P n s → t < n → P s t c → step s t c = some s' → ReachP P n s'

/-- The caller meets its obligations; nothing is assumed about expiring waits. -/
def CallerOk (s : Sys) (t : Tid) : Choice → Prop
  | .call op => ClientOk (holds s.log t) op
  | _ => True

/-- Calls that wait for ever or not at all. -/
def Untimed : Op → Prop
  | .lockShared _ w _ _ | .lockMutex w _ | .redeem w | .shared2mutex w => w ≠ .timed
  | _ => True

/-- The caller meets its obligations and never passes a deadline. -/
def UntimedOk (s : Sys) (t : Tid) : Choice → Prop
  | .call op => ClientOk (holds s.log t) op ∧ Untimed op
  | _ => True

/-- Mutual exclusion: nobody else holds anything while a thread holds the lock exclusively. -/
def Exclusive (s : Sys) : Prop :=
  ∀ t u, t ≠ u → 0 < (holds s.log t).ex → (holds s.log u).ex = 0 ∧ (holds s.log u).sh = 0

end WS.RW.Spec
