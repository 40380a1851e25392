import Verif.Model.Basic
/-
Cleanup hooks (src/wolfsentry_util.c:3728-3790).

The list `cleanup_hooks` is modelled as a Lean list of entries; the pointer-level behaviour of
prepend, get-first and delete is `Model/DList.lean` (C05).  An entry has an address so that "this
entry" can be told from an equal one; addresses are never reused, which makes the model detect every
use of a freed entry.  A hook is the pair (handler, arg).  Running a handler may call back into the
library: `body h` lists the calls that the handler of `h` makes.  Allocation failure and lock
failures are not modelled (the functions run under the mutex, which is recursive).
-/
namespace WS

/-- `handler` and `arg` of `struct wolfsentry_cleanup_hook_ent` (src/wolfsentry_internal.h). -/
structure Hook where
  handler : Nat
  arg : Nat
  deriving DecidableEq, Repr

structure HookEnt where
  addr : Nat
  hook : Hook
  deriving DecidableEq, Repr

/-- What happens to hooks, in order. -/
inductive HookEvent where
  | registered (h : Hook)
  | started (h : Hook)
  | finished (h : Hook)
  | dropped (h : Hook)
  deriving DecidableEq, Repr

structure Hooks where
  ents : List HookEnt := []
  nextAddr : Nat := 0
  log : List HookEvent := []
  deriving DecidableEq, Repr

/-- Calls a handler can make. -/
inductive HookAct where
  | push (h : Hook)
  | pop (exec : Bool)
  deriving DecidableEq, Repr

/-- Ways a call does not return. -/
inductive HookCrash where
  | useAfterFree
  | noReturn
  deriving DecidableEq, Repr

/-- `wolfsentry_cleanup_push` (src/wolfsentry_util.c:3728-3752): an equal hook already in the list
means `ALREADY_OK`, otherwise prepend. -/
def hookPush (s : Hooks) (h : Hook) : Hooks :=
  if s.ents.any (fun i => i.hook == h) then s
  else { ents := ⟨s.nextAddr, h⟩ :: s.ents, nextAddr := s.nextAddr + 1, log := s.log ++ [.registered h] }

/-- One call.  `pop` is `wolfsentry_cleanup_pop` (src/wolfsentry_util.c:3754-3771): the first entry;
if asked to, call its handler, and only then unlink and free the entry.  The handler's own calls run
in between; if one of them has already freed the entry, unlinking it is a use after free.  The first
argument bounds the depth of nested handler calls. -/
def hookAct (body : Hook → List HookAct) : Nat → HookAct → Hooks → Except HookCrash Hooks
  | _, .push h, s => .ok (hookPush s h)
  | 0, .pop _, _ => .error .noReturn
  | n + 1, .pop exec, s =>
    match s.ents with
    | [] => .ok s
    | i :: _ =>
      if exec then
        match (body i.hook).foldlM (fun s a => hookAct body n a s) { s with log := s.log ++ [.started i.hook] } with
        | .error c => .error c
        | .ok s' =>
          if i ∈ s'.ents then
            .ok { s' with ents := s'.ents.filter (fun j => j != i), log := s'.log ++ [.finished i.hook] }
          else .error .useAfterFree
      else .ok { s with ents := s.ents.filter (fun j => j != i), log := s.log ++ [.dropped i.hook] }

/-- `wolfsentry_cleanup_all` (src/wolfsentry_util.c:3773-3790): pop and execute until nothing is
left.  The first argument bounds the number of iterations (and the nesting depth). -/
def hookAll (body : Hook → List HookAct) : Nat → Hooks → Except HookCrash Hooks
  | 0, _ => .error .noReturn
  | n + 1, s =>
    match s.ents with
    | [] => .ok s
    | _ :: _ =>
      match hookAct body (n + 1) (.pop true) s with
      | .error c => .error c
      | .ok s' => hookAll body n s'

/-- Calls made by the application. -/
inductive HookOp where
  | push (h : Hook)
  | pop (exec : Bool)
  | all
  deriving DecidableEq, Repr

/-- An application call (`fuel` as above). -/
def hookOp (body : Hook → List HookAct) (fuel : Nat) (s : Hooks) : HookOp → Except HookCrash Hooks
  | .push h => hookAct body fuel (.push h) s
  | .pop e => hookAct body fuel (.pop e) s
  | .all => hookAll body fuel s

/-- A history of application calls on a fresh context. -/
def hookRun (body : Hook → List HookAct) (fuel : Nat) (ops : List HookOp) : Except HookCrash Hooks :=
  ops.foldlM (hookOp body fuel) {}

end WS
