import Verif.Model.Cleanup
/-
What users are told about cleanup hooks, as a check of the sequence of events: hooks form a stack;
no hook is on it twice; only the top of the stack is started or dropped, and only while no other
hook is running; a started hook finishes once and is then gone.
-/
namespace WS.Spec
open WS

/-- The stack (top first) and the hook that is running. -/
structure HookStack where
  stack : List Hook := []
  running : Option Hook := none
  deriving DecidableEq, Repr

/-- One event; `none` if the event is not allowed. -/
def HookStack.next (st : HookStack) : HookEvent → Option HookStack
  | .registered h => if h ∈ st.stack then none else some { st with stack := h :: st.stack }
  | .started h => if st.stack.head? = some h ∧ st.running = none then some { st with running := some h } else none
  | .finished h => if st.running = some h ∧ h ∈ st.stack then some { stack := st.stack.erase h, running := none } else none
  | .dropped h => if st.stack.head? = some h ∧ st.running = none then some { st with stack := st.stack.erase h } else none

/-- A sequence of events. -/
def HookStack.replay (st : HookStack) : List HookEvent → Option HookStack
  | [] => some st
  | e :: l => match st.next e with
    | none => none
    | some st' => st'.replay l

/-- The distinct members of a list, in order of first occurrence. -/
def distinct : List Hook → List Hook
  | [] => []
  | h :: l => h :: (distinct l).filter (fun x => x ≠ h)

end WS.Spec
