import Verif.Model.Atomic
/-
What concurrent atomic operations have to be equivalent to: running them one at a time.
-/
namespace WS.Atomic

/-- Sequential execution of a list of operations. -/
def seqRun (max : Nat) (v : Nat) : List Op → Nat × List Nat
  | [] => (v, [])
  | o :: os =>
    let (v', r) := o.eval max v
    let (v'', rs) := seqRun max v' os
    (v'', r :: rs)

end WS.Atomic
