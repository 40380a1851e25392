import Verif.Model.ObjRace
/-
What threads that share a context may expect of the objects in it (C88).
-/
namespace WS.Spec.OR
open WS.OR

/-- The object whose memory the next step of a thread reads or writes or frees. -/
def touched (s : St) : Pc → Option Nat
  | .useRead x | .refIncr x | .kvIncr x | .kvRead x | .valRead _ x | .delUnlink x | .delDecr x | .delFree x
  | .setUnlink _ _ x | .setDecr _ _ x | .setFree _ _ x | .dsetIncr x | .dFree x _ | .relTest x | .relType x | .relDecr x | .relFree x => some x
  | .dDecr _ | .dgetRead => s.dflt
  | _ => none

/-- The next step of the thread goes wrong: it touches an object that has been freed (or frees it again), or follows a NULL pointer (the parent
table of an object no longer in one, the default event when there is none). -/
def Fault (s : St) (t : Nat) : Prop :=
  (∃ x, touched s (s.th t).pc = some x ∧ (s.obs x).live = false) ∨
  (∃ x, (s.th t).pc = .relType x ∧ (s.obs x).linked = false) ∨
  ((s.th t).pc = .dgetRead ∧ s.dflt = none)

/-- The caller has the lock around the calls that look something up and use it after giving the lock back themselves (or, for the default
event, before taking it). -/
def LocksGetters (s : St) (t : Nat) : Call → Prop
  | .getRecord _ | .getValue _ | .getDefault => 0 < (s.th t).held
  | _ => True

/-- And around the release of references. -/
def LocksReleases (s : St) (t : Nat) : Call → Prop
  | .release _ => 0 < (s.th t).held
  | _ => True

/-- What is stored under a label at the moment. -/
def stored (s : St) (k : Nat) : Option Nat := (s.table k).map fun x => (s.obs x).val

end WS.Spec.OR
