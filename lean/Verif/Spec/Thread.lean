import Verif.Model.Thread
import Verif.Spec.RwLock
/-
What a user of thread contexts may rely on (C69-C71).
-/
namespace WS.Spec.Thread
open WS WS.Thread

/-! ### identities -/

/-- The identity a context has while it is in use, from the moment the library chose it to the moment it is
given up. -/
def inUse : Slot → Option Id
  | .absent => none
  | .bumping id => some id
  | .live id _ => some id
  | .leaving id _ => some id

/-- Did the host supply the identity of this context? -/
def hosted : Slot → Bool
  | .live _ fb => !fb
  | .leaving _ fb => !fb
  | _ => false

/-- Every initialised context has an identity, and no two have the same. -/
def Distinct (s : Ids) : Prop :=
  (∀ k id, inUse (s.slots k) = some id → id ≠ 0#64) ∧
  (∀ k j id, inUse (s.slots k) = some id → inUse (s.slots j) = some id → k = j)

/-- The host's identities, where it has any, are not among the last 2^24 values the library keeps for itself,
and two contexts in use never get the same. -/
def HostFair (s : Ids) : Step → Prop
  | .start _ host => host ≠ 0#64 → host.toNat < 2 ^ 64 - 2 ^ 24 ∧ ∀ j, inUse (s.slots j) ≠ some host
  | _ => True

/-- A context is being initialised without help of the host. -/
def creates : Step → Nat
  | .start _ host => if host = 0#64 then 1 else 0
  | _ => 0

/-- The states reachable by any interleaving of the atomic steps of any number of initialisations and
destructions, `n` of them initialisations without help of the host. -/
inductive Reach : Nat → Ids → Prop
  | init : Reach 0 {}
  | step {n : Nat} {s s' : Ids} {c : Step} : Reach n s → HostFair s c → idStep s c = some s' → Reach (n + creates c) s'

/-- Contexts that come and go like interrupt handlers: the newest goes first.  `st`: the contexts in use,
newest first. -/
inductive Nested : List Nat → Ids → Prop
  | init : Nested [] {}
  | enter {st : List Nat} {s s' : Ids} {k : Nat} : Nested st s → st.length + 1 < 2 ^ 24 - 1 →
      idStep s (.start k 0#64) = some s' → Nested (k :: st) s'
  | test {st : List Nat} {s s' : Ids} {k : Nat} : Nested (k :: st) s → idStep s (.test k) = some s' →
      Nested (if inUse (s'.slots k) = none then st else k :: st) s'
  | leave {st : List Nat} {s s' : Ids} {k : Nat} : Nested (k :: st) s → idStep s (.swap k) = some s' → Nested st s'

/-! ### deadlines -/

/-- A moment in the Unix epoch. -/
def Proper (ts : Ts) : Prop := 0 ≤ ts.nsec ∧ ts.nsec < 1000000000
instance (ts : Ts) : Decidable (Proper ts) := by unfold Proper; infer_instance

/-- Everything of a context but its deadline. -/
def SameButDeadline (c d : Ctx) : Prop :=
  d.user = c.user ∧ d.id = c.id ∧ d.trk = c.trk ∧ d.dep = c.dep ∧ d.sc = c.sc ∧ d.mrc = c.mrc ∧
  ∀ k, k ≠ 0 → d.flags.getLsbD k = c.flags.getLsbD k

end WS.Spec.Thread

namespace WS.RW.Spec
open WS.RW

/-- The states reachable by `n` threads, some of which are marked read-only, when the threads meet their
obligations and every expired wait is harmless. -/
inductive ReachRo (n : Nat) : SysRo → Prop
  | init : ReachRo n {}
  | step {y y' : SysRo} {t : Tid} {c : ChoiceRo} :
      ReachRo n y → t < n → (∀ k, c = .lock k → StepOk y.s t k) → stepRo y t c = some y' → ReachRo n y'

end WS.RW.Spec
