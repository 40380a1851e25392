import Verif.Model.LockBal
/-
Specification of lock balance (C33), stated on the sequence of lock operations a call performs.
-/
namespace WS.LockBal

/-- A call of `c` never changes how many levels of lock `l` are held, however it ends, and never
releases a level it does not hold. -/
def neutral (l : Lk) (c : Cmd) : Prop :=
  ∀ tr o, Run c tr o → ∀ n, replay l tr n = some n

/-- The same for the calls that do not report an error. -/
def neutralOnSuccess (l : Lk) (c : Cmd) : Prop :=
  ∀ tr o, Run c tr o → o ≠ .ret false → ∀ n, replay l tr n = some n

/-- A failing call can return with a level held that the caller did not hold. -/
def canLeak (l : Lk) (c : Cmd) : Prop :=
  ∃ tr, Run c tr (.ret false) ∧ ∀ n, ∃ k, 0 < k ∧ replay l tr n = some (n + k)

/-- A failing call made without holding the lock can release it. -/
def canOverRelease (l : Lk) (c : Cmd) : Prop :=
  ∃ tr, Run c tr (.ret false) ∧ replay l tr 0 = none

/-- A successful call adds exactly `k` levels. -/
def adds (l : Lk) (c : Cmd) (k : Nat) : Prop :=
  ∀ tr o, Run c tr o → o ≠ .ret false → ∀ n, replay l tr n = some (n + k)

/-- Any sequence of complete calls of functions of `fs`, one after the other: a thread's session. -/
inductive Session (fs : List Cmd) : List Ev → Prop
  | nil : Session fs []
  | call {f tr rest o} (hf : f ∈ fs) (h : Run f tr o) (k : Session fs rest) : Session fs (tr ++ rest)

end WS.LockBal
