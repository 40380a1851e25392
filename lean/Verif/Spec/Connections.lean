import Verif.Spec.OverTime
/-
Connections of a rule over a history of dispatches (C90).  Result bits: 2 CONNECT, 3 DISCONNECT.
-/
namespace WS.Spec.Con
open WS WS.Spec WS.Spec.Ld WS.Spec.Fw WS.Spec.Off WS.Spec.Ot WS.LT

variable {σ : Type}

/-- The visit, charged to the rule, asks for one more connection. -/
def Opens (c : EventConfig) (v : Visit σ) : Prop := Charged (charge c v) ∧ (charge c v).getLsbD 2 = true
/-- The visit, charged to the rule, tells that a connection has ended. -/
def Closes (c : EventConfig) (v : Visit σ) : Prop := Charged (charge c v) ∧ (charge c v).getLsbD 2 = false ∧ (charge c v).getLsbD 3 = true
instance (c : EventConfig) (v : Visit σ) : Decidable (Opens c v) := by unfold Opens; infer_instance
instance (c : EventConfig) (v : Visit σ) : Decidable (Closes c v) := by unfold Closes; infer_instance

/-- One visit in a ledger of open connections: a connection is entered while there are fewer than the limit. -/
def enter (c : EventConfig) (n : Nat) (v : Visit σ) : Nat :=
  if Opens c v then (if n < c.maxConnectionCount then n + 1 else n) else if Closes c v then n - 1 else n

/-- The ledger after some visits. -/
def ledger (c : EventConfig) (n : Nat) (h : List (Visit σ)) : Nat := h.foldl (enter c) n

/-- Connections asked for and ended. -/
def opened (c : EventConfig) (h : List (Visit σ)) : Nat := (h.filter (fun v => decide (Opens c v))).length
def closed (c : EventConfig) (h : List (Visit σ)) : Nat := (h.filter (fun v => decide (Closes c v))).length

/-- The rule counts connections. -/
def Counts (r : Route) : Prop := r.flags.getLsbD 23 = false

/-- A caller reports connections only: no verdict, no offence, no commendation, none of the library's marks. -/
def Peaceful (q : Ask σ) : Prop := ∀ k, k = 0 ∨ k = 1 ∨ k = 4 ∨ k = 5 ∨ k = 8 ∨ k = 10 → q.says.getLsbD k = false

/-- A caller asks about the packet, reporting `a`. -/
def Of (q : Ask σ) (p : Packet) (a : Flags) : Prop :=
  ∃ E resolve label trig fuel, q = .traffic E resolve p.from p.to p.flags label a fuel ∧ triggerOf resolve p.flags label = .ok trig

/-- Connections reported to the rule with a limit of `n`: CONNECT enters one while there are fewer than `n`, DISCONNECT (without CONNECT) takes one out. -/
def held (n : Nat) (id : Nat) (h : List (Visit σ)) : Nat :=
  (about id h).foldl (fun m v => if v.ask.says.getLsbD 2 = true then (if m < n then m + 1 else m) else if v.ask.says.getLsbD 3 = true then m - 1 else m) 0

end WS.Spec.Con
