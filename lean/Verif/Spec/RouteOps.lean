import Verif.Spec.Lookup
/-
Independent vocabulary for rule creation, insertion, deletion and purging (C13-C17, C43, C48).
-/
namespace WS.Spec
open WS

/-- Wildcard flags are consistent: an any-family rule (bit 0) has wildcard addresses (bits 1, 4) and
protocol (bit 2); an any-protocol rule has wildcard ports (bits 3, 5). -/
def Sensical (f : Flags) : Prop :=
  (f.getLsbD 0 = true → f.getLsbD 1 = true ∧ f.getLsbD 4 = true ∧ f.getLsbD 2 = true) ∧
  (f.getLsbD 2 = true → f.getLsbD 5 = true ∧ f.getLsbD 3 = true)

/-- The rule has an expiry. -/
def Purgeable (r : Route) : Prop := r.data.purgeAfter ≠ 0

instance (r : Route) : Decidable (Purgeable r) := by unfold Purgeable; infer_instance

/-- Number of rules with an expiry. -/
def purgeableCount (l : List Route) : Nat := (l.filter (fun r => decide (Purgeable r))).length

/-- The expiry is past. -/
def Expired (now : Int) (r : Route) : Prop := Purgeable r ∧ r.data.purgeAfter ≤ now

/-- Marked for deletion (flag bit 15). -/
def Pending (r : Route) : Prop := r.flags.getLsbD 15 = true

/-- The rule uses a bitmask address (flag bits 12, 13). -/
def UsesBitmask (r : Route) : Prop := r.flags.getLsbD 12 = true ∨ r.flags.getLsbD 13 = true

end WS.Spec
