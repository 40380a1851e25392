import Verif.Model.Events
/-
What users are told about the catalogue of events and actions, independent of how it is stored.
-/
namespace WS.Spec
open WS

/-- A label in the reserved built-in namespace: its first character is `%`. -/
def Reserved (label : List Byte) : Prop := label[0]? = some 0x25#8

/-- No bit is asked to be both added and cleared (for rule flags), both required and forbidden (for
the result filter), both added and cleared (for results), and the derogatory threshold fits the
16-bit derogatory counter. -/
structure ConfigConsistent (c : Cfg) : Prop where
  rule_flags : ∀ i, i < 32 → ¬ (c.flagsAdd.getLsbD i = true ∧ c.flagsClear.getLsbD i = true)
  filter : ∀ i, i < 32 → ¬ (c.filterSet.getLsbD i = true ∧ c.filterUnset.getLsbD i = true)
  results : ∀ i, i < 32 → ¬ (c.resAdd.getLsbD i = true ∧ c.resClear.getLsbD i = true)
  threshold : c.derogThreshold ≤ 65535

/-- The fields of a configuration other than the private-data layout. -/
def SamePolicy (a b : Cfg) : Prop :=
  a.maxConn = b.maxConn ∧ a.derogThreshold = b.derogThreshold ∧ a.boxDuration = b.boxDuration ∧
  a.idleForPurge = b.idleForPurge ∧ a.cfgFlags = b.cfgFlags ∧ a.flagsAdd = b.flagsAdd ∧
  a.flagsClear = b.flagsClear ∧ a.filterSet = b.filterSet ∧ a.filterUnset = b.filterUnset ∧
  a.resAdd = b.resAdd ∧ a.resClear = b.resClear

/-- There is an event with this label. -/
def HasEvent (s : Cat) (label : List Byte) : Prop := ∃ e, e ∈ s.events ∧ e.key = label
/-- There is an action with this label. -/
def HasAction (s : Cat) (label : List Byte) : Prop := ∃ e, e ∈ s.actions ∧ e.key = label

/-- The set of event labels a call should leave behind, from the set before it and whether the
insertion or deletion reported success. -/
def eventsAfter (before : List Byte → Prop) (op : CatOp) (succeeded : Bool) (label : List Byte) : Prop :=
  match op with
  | .eventInsert a _ => before label ∨ (succeeded = true ∧ label = a.text)
  | .eventDelete a => before label ∧ ¬ (succeeded = true ∧ label = a.text)
  | .eventFlush => False
  | _ => before label

/-- Same for actions. -/
def actionsAfter (before : List Byte → Prop) (op : CatOp) (succeeded : Bool) (label : List Byte) : Prop :=
  match op with
  | .actionInsert a => before label ∨ (succeeded = true ∧ label = a.text)
  | .actionDelete a => before label ∧ ¬ (succeeded = true ∧ label = a.text)
  | .actionFlush => False
  | _ => before label

end WS.Spec
