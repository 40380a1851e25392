import Verif.Model.Actions
import Verif.Model.ActionList
import Verif.Spec.DList
/-
Vocabulary for C24 and C25: the effect of calling handlers one after the other, and the sequence of
actions a list holds.
-/
namespace WS.Spec
open WS

/-- State and results after calling the handlers of the given actions one after the other, each
exactly once, each getting what its predecessor left (the hit count of each action is counted
before its handler runs). -/
def after {σ : Type} (E : ActEnv σ) (ty : ActionType) : List Nat → σ × Flags → σ × Flags
  | [], x => x
  | i :: rest, x =>
    let r := E.handler ty i (E.enter x.1 i) x.2
    after E ty rest (r.1, r.2.1)

/-- What the handler of `i` reports when called in the given situation: an error, or results with
the stop bit (bit 6). -/
def callErr {σ : Type} (E : ActEnv σ) (ty : ActionType) (i : Nat) (x : σ × Flags) : Option Err :=
  (E.handler ty i (E.enter x.1 i) x.2).2.2
def callStops {σ : Type} (E : ActEnv σ) (ty : ActionType) (i : Nat) (x : σ × Flags) : Prop :=
  (E.handler ty i (E.enter x.1 i) x.2).2.1.getLsbD 6 = true

/-- The list holds the sequence of actions `L`: its cells form a well-formed doubly linked list and
point to the actions of `L` in order. -/
def Holds (l : ActionList) (L : List Nat) : Prop := ∃ xs, DList.IsList l.s xs ∧ xs.map l.act = L

/-- The cell is not part of the list. -/
def FreshCell (l : ActionList) (c : Nat) : Prop := ∀ xs, DList.IsList l.s xs → c ∉ xs

end WS.Spec
