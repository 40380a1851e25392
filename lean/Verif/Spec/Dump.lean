import Verif.Model.Dump
import Verif.Spec.Format
import Verif.Spec.RoundTrip
/-
What the export of a rule table is (C72): a configuration with the rules in table order.
-/
namespace WS.Spec.Dump
open WS WS.Dump WS.Spec WS.Conf WS.Spec.Load WS.Spec.RoundTrip

/-- The whole export of rules with these texts. -/
def wholeText (rules : List (List Byte)) : List Byte :=
  ascii "{\"wolfsentry-config-version\":1,\n\"routes\":[\n" ++ joined (ascii ",\n") rules ++ ascii "\n]}\n"

/-- A client exporting a table with a buffer of `cap` bytes.  It makes the calls for the rules only with at least `need` bytes left
in the buffer, and may at any moment send off what is in the buffer and begin at its start again.  After a call that found the buffer too
small it goes on as if the call had not been made.  `sent`: what has been sent off; then the cursor and the buffer. -/
inductive Session (E : FmtEnv) (numeric : Bool) (rs : List Route) (cap need : Nat) : List Byte → Cursor → Out → Prop
  | start {c : Cursor} {s : Out} : start true true rs { left := cap } = .ret none c s → Session E numeric rs cap need [] c s
  | next {sent : List Byte} {c c' : Cursor} {s s' : Out} : Session E numeric rs cap need sent c s → need ≤ s.left →
      dumpNext E numeric rs c s = .ret none c' s' → Session E numeric rs cap need sent c' s'
  | tooSmall {sent : List Byte} {c c' : Cursor} {s s' : Out} : Session E numeric rs cap need sent c s → need ≤ s.left →
      dumpNext E numeric rs c s = .ret (some .bufferTooSmall) c' s' → Session E numeric rs cap need sent c' s'
  | flush {sent : List Byte} {c : Cursor} {s : Out} : Session E numeric rs cap need sent c s →
      Session E numeric rs cap need (sent ++ s.text) c { left := cap, high := s.high }

/-- The client has been told that there are no more rules, has made the last call and sent off the rest: `total` is all it has sent. -/
def Completed (E : FmtEnv) (numeric : Bool) (rs : List Route) (cap need : Nat) (total : List Byte) : Prop :=
  ∃ sent c s s', Session E numeric rs cap need sent c s ∧ need ≤ s.left ∧ dumpNext E numeric rs c s = .ret (some .itemNotFound) c s ∧
    finish true c s = .ret none none s' ∧ total = sent ++ s'.text

/-! ### Loading the export -/

variable {α : Type}

/-- The library has done these calls in order, each successfully. -/
inductive Performed (E : Env α) : List Call → α → α → Prop
  | nil (a : α) : Performed E [] a a
  | cons {k : Call} {ks : List Call} {a a1 a2 : α} : E.call a k = (a1, none) → Performed E ks a1 a2 → Performed E (k :: ks) a a2

/-- The call inserts the rule again: the same as created, under the same event. -/
def Reinserts (r : Route) (k : Call) : Prop :=
  ∃ rem loc, k = .routeInsert rem loc (givenFlags r.flags) (labelOf r) ∧
    ∀ ev, routeNewForInsert ev (sockAddrOf rem) (sockAddrOf loc) (givenFlags r.flags) = .ok (asCreated r ev)

/-- The calls insert the rules again, one call for each rule, in their order. -/
inductive ReinsertsAll : List Route → List Call → Prop
  | nil : ReinsertsAll [] []
  | cons {r : Route} {rs : List Route} {k : Call} {ks : List Call} : Reinserts r k → ReinsertsAll rs ks → ReinsertsAll (r :: rs) (k :: ks)

end WS.Spec.Dump
