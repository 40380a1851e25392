import Verif.Model.Route
/-
Running an event's action list (src/actions.c:550-641) and reading/writing action flags.
-/
namespace WS

/-- `wolfsentry_action_type_t` (wolfsentry/wolfsentry.h:842-851), without `NONE`. -/
inductive ActionType where
  | post | insert | match_ | update | delete | decision
  deriving DecidableEq, Repr

/-- The list of an event for an action type (src/actions.c:574-626). -/
def Event.actions (e : Event) : ActionType → List Nat
  | .post => e.postActions
  | .insert => e.insertActions
  | .match_ => e.matchActions
  | .update => e.updateActions
  | .delete => e.deleteActions
  | .decision => e.decisionActions

/-- Everything an action list dispatch can observe and change, over an arbitrary state `σ`.
`rule`/`setRule` access the rule object passed to the handlers; `disabled` is the `DISABLED` bit of
the action's flags at the time it is read; `countHit` is the increment of the action's hit count;
`handler` is the user's callback: it may change the state and the results arbitrarily and may fail.
Simplification: handlers do not edit the list that is being run, and terminate. -/
structure ActEnv (σ : Type) where
  rule : σ → Route
  setRule : σ → Route → σ
  disabled : σ → Nat → Bool
  countHit : σ → Nat → σ
  handler : ActionType → Nat → σ → Flags → σ × Flags × Option Err

/-- Result of running a list: which actions were called, in order, and what is left. -/
structure RunRes (σ : Type) where
  called : List Nat
  st : σ
  ares : Flags
  err : Option Err

/-- State in which the handler is entered: the action's hit count is incremented first unless the
rule says not to count (src/actions.c:632-633). -/
def ActEnv.enter {σ : Type} (E : ActEnv σ) (s : σ) (a : Nat) : σ :=
  if (E.rule s).flags.has RF.DONT_COUNT_HITS then s else E.countHit s a

/-- The loop of `wolfsentry_action_list_dispatch` (src/actions.c:627-641). -/
def runActions {σ : Type} (E : ActEnv σ) (ty : ActionType) : List Nat → σ → Flags → RunRes σ
  | [], s, a => { called := [], st := s, ares := a, err := none }
  | i :: rest, s, a =>
    if E.disabled s i then runActions E ty rest s a
    else
      let r := E.handler ty i (E.enter s i) a
      match r.2.2 with
      | some e => { called := [i], st := r.1, ares := r.2.1, err := some e }
      | none =>
        if r.2.1.hasAll AR.STOP then { called := [i], st := r.1, ares := r.2.1, err := none }
        else
          let q := runActions E ty rest r.1 r.2.1
          { q with called := i :: q.called }

/-- `INHIBIT_ACTIONS` in the global or the event's own configuration (src/actions.c:621-623). -/
def inhibited (g : EventConfig) (e : Event) : Bool :=
  g.flags.hasAll EF.INHIBIT_ACTIONS ||
    (match e.config with | some c => c.flags.hasAll EF.INHIBIT_ACTIONS | none => false)

/-- `wolfsentry_action_list_dispatch` (src/actions.c:550-641).  `NULL` results and action type `NONE`
(both `INVALID_ARG`) and the lock check are left out. -/
def listDispatch {σ : Type} (E : ActEnv σ) (g : EventConfig) (e : Event) (ty : ActionType) (s : σ) (a : Flags) : RunRes σ :=
  if a.has AR.STOP then { called := [], st := s, ares := a, err := some .alreadyStopped }
  else
    let run (s : σ) : RunRes σ :=
      if inhibited g e then { called := [], st := s, ares := a, err := none }
      else runActions E ty (e.actions ty) s a
    match ty with
    | .insert =>
      if (E.rule s).flags.hasAll RF.INSERT_ACTIONS_CALLED then { called := [], st := s, ares := a, err := some .already }
      else run (E.setRule s { E.rule s with flags := (E.rule s).flags ||| RF.INSERT_ACTIONS_CALLED })
    | .delete =>
      if (E.rule s).flags.hasAll RF.DELETE_ACTIONS_CALLED then { called := [], st := s, ares := a, err := some .already }
      else run (E.setRule s { E.rule s with flags := (E.rule s).flags ||| RF.DELETE_ACTIONS_CALLED })
    | _ => run s

end WS
