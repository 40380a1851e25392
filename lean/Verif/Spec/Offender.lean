import Verif.Spec.Dispatch
/-
Vocabulary for C87: the record of a rule over a history of dispatches.

Result bits: 0 ACCEPT, 1 REJECT, 4 DEROGATORY, 5 COMMENDABLE.  Rule flag bits: 14 IN_TABLE,
20 PENALTYBOXED, 21 GREENLISTED, 22 DONT_COUNT_HITS.  Configuration flag bits:
0 DEROGATORY_THRESHOLD_IGNORE_COMMENDABLE, 1 COMMENDABLE_CLEARS_DEROGATORY.
-/
namespace WS.Spec.Off
open WS WS.Spec

/-- One call of a dispatch function, with the clock, handlers and locks it meets: on traffic with these
addresses (`wolfsentry_route_event_dispatch…`), or on a rule by ID (`…_by_id…`). -/
inductive Ask (σ : Type) where
  | traffic (E : DispEnv σ) (resolve : List Byte → Except Err Event) (remote loc : SockAddr) (flags : Flags)
      (label : Option (List Byte)) (a : Flags) (fuel : Nat)
  | rule (E : DispEnv σ) (resolve : List Byte → Except Err Event) (id : Nat) (label : Option (List Byte)) (a : Flags)

variable {σ : Type}

def Ask.env : Ask σ → DispEnv σ
  | .traffic E .. => E
  | .rule E .. => E

/-- The behaviour the caller reports. -/
def Ask.says : Ask σ → Flags
  | .traffic _ _ _ _ _ _ a _ => reported a
  | .rule _ _ _ _ a => a

/-- What the caller gets: the results, and the ID of the rule the call was about (0: none, or the call
failed). -/
structure Reply where
  ares : Flags
  about : Nat

/-- The call. -/
def Ask.run (q : Ask σ) (w : World σ) : Option (World σ × Reply) :=
  match q with
  | .traffic E resolve remote loc flags label a fuel =>
    (E.dispatch1 resolve w remote loc flags label a fuel).map
      (fun d => (d.w, { ares := d.ares, about := match d.ret with | .ok .ok => d.id | _ => 0 }))
  | .rule E resolve id label a =>
    (E.dispatchById resolve w id label a).map
      (fun x => (x.1, { ares := x.2.1, about := match x.2.2 with | .ok _ => id | .error _ => 0 }))

/-- A call in a history: what it was, the state it met, the answer. -/
structure Visit (σ : Type) where
  ask : Ask σ
  before : World σ
  reply : Reply

/-- A history: any calls, one after the other, each of which returned. -/
def Runs : World σ → List (Visit σ) → World σ → Prop
  | w, [], w' => w' = w
  | w, v :: h, w' => v.before = w ∧ ∃ w1, v.ask.run w = some (w1, v.reply) ∧ Runs w1 h w'

/-- The visits of a history that were about the rule `id`. -/
def about (id : Nat) (h : List (Visit σ)) : List (Visit σ) := h.filter (fun v => v.reply.about == id)

/-- Every call had the global configuration `g` and handlers that only observe. -/
def Fair (g : EventConfig) (h : List (Visit σ)) : Prop := ∀ v ∈ h, Observing v.ask.env ∧ v.ask.env.g = g

/-- The behaviour a visit is judged by: what the caller reported, as the configuration wants it. -/
def charge (c : EventConfig) (v : Visit σ) : Flags := starting c v.ask.env.clock v.ask.says

/-- A connection refused because there were too many. -/
def Refused (c : EventConfig) (v : Visit σ) : Prop :=
  ∃ r, v.before.T.get? v.reply.about = some r ∧ OverLimit c r (charge c v)

/-- Offences and commendations on record. -/
structure Tally where
  bad : Nat
  good : Nat
  deriving DecidableEq, Repr

/-- What one visit adds: nothing if it is not charged to the rule; else an offence if derogatory, a
commendation if commendable — which wipes out the offences if so configured. -/
def Tally.add (c : EventConfig) (t : Tally) (a : Flags) : Tally :=
  if ¬ Charged a then t
  else
    { bad := if a.getLsbD 5 = true ∧ c.flags.getLsbD 1 = true then 0 else if a.getLsbD 4 = true then bump t.bad else t.bad,
      good := if a.getLsbD 5 = true then bump t.good else t.good }

/-- The record after some visits. -/
def tally (c : EventConfig) (t : Tally) (h : List (Visit σ)) : Tally := h.foldl (fun t v => t.add c (charge c v)) t

/-- The record calls for a ban: a threshold is configured and the offences — less the commendations,
unless configured otherwise — have reached it. -/
def Guilty (c : EventConfig) (t : Tally) : Prop :=
  0 < c.derogatoryThreshold ∧
  (if c.flags.getLsbD 0 = true then c.derogatoryThreshold ≤ t.bad else (c.derogatoryThreshold : Int) ≤ (t.bad : Int) - (t.good : Int))
instance (c : EventConfig) (t : Tally) : Decidable (Guilty c t) := by unfold Guilty; split <;> infer_instance

/-- The record of a rule. -/
def recordOf (r : Route) : Tally := { bad := r.data.derogatoryCount, good := r.data.commendableCount }

/-- The rule is banned, since time `t`. -/
def Banned (r : Route) (t : Int) : Prop := r.flags.getLsbD 20 = true ∧ r.data.lastPenaltyboxTime = t

/-- The rule is not banned. -/
def Free (r : Route) : Prop := r.flags.getLsbD 20 = false

/-- A ban since time `t` is still on for a visit: the duration, if there is one, has not passed, and the
visit is not a commendation where those lift bans. -/
def StillOn (c : EventConfig) (t : Int) (v : Visit σ) : Prop :=
  ¬ (0 < c.penaltyboxDuration ∧ t ≠ 0 ∧ c.penaltyboxDuration < clockNow v.ask.env.clock - t) ∧
  ¬ ((charge c v).getLsbD 5 = true ∧ c.flags.getLsbD 1 = true)

/-- A table of rules as the library keeps them: distinct IDs, marked as in the table. -/
structure Proper (w : World σ) : Prop where
  ids : (w.T.ents.map (·.id)).Nodup
  inTable : ∀ r ∈ w.T.ents, r.flags.getLsbD 14 = true

/-- Whether a visit to a rule that is not banned is rejected: the caller or the configuration said so, or
nobody said anything and the default policy does. -/
def PlainReject (policy : Flags) (r : Route) (s : Flags) : Prop :=
  s.getLsbD 1 = true ∨ r.flags.getLsbD 21 = false ∧ s.getLsbD 0 = false ∧ policy.getLsbD 1 = true

end WS.Spec.Off
