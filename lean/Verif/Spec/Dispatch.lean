import Verif.Spec.RouteOps
import Verif.Model.Dispatch
/-
Vocabulary for C20-C23, in terms of the bits of the flag and result words
(wolfsentry/wolfsentry.h:865-1079) and of the rule's counters.

Result bits: 0 ACCEPT, 1 REJECT, 2 CONNECT, 3 DISCONNECT, 4 DEROGATORY, 5 COMMENDABLE, 6 STOP,
8 INSERTED, 9 ERROR, 10 FALLTHROUGH, 11 UPDATE, 12 PORT_RESET.
Rule flag bits: 14 IN_TABLE, 20 PENALTYBOXED, 21 GREENLISTED, 23 DONT_COUNT_CURRENT_CONNECTIONS,
24 PORT_RESET.  Configuration flag bits: 0 DEROGATORY_THRESHOLD_IGNORE_COMMENDABLE,
1 COMMENDABLE_CLEARS_DEROGATORY.
-/
namespace WS.Spec
open WS

/-- The dispatch is charged to the rule: no rule was inserted on the way and the traffic did not fall
through. -/
def Charged (a : Flags) : Prop := a.getLsbD 8 = false ∧ a.getLsbD 10 = false
instance (a : Flags) : Decidable (Charged a) := by unfold Charged; infer_instance

/-- A connection that exceeds the configured limit. -/
def OverLimit (c : EventConfig) (r : Route) (a : Flags) : Prop :=
  Charged a ∧ r.flags.getLsbD 23 = false ∧ a.getLsbD 2 = true ∧ c.maxConnectionCount ≤ r.data.connectionCount
instance (c : EventConfig) (r : Route) (a : Flags) : Decidable (OverLimit c r a) := by unfold OverLimit; infer_instance

/-- The box time is up: a duration is configured, the time of boxing is known, and more than the
duration has passed. -/
def BoxElapsed (c : EventConfig) (now : Int) (r : Route) : Prop :=
  0 < c.penaltyboxDuration ∧ r.data.lastPenaltyboxTime ≠ 0 ∧ c.penaltyboxDuration < now - r.data.lastPenaltyboxTime
instance (c : EventConfig) (now : Int) (r : Route) : Decidable (BoxElapsed c now r) := by unfold BoxElapsed; infer_instance

/-- The rule is boxed and this dispatch does not release it: not by time, and not by commendable
behaviour where that clears the derogatory count. -/
def BoxHeld (c : EventConfig) (now : Int) (r : Route) (a : Flags) : Prop :=
  r.flags.getLsbD 20 = true ∧ ¬ BoxElapsed c now r ∧ ¬ (a.getLsbD 5 = true ∧ c.flags.getLsbD 1 = true)
instance (c : EventConfig) (now : Int) (r : Route) (a : Flags) : Decidable (BoxHeld c now r a) := by unfold BoxHeld; infer_instance

/-- One more, but never past 65535. -/
def bump (n : Nat) : Nat := if n < 65535 then n + 1 else n

/-- The rule's derogatory and commendable counts once this dispatch has been charged. -/
def derogatoryNow (c : EventConfig) (r : Route) (a : Flags) : Nat :=
  if ¬ Charged a then r.data.derogatoryCount
  else if a.getLsbD 5 = true ∧ c.flags.getLsbD 1 = true then 0
  else if a.getLsbD 4 = true then bump r.data.derogatoryCount
  else r.data.derogatoryCount
def commendableNow (r : Route) (a : Flags) : Nat :=
  if Charged a ∧ a.getLsbD 5 = true then bump r.data.commendableCount else r.data.commendableCount

/-- The rule's connection count once this dispatch has been charged and not rejected for the limit
(16-bit counter). -/
def connectionsNow (r : Route) (a : Flags) : Nat :=
  if Charged a ∧ r.flags.getLsbD 23 = false then
    if a.getLsbD 2 = true then (r.data.connectionCount + 1) % 65536
    else if a.getLsbD 3 = true then r.data.connectionCount - 1
    else r.data.connectionCount
  else r.data.connectionCount

/-- A threshold is configured and the derogatory count — net of the commendable one, unless
configured otherwise — has reached it. -/
def ReachesThreshold (c : EventConfig) (r : Route) (a : Flags) : Prop :=
  0 < c.derogatoryThreshold ∧
  (if c.flags.getLsbD 0 = true then c.derogatoryThreshold ≤ derogatoryNow c r a
   else (c.derogatoryThreshold : Int) ≤ (derogatoryNow c r a : Int) - (commendableNow r a : Int))
instance (c : EventConfig) (r : Route) (a : Flags) : Decidable (ReachesThreshold c r a) := by
  unfold ReachesThreshold; split <;> infer_instance

/-- Handlers that only observe: they may keep records (`ext`), fail, and stop their list, but leave
rules and results alone. -/
def Observing {σ : Type} (E : DispEnv σ) : Prop :=
  ∀ ty i ref (w : World σ) a, (E.handler ty i ref w a).1.T = w.T ∧ (E.handler ty i ref w a).1.eph = w.eph ∧
    (E.handler ty i ref w a).1.fall = w.fall ∧ ∀ k, k ≠ 6 → (E.handler ty i ref w a).2.1.getLsbD k = a.getLsbD k

/-- Handlers that may do anything except: put the rule in or out of the penalty box or change the time it
was boxed, put it in or out of the table (deleting it is allowed), decide whether the behaviour was
commendable, or take REJECT back after the verdict. -/
def LeavesBox {σ : Type} (E : DispEnv σ) (ref : RuleRef) : Prop :=
  ∀ ty i (w : World σ) a,
    (∀ r', (E.handler ty i ref w a).1.get ref = some r' → ∃ r, w.get ref = some r ∧
      r'.flags.getLsbD 20 = r.flags.getLsbD 20 ∧ r'.flags.getLsbD 14 = r.flags.getLsbD 14 ∧
      r'.data.lastPenaltyboxTime = r.data.lastPenaltyboxTime) ∧
    (E.handler ty i ref w a).2.1.getLsbD 5 = a.getLsbD 5 ∧
    (ty = .update ∨ ty = .decision → a.getLsbD 1 = true → (E.handler ty i ref w a).2.1.getLsbD 1 = true)

/-- The clock could be read. -/
def clockOK : Except Err Int → Bool
  | .ok _ => true
  | .error _ => false

/-- The results as the configuration wants them: bit `k` added, then cleared; a clock failure is an
error. -/
def configured (c : EventConfig) (clk : Except Err Int) (a : Flags) (k : Nat) : Bool :=
  (a.getLsbD k || (k == 9 && !clockOK clk) || c.resBitsToAdd.getLsbD k) && !c.resBitsToClear.getLsbD k

/-- The results the verdict starts from: those passed in, an error (bit 9) if the clock failed, the
configured bits added, then the configured bits cleared. -/
def starting (c : EventConfig) (clk : Except Err Int) (a : Flags) : Flags :=
  (a ||| (if clockOK clk then 0#32 else BitVec.twoPow 32 9) ||| c.resBitsToAdd) &&& ~~~c.resBitsToClear

/-- The behaviour reported by the caller of a dispatch by address: DEROGATORY and COMMENDABLE together mean
"skip penalty-boxed rules" and report neither. -/
def reported (a : Flags) : Flags :=
  if a.getLsbD 4 = true ∧ a.getLsbD 5 = true then a &&& ~~~(BitVec.twoPow 32 4 ||| BitVec.twoPow 32 5) else a

/-- The configuration in force for a rule: its event's, else the default event's, else the global
one. -/
def configFor {σ : Type} (E : DispEnv σ) (w : World σ) (r : Route) : EventConfig := configOf E.g (r.event.or w.T.defaultEvent)

end WS.Spec
