import Verif.Spec.Offender
import Verif.Spec.Firewall
/-
A loaded configuration over time (C89): what is left of the rules in force after any history of dispatches, and how offences count.
-/
namespace WS.Spec.Ot
open WS WS.Spec WS.Spec.Ld WS.Spec.Fw WS.Spec.Off WS.LT

/-- The same rule as before: only the ban (flag bit 20), the mark of a full hit counter (22), and the time it expires may have changed; a rule that
never expires (0) still does not. -/
structure Same (x y : Seen) : Prop where
  event : y.event = x.event
  family : y.family = x.family
  proto : y.proto = x.proto
  remote : y.remote = x.remote
  loc : y.loc = x.loc
  flags : ∀ k, k ≠ 20 → k ≠ 22 → y.flags.getLsbD k = x.flags.getLsbD k
  expiry : x.expiry = 0 → y.expiry = 0

/-- What is left of the rules in force: no rule is new, none that never expires is gone; default policy, default event and events are as they were. -/
structure Left (v v' : View) : Prop where
  old : ∀ y ∈ v'.rules, ∃ x ∈ v.rules, Same x y
  stay : ∀ x ∈ v.rules, x.expiry = 0 → ∃ y ∈ v'.rules, Same x y
  policy : v'.policy = v.policy
  dflt : v'.dflt = v.dflt
  events : v'.events = v.events

/-- The context with the rule table of a later time. -/
def later (c : Cx) (T : RouteTable) : Cx := { c with routes := T }

/-- The rule alone answers for the packet: it covers it, is not equal to it in all fields (C09), and all other rules that cover it and admit the call
have a worse priority. -/
structure Sole (v : View) (a : Flags) (p : Packet) (s : Seen) : Prop where
  mem : s ∈ v.rules
  covers : Covers s p
  admits : Admits v s a
  inexact : ¬ Exact s p
  best : ∀ x ∈ v.rules, x ≠ s → Covers x p → Admits v x a → rank v s < rank v x

variable {σ : Type}

/-- The caller reports an offence or nothing: no connection (bit 2), no commendation (5), none of the library's marks (8, 10). -/
def Modest (q : Ask σ) : Prop := q.says.getLsbD 2 = false ∧ q.says.getLsbD 5 = false ∧ q.says.getLsbD 8 = false ∧ q.says.getLsbD 10 = false

/-- The offences reported about a rule. -/
def strikes (id : Nat) (h : List (Visit σ)) : Nat := ((about id h).filter (fun v => v.ask.says.getLsbD 4)).length

/-- A caller asks about the packet, reporting `a`: no verdict of its own (bits 0 and 1), no connection, commendation or mark. -/
def AsksAbout (q : Ask σ) (p : Packet) (a : Flags) : Prop :=
  (∃ E resolve label trig fuel, q = .traffic E resolve p.from p.to p.flags label a fuel ∧ triggerOf resolve p.flags label = .ok trig) ∧
  ∀ k, k = 0 ∨ k = 1 ∨ k = 2 ∨ k = 5 ∨ k = 8 ∨ k = 10 → a.getLsbD k = false

/-- The configuration in force for a rule: that of its event, else of the default event, else the global one. -/
def confFor (c : Cx) (r : Route) : EventConfig := configOf c.global (r.event.or c.routes.defaultEvent)

/-- A rule under watch: it never expires, is not banned and has a clean record; after `n` offences (1 to 65535) it is to be banned; its configuration
gives no verdicts and reports nothing by itself. -/
structure Watched (c : Cx) (r : Route) (n : Nat) : Prop where
  mem : r ∈ c.routes.ents
  lasting : r.data.purgeAfter = 0
  free : Free r
  clean : recordOf r = ⟨0, 0⟩
  neutral : Neutral (confFor c r)
  threshold : (confFor c r).derogatoryThreshold = n
  some_ : 0 < n
  fits : n ≤ 65535

end WS.Spec.Ot
