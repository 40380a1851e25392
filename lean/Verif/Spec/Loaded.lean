import Verif.Spec.LoadTx
import Verif.Spec.Exports
import Verif.Spec.Config
import Verif.Model.RouteHistory
/-
What is in force in a context, and what each library call a configuration makes does to it (C84).
-/
namespace WS.Spec.Ld
open WS WS.Conf WS.Spec WS.Spec.Load WS.LT

/-- What is seen of a rule: its event's label, flags (without the two marks of handlers already run, bits 16 and 17), what it matches, when
it expires (0: never). -/
structure Seen where
  event : Option (List Byte)
  flags : Flags
  family : Nat
  proto : Nat
  remote : Endpoint
  loc : Endpoint
  expiry : Int
  deriving DecidableEq

def seen (r : Route) : Seen where
  event := r.event.map (·.label)
  flags := r.flags &&& ~~~(bit 16 ||| bit 17)
  family := r.family
  proto := r.proto
  remote := r.remote
  loc := r.loc
  expiry := r.data.purgeAfter

/-- The two match the same traffic for the same event: equal but for flags from bit 14 on and expiry. -/
def Twin (x y : Seen) : Prop :=
  x.event = y.event ∧ x.family = y.family ∧ x.proto = y.proto ∧ x.remote = y.remote ∧ x.loc = y.loc ∧
    ∀ k, k < 14 → x.flags.getLsbD k = y.flags.getLsbD k

/-- What is in force in a context: settings, policies, events and actions by label, rules in table order, user values. -/
structure View where
  config : EventConfig
  policy : Flags
  limit : Nat
  idle : Int
  dflt : Option (List Byte)
  events : List Byte → Option Event
  actions : List Byte → Option Nat
  rules : List Seen
  values : List (List Byte × UserValue)

def view (c : Cx) : View where
  config := ofCfg (cfgGet c.config)
  policy := c.routes.defaultPolicy
  limit := c.routes.maxPurgeableRoutes
  idle := c.routes.maxPurgeableIdleTime
  dflt := c.routes.defaultEvent.map (·.label)
  events := fun l => c.events.find? (fun e => e.label == l)
  actions := fun l => (c.actions.find? (fun a => a.1 == l)).map (·.2)
  rules := c.routes.ents.map seen
  values := c.values

/-- The event under a label replaced. -/
def setAt (m : List Byte → Option Event) (l : List Byte) (e : Event) : List Byte → Option Event :=
  fun k => if k = l then some e else m k

/-- The event with more actions at the end of one list. -/
def withMore (e : Event) (as : List Nat) : ActionType → Event
  | .post => { e with postActions := e.postActions ++ as }
  | .insert => { e with insertActions := e.insertActions ++ as }
  | .match_ => { e with matchActions := e.matchActions ++ as }
  | .update => { e with updateActions := e.updateActions ++ as }
  | .delete => { e with deleteActions := e.deleteActions ++ as }
  | .decision => { e with decisionActions := e.decisionActions ++ as }

/-- How many of the rules expire. -/
def expiring (l : List Seen) : Nat := (l.filter (fun s => s.expiry ≠ 0)).length

/-- Room for `s`: a rule that expires takes the place of the rule that expires first, when the limit is reached. -/
inductive MadeRoom (limit : Nat) (s : Seen) (rules : List Seen) : List Seen → Prop
  | enough : s.expiry = 0 ∨ limit = 0 ∨ expiring rules < limit → MadeRoom limit s rules rules
  | evicted {x : Seen} {kept : List Seen} : s.expiry ≠ 0 → 0 < limit → limit ≤ expiring rules → rules.Perm (x :: kept) → x.expiry ≠ 0 →
      (∀ y ∈ rules, y.expiry ≠ 0 → x.expiry ≤ y.expiry) → kept.Sublist rules → MadeRoom limit s rules kept

/-- The rule is entered; or a rule that matches the same traffic for the same event, waiting to be deleted (bit 15), is revived with the new
expiry. -/
inductive Entered (s : Seen) (kept : List Seen) : List Seen → Prop
  | new {rules : List Seen} : (∀ x ∈ kept, ¬ Twin x s) → rules.Perm (s :: kept) → Entered s kept rules
  | revived {x : Seen} {rest rules : List Seen} : kept.Perm (x :: rest) → Twin x s → x.flags.getLsbD 15 = true →
      rules.Perm ({ x with flags := x.flags &&& ~~~bit 15, expiry := s.expiry } :: rest) → Entered s kept rules

/-- The rule a call asks for: created from its arguments (C13) under the event, if any, and stored under the settings in force, at some
time, as C14 says. -/
def AskedFor (v : View) (remote loc : Sa) (flags : Flags) (l : List Byte) (s : Seen) : Prop :=
  ∃ ev r0 r t, (l = [] ∧ ev = none ∨ l ≠ [] ∧ ∃ e, v.events l = some e ∧ ev = some e) ∧
    routeNewForInsert ev (sockaddr remote) (sockaddr loc) flags = .ok r0 ∧ StoredAs v.config t 0 r0 r ∧ s = seen r

/-- A configuration as it is stored with an event: as given, with room for padding in the size of private data. -/
def Padded : Option EventConfig → Option EventConfig → Prop
  | none, none => True
  | some c, some c' => c' = { c with privateDataSize := c'.privateDataSize }
  | _, _ => False

/-- What a library call does, when it succeeds.  (A lower limit makes room only at the cost of rules that have expired.) -/
inductive Does (store : List (List Byte × UserValue) → List Byte → UserValue → Except Err (List (List Byte × UserValue))) :
    Call → View → View → Prop
  | config {v : View} {c : EventConfig} : Does store (.defaultConfigUpdate c) v
      { v with config := { c with privateDataSize := v.config.privateDataSize, privateDataAlignment := v.config.privateDataAlignment } }
  | policy {v : View} {p : Flags} : Does store (.defaultPolicySet p) v { v with policy := p }
  | limit {v : View} {n : Nat} {kept : List Seen} : kept.Sublist v.rules → (v.limit ≤ n ∨ expiring v.rules ≤ n → kept = v.rules) →
      (∃ t, kept.filter (fun s => s.expiry = 0 ∨ t < s.expiry) = v.rules.filter (fun s => s.expiry = 0 ∨ t < s.expiry)) →
      Does store (.maxPurgeableRoutes n) v { v with limit := n, rules := kept }
  | idle {v : View} {t : Int} : Does store (.maxPurgeableIdleTime t) v { v with idle := t }
  | dflt {v : View} {l : List Byte} {e : Event} : v.events l = some e → Does store (.setDefaultEvent l) v { v with dflt := some l }
  | rule {v : View} {remote loc : Sa} {flags : Flags} {l : List Byte} {s : Seen} {kept rules : List Seen} :
      AskedFor v remote loc flags l s → MadeRoom v.limit s v.rules kept → Entered s kept rules →
      Does store (.routeInsert remote loc flags l) v { v with rules := rules }
  | event {v : View} {l : List Byte} {n : Nat} {c c' : Option EventConfig} : v.events l = none → Padded c c' →
      Does store (.eventInsert l n c) v { v with events := setAt v.events l { label := l, priority := n, config := c' } }
  | eventConfig {v : View} {l : List Byte} {e : Event} {c : EventConfig} {c' : Option EventConfig} : v.events l = some e → Padded (some c) c' →
      Does store (.eventUpdateConfig l c) v { v with events := setAt v.events l { e with config := c' } }
  | aux {v : View} {l m : List Byte} {e e' : Event} : v.events l = some e → v.events m = some e' → Does store (.setAuxEvent l m) v v
  | action {v : View} {l al : List Byte} {t : ActionType} {e : Event} {a : Nat} : v.events l = some e → v.actions al = some a →
      a ∉ e.actions t → Does store (.actionAppend l t al) v { v with events := setAt v.events l (withMore e [a] t) }
  | copy {v : View} {l src : List Byte} {t : ActionType} {e s : Event} : v.events l = some e → v.events src = some s →
      (∀ a ∈ s.postActions, a ∉ e.actions t) → s.postActions.Nodup →
      Does store (.copyActions l t src) v { v with events := setAt v.events l (withMore e s.postActions t) }
  | copyNone {v : View} {l src : List Byte} {t : ActionType} {s : Event} : v.events src = some s → s.postActions = [] →
      Does store (.copyActions l t src) v v
  | store {v : View} {k : List Byte} {x : UserValue} {vs : List (List Byte × UserValue)} : store v.values k x = .ok vs →
      Does store (.store k x) v { v with values := vs }

/-- A sequence of calls, each of them done. -/
inductive Done (store : List (List Byte × UserValue) → List Byte → UserValue → Except Err (List (List Byte × UserValue))) :
    List Call → View → View → Prop
  | nil (v : View) : Done store [] v v
  | cons {k : Call} {ks : List Call} {v v1 v2 : View} : Does store k v v1 → Done store ks v1 v2 → Done store (k :: ks) v v2

/-- Handlers that leave alone what is seen of a rule. -/
def Mild (A : RuleActs) : Prop := A.Keeps ∧ ∀ t i r a, (A.handler t i r a).1.flags = r.flags

/-- IDs are never given out twice (C04): `issued s i` says that ID `i` has been given out when the generator is in state `s`. -/
def Issues (H : Host) (issued : Nat → Nat → Prop) : Prop :=
  ∀ s i s', H.newId s = .ok (i, s') → i ≠ 0 ∧ ¬ issued s i ∧ issued s' i ∧ ∀ j, issued s j → issued s' j

/-! ### The rules of a document -/

/-- The elements of the "routes" sections of a document, in order. -/
def ruleObjects : J → List J
  | .obj ms => ms.flatMap fun m => match m.2 with
    | .arr vs => if name m.1 = ascii "routes" ∨ name m.1 = ascii "static-routes-insert" then vs else []
    | _ => []
  | _ => []

def isRuleCall : Call → Bool
  | .routeInsert .. => true
  | _ => false

/-- The call asks for the rule the object describes: its members, read from first to last, starting from the rule that matches
everything.  (Addresses have at most 128 bits.) -/
def AsksFor {α : Type} (E : Env α) (v : J) (c : Call) : Prop :=
  ∃ ms r, v = .obj ms ∧ Members (RuleMember E) ms anyRule r ∧ r.remote.addrLen ≤ 128 ∧ r.loc.addrLen ≤ 128 ∧
    c = .routeInsert r.remote r.loc r.flags r.label

/-- Two lists, element by element. -/
inductive Pairs {α β : Type} (R : α → β → Prop) : List α → List β → Prop
  | nil : Pairs R [] []
  | cons {a : α} {b : β} {as : List α} {bs : List β} : R a b → Pairs R as bs → Pairs R (a :: as) (b :: bs)

/-- The library has been asked to do these calls in order, and has done them; in between it may have refused to store a number as an
integer. -/
inductive Made {α : Type} (E : Env α) : List Call → α → α → Prop
  | nil (a : α) : Made E [] a a
  | cons {k : Call} {ks : List Call} {a a1 a2 : α} : E.call a k = (a1, none) → Made E ks a1 a2 → Made E (k :: ks) a a2
  | refused {k : List Byte} {i : Int} {e : Err} {ks : List Call} {a a1 a2 : α} : E.call a (.store k (.sint i)) = (a1, some e) →
      Made E ks a1 a2 → Made E ks a a2

end WS.Spec.Ld
