import Verif.Proof.Config11
import Verif.Proof.Config12
/-
C55 and C56: loading a configuration document (src/json/load_config.c).  The meaning of a document is Spec/Config, the
grammar of JSON texts Spec/JsonSax.
-/
namespace WS.Props
open WS WS.Sax WS.Time WS.Conf WS.Spec.Load

variable {α : Type}

/-! ### C55: loading without rules and events -/

/-- The library calls that create or change a rule or an event, or name the default event. -/
def AboutRules : Call → Bool
  | .routeInsert .. | .eventInsert .. | .eventUpdateConfig .. | .setAuxEvent .. | .actionAppend .. | .copyActions ..
  | .setDefaultEvent .. => true
  | .defaultConfigUpdate .. | .defaultPolicySet .. | .maxPurgeableRoutes .. | .maxPurgeableIdleTime .. | .store .. => false

/-- The same library, with a log of the calls made. -/
def logged (E : Env α) : Env (α × List Call) :=
  { call := fun a c => (((E.call a.1 c).1, a.2 ++ [c]), (E.call a.1 c).2)
    pton4 := E.pton4, pton6 := E.pton6, protoByName := E.protoByName, protoByNumber := E.protoByNumber,
    servByName := E.servByName, famByName := E.famByName, famMaxBits := E.famMaxBits, famParser := E.famParser,
    strtod := E.strtod, domRefuses := E.domRefuses }

/-- C55: what all other library calls leave alone, a load with NO_ROUTES_OR_EVENTS leaves alone: for every text, cut in every
way, whether it is accepted or not, and whatever lies in memory behind the tokens. -/
theorem C55_rules_and_events_untouched (E : Env α) (P : α → Prop)
    (hE : ∀ a c, AboutRules c = false → P a → P (E.call a c).1) (tail : Tail) (cfg : Config) (c : EventConfig) (a : α)
    (chunks : List (List Byte)) (ha : P a) : P (load E tail cfg true c a chunks).user.1 :=
  load_keeps E (fun a c hc => hE a c (by cases c <;> first | rfl | exact hc.elim)) tail cfg c a chunks ha

/-- C55: with NO_ROUTES_OR_EVENTS no call about a rule or an event is made. -/
theorem C55_no_rule_or_event_call (E : Env α) (tail : Tail) (cfg : Config) (c : EventConfig) (a : α) (chunks : List (List Byte)) :
    ∀ call ∈ (load (logged E) tail cfg true c (a, []) chunks).user.1.2, AboutRules call = false := by
  refine C55_rules_and_events_untouched (logged E) (fun a => ∀ call ∈ a.2, AboutRules call = false) ?_ tail cfg c (a, []) chunks (by simp)
  intro a c hc ha call h
  rcases List.mem_append.1 h with h | h
  · exact ha call h
  · rw [List.mem_singleton.1 h]; exact hc

/-- A library that accepts everything but an event without a name, and only knows numbers. -/
def yesEnv : Env Unit :=
  { call := fun _ c => ((), if c = .setDefaultEvent [] then some .itemNotFound else none)
    pton4 := fun _ => none, pton6 := fun _ => none, protoByName := fun _ => .unknown, protoByNumber := fun _ => .unknown,
    servByName := fun _ _ => .unknown, famByName := fun _ => .error .itemNotFound, famMaxBits := fun _ => .error .itemNotFound,
    famParser := fun _ => none, strtod := fun _ => none, domRefuses := fun _ => none }

/-- Numbers are followed by a comma, strings by a quote. -/
def plainTail : Tail := fun e _ _ => if e.type = .string then [0x22#8] else [0x2c#8]

def sampleText : String :=
  "{\"wolfsentry-config-version\":1,\"default-policies\":{\"default-policy\":\"reject\",\"default-event\":\"e\"}," ++
  "\"events\":[{\"label\":\"e\",\"priority\":3}],\"routes\":[{\"parent-event\":\"e\",\"family\":2,\"remote\":{\"port\":7}}]," ++
  "\"user-values\":{\"k\":true}}"

/-- The sample makes five calls, and with NO_ROUTES_OR_EVENTS the two of them that are about something else. -/
example :
    ((load (logged yesEnv) plainTail loaderConfig false {} ((), []) [ascii sampleText]).user.1.2.map AboutRules,
     (load (logged yesEnv) plainTail loaderConfig true {} ((), []) [ascii sampleText]).user.1.2,
     (load (logged yesEnv) plainTail loaderConfig true {} ((), []) [ascii sampleText]).ret) =
    ([true, false, true, true, false], [.defaultPolicySet AR.REJECT, .store (ascii "k") (.bool true)], 0) := by decide +kernel

/-- A document without rules and events: neither the sections for them nor a default event. -/
def RuleFree (ms : List (List Byte × J)) : Prop :=
  ∀ k v, (k, v) ∈ ms → name k ∉ ["events", "events-insert", "routes", "static-routes-insert"].map ascii ∧
    ∀ ps, v = .obj ps → ∀ k' v', (k', v') ∈ ps → name k' ≠ ascii "default-event"

theorem members_congr {σ : Type} {R R' : List Byte → J → σ → σ → Prop} {ms : List (List Byte × J)} {x y : σ}
    (h : ∀ k v, (k, v) ∈ ms → ∀ x y, R (name k) v x y → R' (name k) v x y) (hm : Members R ms x y) : Members R' ms x y := by
  induction hm with
  | nil => exact .nil _
  | cons h1 h2 h3 ih =>
    exact .cons h1 (h _ _ List.mem_cons_self _ _ h2) (ih fun k v hk => h k v (List.mem_cons_of_mem _ hk))

theorem section_ruleFree (E : Env α) (n n' : Bool) {ms : List (List Byte × J)} (hf : RuleFree ms) {k : List Byte} {v : J} (hk : (k, v) ∈ ms)
    {x y : Ctx α} (h : Section E n (name k) v x y) : Section E n' (name k) v x y := by
  obtain ⟨h1, h2⟩ := hf k v hk
  generalize name k = nk at h h1
  cases h with
  | version h => exact .version h
  | config h3 h4 h5 h6 => exact .config h3 h4 h5 h6
  | policies h3 h4 h5 =>
    refine .policies h3 (members_congr (fun k' v' hk' x y hp => ?_) h4) h5
    have h6 := h2 _ rfl k' v' hk'
    generalize name k' = nk' at hp h6
    cases hp with
    | policy h => exact .policy h
    | event => exact absurd rfl h6
    | ignored => exact absurd rfl h6
  | @events k0 _ _ _ h3 =>
    refine absurd ?_ h1
    rcases List.mem_cons.1 h3 with rfl | h3
    · simp
    · rw [List.mem_singleton.1 h3]; simp
  | @routes k0 _ _ _ h3 =>
    refine absurd ?_ h1
    rcases List.mem_cons.1 h3 with rfl | h3
    · simp
    · rw [List.mem_singleton.1 h3]; simp
  | values h3 h4 => exact .values h3 h4

/-- C55: apart from rules and events, NO_ROUTES_OR_EVENTS changes nothing: a document without them has the same effect. -/
theorem C55_rest_the_same (E : Env α) (c : EventConfig) (ms : List (List Byte × J)) (hf : RuleFree ms) (a a' : α) :
    Loads E true c (.obj ms) a a' ↔ Loads E false c (.obj ms) a a' := by
  constructor <;>
    (rintro ⟨h⟩
     exact .mk (members_congr (fun k v hk x y hs => section_ruleFree E _ _ hf hk hs) h))

/-- A document that sets a user value only. -/
example : Loads yesEnv true {} (.obj [(ascii "wolfsentry-config-version", .num [0x31#8] [0x2c#8]), (ascii "user-values", .obj [(ascii "k", .bool true)])]) () () ↔
    Loads yesEnv false {} (.obj [(ascii "wolfsentry-config-version", .num [0x31#8] [0x2c#8]), (ascii "user-values", .obj [(ascii "k", .bool true)])]) () () :=
  C55_rest_the_same yesEnv {} _ (by
    intro k v h
    rcases List.mem_cons.1 h with h | h
    · cases h
      exact ⟨by decide, fun ps e => by cases e⟩
    · cases List.mem_singleton.1 h
      refine ⟨by decide, fun ps e k' v' h' => ?_⟩
      injection e with e
      subst e
      cases List.mem_singleton.1 h'
      decide) () ()

/-! ### C56: what a document means -/

/-- C56: a document whose values are read in place is accepted exactly when it has a meaning (`Loads`), and then the library
ends up where the meaning says: every rule object is exactly one insertion of the rule that has the given fields and
is a wildcard in all others, every event object exactly one event, in the order of the document, with no value carried over
from one object to the next. -/
theorem C56_document_meaning (E : Env α) (hE : NoEmptyEvent E) (noRules : Bool) (c : EventConfig) (j : J) (hj : j.InPlace) (a a' : α) :
    (∃ st, run E a (start noRules c) j.events = (a', .ok st)) ↔ Loads E noRules c j a a' :=
  load_iff E hE noRules c j hj a a'

/-- The text is the JSON text of the tree. -/
def TextOf (cfg : Config) (text : List Byte) (j : J) : Prop :=
  j.InPlace ∧ Spec.Json.Document cfg text (j.events.map fun e => ⟨e.type, e.data⟩)

/-- In memory, numbers and strings are followed by what can follow them in a text (they are read in place). -/
def InPlaceTail (tail : Tail) : Prop :=
  ∀ e vp p, (e.type = .number → Followed (tail e vp p)) ∧ (e.type = .string → Quoted (tail e vp p))

/-- C56, for texts: a text, cut into chunks in any way, is accepted exactly when it is a JSON text within the limits and has a
meaning, and then the library ends up where the meaning says.  Missing for the full property: texts cut off in or after a number
or literal (no JSON object is; the finding below shows that some of them are accepted), and tokens that are
not read in place (those with escapes or cut by a chunk border lie in the parser's own buffer). -/
theorem C56_text_meaning_partial (E : Env α) (hE : NoEmptyEvent E) (tail : Tail) (ht : InPlaceTail tail) (cfg : Config)
    (hst : Spec.Json.Strict cfg) (noRules : Bool) (c : EventConfig) (chunks : List (List Byte))
    (hend : ∀ evs, ¬ Spec.Json.CutOff cfg chunks.flatten evs) (a a' : α) :
    (0 ≤ (load E tail cfg noRules c a chunks).ret ∧ (load E tail cfg noRules c a chunks).user.1 = a') ↔
    ∃ j, TextOf cfg chunks.flatten j ∧ Loads E noRules c j a a' := by
  rw [load_text E hE ht cfg hst noRules c chunks hend a a']
  constructor
  · rintro ⟨j, h1, h2, h3⟩; exact ⟨j, ⟨h1, h2⟩, h3⟩
  · rintro ⟨j, ⟨h1, h2⟩, h3⟩; exact ⟨j, h1, h2, h3⟩

theorem yes_noEmpty : NoEmptyEvent (logged yesEnv) := by
  rintro ⟨⟨⟩, l⟩
  simp [logged, yesEnv]

theorem plainTail_inPlace : InPlaceTail plainTail := by
  intro e vp p
  refine ⟨fun h => ?_, fun h => ?_⟩
  · rw [plainTail, if_neg (by rw [h]; decide)]
    exact ⟨0x2c#8, [], rfl, by unfold Spec.Conf.Delimiter; decide⟩
  · rw [plainTail, if_pos h]
    exact ⟨[], rfl⟩

theorem sampleText_end : ∀ evs, ¬ Spec.Json.CutOff loaderConfig [ascii sampleText].flatten evs := by
  intro evs hcut
  revert hcut
  refine fun hcut => (show ¬ Spec.Json.EndsInWord [ascii sampleText].flatten from ?_) (Sax.cutOff_ends hcut)
  rintro ⟨t, c, e, g⟩
  have h1 : ([ascii sampleText].flatten).getLast? = some 0x7d#8 := by decide +kernel
  rw [e, List.getLast?_append] at h1
  simp at h1
  subst h1
  unfold Spec.Json.Digit at g
  revert g
  decide

/-- The rule of the sample: AF_INET, remote port 7, everything else a wildcard. -/
example : ∃ j, TextOf loaderConfig [ascii sampleText].flatten j ∧ Loads (logged yesEnv) false {} j ((), [])
    ((), [.setDefaultEvent (ascii "e"), .defaultPolicySet AR.REJECT, .eventInsert (ascii "e") 3 none,
      .routeInsert { family := 2, port := 7 } { family := 2 }
        (RF.REMOTE_INTERFACE_WILDCARD ||| RF.LOCAL_INTERFACE_WILDCARD ||| RF.SA_REMOTE_ADDR_WILDCARD ||| RF.SA_LOCAL_ADDR_WILDCARD |||
          RF.SA_PROTO_WILDCARD ||| RF.SA_LOCAL_PORT_WILDCARD) (ascii "e"),
      .store (ascii "k") (.bool true)]) :=
  (C56_text_meaning_partial (logged yesEnv) yes_noEmpty plainTail plainTail_inPlace loaderConfig (by unfold Spec.Json.Strict; decide) false {}
    [ascii sampleText] sampleText_end ((), []) _).1 (by decide +kernel)

/-- The in-place tree of a member list, for the examples: `"wolfsentry-config-version": 1` and one more section. -/
def versioned (k : String) (v : J) : J :=
  .obj [(ascii "wolfsentry-config-version", .num [0x31#8] [0x2c#8]), (ascii k, v)]

theorem versioned_inPlace {k : String} {v : J} (h : v.InPlace) : (versioned k v).InPlace :=
  ⟨⟨⟨[], [0x31#8], [], [], rfl, Or.inl rfl, .first (by unfold Spec.Json.Digit; decide) (by decide), Or.inl rfl, Or.inl rfl⟩,
    ⟨0x2c#8, [], rfl, by unfold Spec.Conf.Delimiter; decide⟩⟩, h, trivial⟩

/-! ### Findings -/

/-- C56, finding: a configuration cut off after a number or literal is accepted (see C49_finding_unclosed_accepted), and the
rule it was cut off in is silently dropped. -/
theorem C56_finding_truncated_config_accepted :
    (load (logged yesEnv) plainTail loaderConfig false {} ((), [])
      [ascii "{\"wolfsentry-config-version\":1,\"routes\":[{\"family\":2,\"remote\":{\"port\":22"]).ret = 0 ∧
    (load (logged yesEnv) plainTail loaderConfig false {} ((), [])
      [ascii "{\"wolfsentry-config-version\":1,\"routes\":[{\"family\":2,\"remote\":{\"port\":22"]).user.1.2 = [] := by
  decide +kernel

/-- The load runs into undefined behaviour. -/
def Undefined (E : Env α) (tail : Tail) (a : α) (text : String) : Prop :=
  (load E tail loaderConfig false {} a [ascii text]).user.2 = .ub

/-- C56, finding: "prefix-bits" is not limited to the size of an address; the insertion of the rule then reads past the end of
the address (load_config.c:867-873, src/routes.c:712-715). -/
theorem C56_finding_prefix_bits_overread :
    Undefined yesEnv plainTail ()
      "{\"wolfsentry-config-version\":1,\"routes\":[{\"family\":2,\"remote\":{\"prefix-bits\":129}}]}" := by
  unfold Undefined; decide +kernel

/-- C56, finding: the name of a protocol or a service unknown to the C library dereferences a null pointer
(load_config.c:796-806, 955-966). -/
theorem C56_finding_unknown_name_crashes :
    Undefined yesEnv plainTail () "{\"wolfsentry-config-version\":1,\"routes\":[{\"family\":2,\"protocol\":\"x\"}]}" ∧
    Undefined yesEnv plainTail ()
      "{\"wolfsentry-config-version\":1,\"routes\":[{\"family\":2,\"protocol\":6,\"remote\":{\"port\":\"x\"}}]}" := by
  unfold Undefined; decide +kernel

/-- C56, finding: a link-layer address that ends in a single hexadecimal digit makes the loader look for a second digit
behind the end of the string; if there happens to be one, the length of the rest wraps around (load_config.c:579-599). -/
theorem C56_finding_hex_overread :
    ∃ tail : Tail, Undefined yesEnv tail ()
      "{\"wolfsentry-config-version\":1,\"routes\":[{\"family\":118,\"remote\":{\"address\":\"1:2:3:4:5:6\"}}]}" :=
  ⟨fun _ _ _ => [0x37#8], by unfold Undefined; decide +kernel⟩

/-- C56, finding: the lists of flags that doc/json_configuration.md:101-114 allows in "config-update" are always refused; so is
every other list there. -/
theorem C56_finding_update_lists_refused (E : Env α) (hE : NoEmptyEvent E) (noRules : Bool) (c : EventConfig) (k : List Byte)
    (xs : List J) (hx : elementsInPlace xs) (a a' : α) :
    ¬ ∃ st, run E a (start noRules c) (versioned "config-update" (.obj [(k, .arr xs)])).events = (a', .ok st) := by
  rw [C56_document_meaning E hE noRules c _ (versioned_inPlace (v := .obj [(k, .arr xs)]) ⟨hx, trivial⟩) a a']
  rintro ⟨h⟩
  cases h with
  | cons _ _ h =>
    cases h with
    | cons _ h _ =>
      generalize hkk : name (ascii "config-update") = kk at h
      generalize hv : J.obj [(k, J.arr xs)] = v at h
      cases h with
      | version h => subst hv; obtain ⟨t, h, _⟩ := h; cases h
      | config _ h _ _ =>
        injection hv with hv
        subst hv
        cases h with
        | cons _ h _ =>
          generalize name k = kk at h
          cases h with
          | setting h =>
            cases h with
            | maxConnections h => obtain ⟨t, h, _⟩ := h; cases h
            | penaltyBox h => obtain ⟨t, h, _⟩ := h; cases h
            | idleTime h => obtain ⟨t, h, _⟩ := h; cases h
            | derogatory h => obtain ⟨t, h, _⟩ := h; cases h
          | maxRoutes h _ => obtain ⟨t, h, _⟩ := h; cases h
          | maxIdle h _ => obtain ⟨t, h, _⟩ := h; cases h
      | policies => exact absurd hkk (by decide)
      | events => cases hv
      | routes => cases hv
      | values => exact absurd hkk (by decide)

example : ¬ ∃ st, run (logged yesEnv) ((), []) (start false {})
    (versioned "config-update" (.obj [(ascii "route-flags-to-add-on-insert", .arr [.str (ascii "penalty-boxed") [0x22#8]])])).events = (((), []), .ok st) :=
  C56_finding_update_lists_refused _ yes_noEmpty false {} _ _ (by exact ⟨⟨[], rfl⟩, trivial⟩) _ _

/-- C56, finding: an object without a version is accepted. -/
theorem C56_finding_no_version (E : Env α) (noRules : Bool) (c : EventConfig) (a : α) : Loads E noRules c (.obj []) a a :=
  .mk (.nil _)

end WS.Props
