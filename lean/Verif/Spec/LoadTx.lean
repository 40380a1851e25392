import Verif.Model.LoadTx
/-
What a user sees of loading a configuration.
-/
namespace WS.Spec.LT
open WS WS.Conf WS.Sax WS.Time WS.ConfNum WS.LT

/-- The feeds of a load, one per chunk: the session afterwards and what each feed returned. -/
def feeds (H : Host) (tail : Tail) : Session → List (List Byte) → Session × List (Option Err)
  | s, [] => (s, [])
  | s, c :: cs =>
    let x := feedLoad H tail s c
    let y := feeds H tail x.1 cs
    (y.1, x.2 :: y.2)

/-- A program that loads a configuration: init, one feed per chunk whatever the feeds return, fini.  Result: the world (context
and handlers run), what init or the feeds returned, what fini returned. -/
structure Outcome where
  world : World
  fed : List (Option Err) := []
  res : Option Err

def use (H : Host) (tail : Tail) (f : LoadFlags) (json : Option Config) (w : World) (chunks : List (List Byte)) : Outcome :=
  match initLoad H f json w with
  | (w, .error e) => { world := w, res := some e }
  | (_, .ok s) =>
    let x := feeds H tail s chunks
    let y := finiLoad H tail x.1
    { world := y.1, fed := x.2, res := y.2 }

/-- Feeds that are all accepted, and fini's verdict on the whole; or accepted up to a chunk that is refused with the error fini
repeats, all later ones with "invalid argument". -/
def Feeding (fed : List (Option Err)) (res : Option Err) : Prop :=
  (∀ x ∈ fed, x = none) ∨
  ∃ n k e, fed = List.replicate n none ++ some e :: List.replicate k (some .invalidArg) ∧ res = some e

/-- The event of the rule has an enabled action of this type. -/
def HasAction (A : RuleActs) (t : ActionType) (r : Route) : Bool :=
  match r.event with
  | some e => (e.actions t).any fun a => !A.disabled a
  | none => false

/-- Actions are inhibited by these flags. -/
def inhibits (c : EventConfig) : Bool := c.flags.getLsbD 2

/-- The event of the rule inhibits its actions. -/
def Muted (r : Route) : Bool :=
  match r.event with
  | some e => (match e.config with | some c => inhibits c | none => false)
  | none => false

/-- Rules whose delete handlers a removal must run, under the context's configuration `g`. -/
def DeleteDue (A : RuleActs) (g : EventConfig) (r : Route) : Bool :=
  HasAction A .delete r && !inhibits g && !Muted r && !r.flags.getLsbD 17

/-- Rules whose insert handlers an insertion must run in a context whose actions are enabled. -/
def InsertDue (A : RuleActs) (r : Route) : Bool := HasAction A .insert r && !Muted r

/-- The handlers run, as seen: type, rule, and that the actions are some of the event's enabled ones, from the first on. -/
def RunOf (A : RuleActs) (t : ActionType) (r : Route) (x : Ran) : Prop :=
  x.type = t ∧ x.rule = r.id ∧ x.actions ≠ [] ∧
    ∃ e rest, r.event = some e ∧ (e.actions t).filter (fun i => !A.disabled i) = x.actions ++ rest

/-- Handlers run for rules, one run for each rule due, in order. -/
inductive RunsOf (A : RuleActs) (t : ActionType) (due : Route → Bool) : List Route → List Ran → Prop
  | nil : RunsOf A t due [] []
  | skip {r rs xs} : due r = false → RunsOf A t due rs xs → RunsOf A t due (r :: rs) xs
  | run {r rs x xs} : due r = true → RunOf A t r x → RunsOf A t due rs xs → RunsOf A t due (r :: rs) (x :: xs)

/-- The context a load on a clone works on: what the flags say of the context given, actions inhibited. -/
def Draft (f : LoadFlags) (w : World) : World := { w with cx := inhibit (clone f.how w.cx) }

/-- The event of the rule is in the table of events. -/
def EventThere (c : Cx) (r : Route) : Prop := ∀ e, r.event = some e → ∃ x ∈ c.events, x.label = e.label

/-- The default event is in the table of events. -/
def DefaultThere (c : Cx) : Prop := ∀ e, c.routes.defaultEvent = some e → ∃ x ∈ c.events, x.label = e.label

/-- The context can be cloned for a load with these flags: the events that its default and, with NO_FLUSH, its rules refer to are in the
table of events. -/
def Whole (f : LoadFlags) (c : Cx) : Prop :=
  (f.noFlush = true ∨ f.onlyRoutes = true → DefaultThere c) ∧ (f.noFlush = true → ∀ r ∈ c.routes.ents, EventThere c r)

/-- `c` with actions inhibited or not (bit 2 of the flags of its configuration). -/
def WithInhibit (on : Bool) (c c' : CfgInt) : Prop :=
  c' = { c with config := { c.config with cfgFlags := c'.config.cfgFlags } } ∧
  ∀ k < 32, c'.config.cfgFlags.getLsbD k = if k = 2 then on else c.config.cfgFlags.getLsbD k

/-- What the clone for a load with these flags has: NO_FLUSH everything, FLUSH_ONLY_ROUTES everything but the rules, else only
what belongs to the context as it was created; actions are inhibited. -/
structure DraftOf (f : LoadFlags) (a d : Cx) : Prop where
  hpi : d.hpi = a.hpi
  mkIdCb : d.mkIdCb = a.mkIdCb
  idState : d.idState = a.idState
  config0 : d.config0 = a.config0
  actions : d.actions = a.actions
  config : WithInhibit true (if f.noFlush || f.onlyRoutes then a.config else a.config0) d.config
  events : d.events = if f.noFlush || f.onlyRoutes then a.events else []
  values : d.values = if f.noFlush || f.onlyRoutes then a.values else []
  rules : d.routes.ents = if f.noFlush then a.routes.ents else []
  policy : d.routes.defaultPolicy = if f.noFlush || f.onlyRoutes then a.routes.defaultPolicy else 0
  event : d.routes.defaultEvent =
    if f.noFlush || f.onlyRoutes then a.routes.defaultEvent.bind (fun e => a.events.find? (fun x => x.label == e.label)) else none
  fallthrough : d.routes.fallthroughRoute = if f.noFlush || f.onlyRoutes then a.routes.fallthroughRoute else none
  limit : d.routes.maxPurgeableRoutes = if f.noFlush || f.onlyRoutes then a.routes.maxPurgeableRoutes else 0

/-- What a load in place finds: NO_FLUSH the context, FLUSH_ONLY_ROUTES the context without rules, else also without events and
user values; policies, limits, the default event, actions and configuration stay. -/
structure FlushedTo (f : LoadFlags) (a d : Cx) : Prop where
  hpi : d.hpi = a.hpi
  mkIdCb : d.mkIdCb = a.mkIdCb
  idState : d.idState = a.idState
  config0 : d.config0 = a.config0
  actions : d.actions = a.actions
  config : d.config = a.config
  events : d.events = if f.noFlush || f.onlyRoutes then a.events else []
  values : d.values = if f.noFlush || f.onlyRoutes then a.values else []
  rules : d.routes.ents = if f.noFlush then a.routes.ents else []
  policy : d.routes.defaultPolicy = a.routes.defaultPolicy
  event : d.routes.defaultEvent = a.routes.defaultEvent
  fallthrough : d.routes.fallthroughRoute = a.routes.fallthroughRoute
  limit : d.routes.maxPurgeableRoutes = a.routes.maxPurgeableRoutes
  idle : d.routes.maxPurgeableIdleTime = a.routes.maxPurgeableIdleTime

/-- The context a load in place works on. -/
def InPlace (H : Host) (f : LoadFlags) (w : World) : World :=
  if f.noFlush then w else if f.onlyRoutes then flushRules H.acts w else contextFlush H.acts w

/-- The result of reading the document into a context, making the library's calls on it (C56 says which). -/
def loaded (H : Host) (tail : Tail) (f : LoadFlags) (json : Option Config) (conf : CfgInt) (w : World) (chunks : List (List Byte)) :
    Result (World × Res State) :=
  load H.env tail (json.getD defaultJson) f.noRules (ofCfg (cfgGet conf)) w chunks

end WS.Spec.LT
