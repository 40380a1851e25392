import Verif.Model.ConfigText
import Verif.Proof.JsonUser
/-
Load transaction proofs, part 1: a load that starts from a default configuration with the inhibit bit makes only calls whose
configurations have the bit.
-/
namespace WS.Conf
open WS WS.Sax WS.Time WS.ConfNum

variable {α : Type}

/-- The inhibit bit. -/
def IBit (f : Flags) : Prop := f.getLsbD 2 = true

/-- The calls that can be made. -/
def ICall : Call → Prop
  | .defaultConfigUpdate c => IBit c.flags
  | .eventInsert _ _ (some c) => IBit c.flags
  | .eventUpdateConfig _ c => IBit c.flags
  | _ => True

/-- The loader state: the configurations it holds have the bit. -/
structure IState (st : State) : Prop where
  dflt : IBit st.defaultConfig.flags
  own : st.event.configed = true → IBit st.event.config.flags
  sect : st.section_ = .eventConfig → st.event.configed = true

theorem IState.sec {st : State} (h : IState st) {x : Sect} (hx : x ≠ .eventConfig) : IState { st with section_ := x } :=
  ⟨h.dflt, h.own, fun e => absurd e hx⟩

theorem IState.reset {st : State} (h : IState st) : IState st.reset := by
  unfold State.reset
  split
  · exact h
  · exact ⟨h.dflt, (fun e => by cases e), (fun e => by cases e)⟩

/-- `P` holds of the library, and the loader state is fine. -/
def KeepsI (P : α → Prop) (r : α × Res State) : Prop := P r.1 ∧ ∀ st, r.2 = .ok st → IState st

variable {P : α → Prop}

theorem KeepsI.ok {a : α} {st : State} (ha : P a) (h : IState st) : KeepsI P (a, .ok st) :=
  ⟨ha, fun st' e => by injection e with e; exact e ▸ h⟩
theorem KeepsI.err {a : α} {e : Err} (ha : P a) : KeepsI P (a, .err e) := ⟨ha, fun _ e => by cases e⟩
theorem KeepsI.ub {a : α} (ha : P a) : KeepsI P (a, .ub) := ⟨ha, fun _ e => by cases e⟩
theorem KeepsI.map {β : Type} {a : α} {f : β → State} {r : Res β} (ha : P a) (h : ∀ b, r = .ok b → IState (f b)) :
    KeepsI P (a, Res.map f r) := by
  rcases r with b | e | _
  · exact .ok ha (h b rfl)
  · exact .err ha
  · exact .ub ha
theorem KeepsI.bind {β : Type} {a : α} {f : β → Res State} {r : Res β} (h0 : P a) (h : ∀ b, KeepsI P (a, f b)) : KeepsI P (a, r.bind f) := by
  rcases r with b | e | _
  · exact h b
  · exact .err h0
  · exact .ub h0
theorem KeepsI.withValue {β : Type} {a : α} {f : β → α × Res State} {r : Res β} (h0 : P a) (h : ∀ b, KeepsI P (f b)) : KeepsI P (Conf.withValue a r f) := by
  rcases r with b | e | _
  · exact h b
  · exact .err h0
  · exact .ub h0
theorem KeepsI.andThen {r : α × Res State} {f : α → State → α × Res State} (h : KeepsI P r) (hf : ∀ a st, P a → IState st → KeepsI P (f a st)) :
    KeepsI P (Conf.andThen r f) := by
  obtain ⟨a, b | e | _⟩ := r
  · exact hf a b h.1 (h.2 b rfl)
  · exact h
  · exact h
theorem KeepsI.ite {c : Prop} [Decidable c] {x y : α × Res State} (h1 : c → KeepsI P x) (h2 : ¬ c → KeepsI P y) : KeepsI P (if c then x else y) := by
  split
  · exact h1 ‹_›
  · exact h2 ‹_›

variable (E : Env α) (hE : ∀ a c, ICall c → P a → P (E.call a c).1)
include hE

theorem KeepsI.invoke {a : α} {c : Call} {st : State} (ha : P a) (hc : ICall c) (h : IState st) : KeepsI P (Conf.invoke E a c st) := by
  have h1 := hE a c hc ha
  unfold Conf.invoke
  split
  · rename_i e; rw [e] at h1; exact .ok h1 h
  · rename_i e; rw [e] at h1; exact .err h1

theorem setPolicy_inh {a : α} {st : State} (ha : P a) (h : IState st) : KeepsI P (setPolicy E a st) := by
  unfold setPolicy
  split
  · exact KeepsI.invoke E hE ha trivial h
  · exact .ok ha h

omit hE in
theorem configList_flags {key : List Byte} {t : JType} {d : List Byte} {c c' : EventConfig} (h : configList key t d c = .ok c') : c'.flags = c.flags := by
  unfold configList Res.bind at h
  grind

omit hE in
theorem convertFlag_inh {t : JType} {f b v : Flags} (hb : b.getLsbD 2 = false) (h : convertFlag t f b = .ok v) (hf : IBit f) : IBit v := by
  unfold convertFlag at h
  unfold IBit at *
  split at h
  · injection h with h; rw [← h, BitVec.getLsbD_and, BitVec.getLsbD_not, hf, hb]; rfl
  · injection h with h; rw [← h, BitVec.getLsbD_or, hf]; rfl
  · cases h

theorem config_inh {a : α} {st : State} {ev : Ev} {c : EventConfig} {put : EventConfig → State} (ha : P a) (h : IState st)
    (hc : IBit c.flags) (hp : ∀ c, IBit c.flags → IState (put c)) : KeepsI P (handleConfig E a st ev c put) := by
  unfold handleConfig
  simp only
  repeat' first
    | exact KeepsI.map ha (fun b hb => hp _ (by unfold IBit; rw [configList_flags hb]; exact hc))
    | exact KeepsI.map ha (fun _ hv => hp _ (convertFlag_inh (by decide) hv hc))
    | exact KeepsI.map ha (fun _ _ => hp _ hc)
    | exact .ok ha h
    | exact .err ha
    | exact KeepsI.andThen (KeepsI.invoke E hE ha h.dflt ⟨h.dflt, h.own, h.sect⟩) (fun a st ha h => setPolicy_inh E hE ha h)
    | exact KeepsI.withValue ha (fun _ => KeepsI.invoke E hE ha trivial h)
    | refine KeepsI.ite (fun _ => ?_) (fun _ => ?_)

theorem policy_inh {a : α} {st : State} {ev : Ev} (ha : P a) (h : IState st) : KeepsI P (handlePolicy E a st ev) := by
  unfold handlePolicy
  repeat' first
    | exact KeepsI.map ha (fun _ _ => ⟨h.dflt, h.own, h.sect⟩)
    | exact .ok ha h
    | exact .err ha
    | exact setPolicy_inh E hE ha ⟨h.dflt, h.own, h.sect⟩
    | exact KeepsI.invoke E hE ha trivial h
    | refine KeepsI.ite (fun _ => ?_) (fun _ => ?_)

theorem route_inh {a : α} {st : State} {ev : Ev} (ha : P a) (h : IState st) : KeepsI P (handleRoute E a st ev) := by
  have h' := h.reset
  unfold handleRoute routeEnd
  repeat' first
    | exact KeepsI.map ha (fun _ _ => ⟨h.dflt, h.own, h.sect⟩)
    | exact .ok ha h
    | exact .ok ha h'
    | exact .ok ha ⟨h'.dflt, h'.own, h'.sect⟩
    | exact .ok ha (h.sec (by decide))
    | exact .err ha
    | exact .ub ha
    | exact KeepsI.invoke E hE ha trivial h'
    | refine KeepsI.ite (fun _ => ?_) (fun _ => ?_)

theorem eventTail_inh {a : α} {st : State} {ev : Ev} (ha : P a) (h : IState st) : KeepsI P (eventTail E ev a st) := by
  have h' := h.reset
  unfold eventTail
  repeat' first
    | exact .ok ha h
    | exact .ok ha h'
    | exact .ok ha (h.sec (by decide))
    | exact .ok ha ⟨h.dflt, h.own, fun e => by cases e⟩
    | exact .err ha
    | exact KeepsI.invoke E hE ha trivial h
    | refine KeepsI.ite (fun _ => ?_) (fun _ => ?_)
    | split

theorem insertEvent_inh {a : α} {st : State} (ha : P a) (h : IState st) : KeepsI P (insertEvent E a st) := by
  unfold insertEvent
  have h2 : IState { st with event := { st.event with inserted := true } } := ⟨h.dflt, h.own, h.sect⟩
  refine KeepsI.ite (fun _ => .ok ha h) (fun _ => KeepsI.ite (fun _ => .ok ha h2) (fun _ => ?_))
  refine KeepsI.invoke E hE ha ?_ h2
  by_cases hc : st.event.configed = true
  · rw [if_pos hc]; exact h.own hc
  · rw [if_neg hc]; trivial

theorem event_inh {a : α} {st : State} {ev : Ev} (ha : P a) (h : IState st) : KeepsI P (handleEvent E a st ev) := by
  unfold handleEvent
  refine KeepsI.ite (fun _ => .err ha) (fun _ => ?_)
  refine KeepsI.ite (fun _ => .ok ha ⟨h.dflt, h.own, h.sect⟩) (fun _ => ?_)
  refine KeepsI.ite (fun _ => KeepsI.ite (fun _ => .ok ha ⟨h.dflt, h.own, h.sect⟩) (fun _ => .err ha)) (fun _ => ?_)
  refine KeepsI.ite (fun _ => KeepsI.ite (fun _ => .err ha) (fun _ => .ok ha ⟨h.dflt, h.own, h.sect⟩)) (fun _ => ?_)
  refine KeepsI.ite (fun _ => KeepsI.ite (fun _ => KeepsI.ite (fun _ => .err ha) (fun _ => KeepsI.map ha (fun _ _ => ⟨h.dflt, h.own, h.sect⟩)))
    (fun _ => .err ha)) (fun _ => ?_)
  refine KeepsI.ite (fun _ => KeepsI.ite (fun _ => .err ha) (fun _ => .ok ha ⟨h.dflt, fun _ => h.dflt, fun _ => rfl⟩)) (fun _ => ?_)
  refine KeepsI.ite (fun hs => config_inh E hE ha h (h.own (h.sect hs.2)) (fun c hc => ⟨h.dflt, fun _ => hc, h.sect⟩)) (fun _ => ?_)
  refine KeepsI.ite (fun hs => ?_) (fun _ => ?_)
  · have hn : IState { st with section_ := .none } := h.sec (by decide)
    exact KeepsI.ite (fun _ => .ok ha hn) (fun _ => KeepsI.ite (fun _ => KeepsI.invoke E hE ha (h.own (h.sect hs.2.2)) hn) (fun _ => .ok ha hn))
  · exact KeepsI.andThen (insertEvent_inh E hE ha h) (fun a st ha h => eventTail_inh E hE ha h)

theorem value_inh {a : α} {st : State} {ev : Ev} (ha : P a) (h : IState st) : KeepsI P (handleUserValue E a st ev) := by
  have h' := h.reset
  have inv : ∀ {a : α} {st : State} {k : List Byte} {v : UserValue}, P a → IState st → KeepsI P (Conf.invoke E a (.store k v) st) :=
    fun ha h => KeepsI.invoke E hE ha trivial h
  have hplain : KeepsI P (plainValue E a st ev) := by
    unfold plainValue
    split
    · exact inv ha h
    · exact inv ha h
    · exact inv ha h
    · have dbl : ∀ a', P a' → KeepsI P (Conf.withValue a' (convertDouble E ev.type ev.data) fun d => Conf.invoke E a' (.store st.key (.double d)) st) :=
        fun a' ha' => KeepsI.withValue ha' (fun _ => inv ha' h)
      simp only
      split
      · rename_i i _
        have hc := hE a (.store st.key (.sint i)) trivial ha
        split
        · rename_i e; rw [e] at hc; exact .ok hc h
        · rename_i e; rw [e] at hc; exact dbl _ hc
      · exact dbl a ha
      · exact .ub ha
    · exact KeepsI.ite (fun _ => .err ha) (fun _ => inv ha h)
    · exact .ok ha ⟨h.dflt, h.own, h.sect⟩
    · exact .ok ha h
    · exact .err ha
  have htyped : ∀ st : State, IState st → KeepsI P (typedValue E a st ev) := by
    intro st h
    unfold typedValue
    repeat' first
      | exact .err ha
      | exact inv ha h
      | exact KeepsI.withValue ha (fun _ => inv ha h)
      | refine KeepsI.ite (fun _ => ?_) (fun _ => ?_)
  have hjson : ∀ st : State, IState st → KeepsI P (jsonValue E a st ev) := by
    intro st h
    unfold jsonValue
    simp only
    split
    · exact .err ha
    · exact KeepsI.ite (fun _ => inv ha ⟨h.dflt, h.own, fun e => by cases e⟩) (fun _ => .ok ha ⟨h.dflt, h.own, h.sect⟩)
  have htail : KeepsI P (userValueTail E a st ev) := by
    unfold userValueTail
    simp only
    have hs : ∀ (c : Prop) (_ : Decidable c), IState (if c then { st with section_ := .json, dom := [] } else st) := by
      intro c _; split
      · exact ⟨h.dflt, h.own, fun e => by cases e⟩
      · exact h
    exact KeepsI.ite (fun _ => hjson _ (hs _ _)) (fun _ => KeepsI.ite (fun _ => htyped _ (hs _ _)) (fun _ => .err ha))
  unfold handleUserValue
  repeat' first
    | exact hplain
    | exact htail
    | exact .ok ha ⟨h.dflt, h.own, h.sect⟩
    | exact .ok ha h'
    | exact .err ha
    | refine KeepsI.ite (fun _ => ?_) (fun _ => ?_)

omit hE in
theorem top_inh {a : α} {st : State} {ev : Ev} (ha : P a) (h : IState st) : KeepsI P (handleTop a st ev) := by
  unfold handleTop
  split
  · split
    all_goals repeat' first
      | exact .ok ha ⟨h.dflt, h.own, h.sect⟩
      | exact .err ha
      | exact KeepsI.bind ha (fun _ => by split; exact .err ha; exact .ok ha ⟨h.dflt, h.own, h.sect⟩)
      | refine KeepsI.ite (fun _ => ?_) (fun _ => ?_)
  · exact .err ha

theorem step_inh {a : α} {st : State} {ev : Ev} (ha : P a) (h : IState st) : KeepsI P (step E a st ev) := by
  unfold step
  split
  · unfold handleKey
    exact KeepsI.ite (fun _ => value_inh E hE ha h) (fun _ => KeepsI.ite (fun _ => .err ha) (fun _ => .ok ha ⟨h.dflt, h.own, h.sect⟩))
  · generalize hs : ({ st with depth := newDepth ev.type st.depth } : State) = st'
    have h' : IState st' := by rw [← hs]; exact ⟨h.dflt, h.own, h.sect⟩
    have ht : IState { st' with table := .none } := ⟨h'.dflt, h'.own, h'.sect⟩
    unfold dispatch
    refine KeepsI.ite (fun _ => .ok ha h') (fun _ => KeepsI.ite (fun _ => .ok ha h'.reset) (fun _ => ?_))
    split
    · exact top_inh ha h'
    · exact config_inh E hE ha h' h'.dflt (fun c hc => ⟨hc, h'.own, h'.sect⟩)
    · exact policy_inh E hE ha h'
    · exact KeepsI.ite (fun _ => .ok ha ht) (fun _ => route_inh E hE ha h')
    · exact KeepsI.ite (fun _ => .ok ha ht) (fun _ => event_inh E hE ha h')
    · exact KeepsI.ite (fun _ => .ok ha ht) (fun _ => value_inh E hE ha h')

theorem loader_inh (tail : Tail) (u : α × Res State) (e : Sax.Event) (v q : Pos) (h : KeepsI P u) : KeepsI P (loader E tail u e v q).1 := by
  obtain ⟨a, r⟩ := u
  rcases r with st | er | _
  · exact step_inh E hE h.1 (h.2 st rfl)
  · exact h
  · exact h

end WS.Conf
