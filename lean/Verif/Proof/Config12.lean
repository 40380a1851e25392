import Verif.Model.ConfigText
import Verif.Proof.JsonUser
/-
Loader proofs, part 12: a load without rules and events makes no call about rules or events.
-/
namespace WS.Conf
open WS WS.Sax WS.Time WS.ConfNum

variable {α : Type}

/-- `P` holds of the library, and the load goes on without rules. -/
def Keeps (P : α → Prop) (r : α × Res State) : Prop := P r.1 ∧ ∀ st, r.2 = .ok st → st.noRules = true

/-- The calls a load without rules may make. -/
def Plain : Call → Prop
  | .routeInsert .. | .eventInsert .. | .eventUpdateConfig .. | .setAuxEvent .. | .actionAppend .. | .copyActions .. | .setDefaultEvent .. => False
  | _ => True

variable {P : α → Prop}

theorem Keeps.ok {a : α} {st : State} (ha : P a) (h : st.noRules = true) : Keeps P (a, .ok st) :=
  ⟨ha, fun st' e => by injection e with e; exact e ▸ h⟩
theorem Keeps.err {a : α} {e : Err} (ha : P a) : Keeps P (a, .err e) := ⟨ha, fun _ e => by cases e⟩
theorem Keeps.ub {a : α} (ha : P a) : Keeps P (a, .ub) := ⟨ha, fun _ e => by cases e⟩
theorem Keeps.map {β : Type} {a : α} {f : β → State} {r : Res β} (ha : P a) (h : ∀ b, (f b).noRules = true) : Keeps P (a, Res.map f r) := by
  rcases r with b | e | _
  · exact .ok ha (h b)
  · exact .err ha
  · exact .ub ha
theorem Keeps.bind {β : Type} {a : α} {f : β → Res State} {r : Res β} (h0 : P a) (h : ∀ b, Keeps P (a, f b)) : Keeps P (a, r.bind f) := by
  rcases r with b | e | _
  · exact h b
  · exact .err h0
  · exact .ub h0
theorem Keeps.withValue {β : Type} {a : α} {f : β → α × Res State} {r : Res β} (h0 : P a) (h : ∀ b, Keeps P (f b)) : Keeps P (Conf.withValue a r f) := by
  rcases r with b | e | _
  · exact h b
  · exact .err h0
  · exact .ub h0
theorem Keeps.andThen {r : α × Res State} {f : α → State → α × Res State} (h : Keeps P r) (hf : ∀ a st, P a → st.noRules = true → Keeps P (f a st)) :
    Keeps P (Conf.andThen r f) := by
  obtain ⟨a, b | e | _⟩ := r
  · exact hf a b h.1 (h.2 b rfl)
  · exact h
  · exact h
theorem Keeps.ite {c : Prop} [Decidable c] {x y : α × Res State} (h1 : c → Keeps P x) (h2 : ¬ c → Keeps P y) : Keeps P (if c then x else y) := by
  split
  · exact h1 ‹_›
  · exact h2 ‹_›
theorem reset_noRules {st : State} (h : st.noRules = true) : st.reset.noRules = true := by
  unfold State.reset; split <;> exact h

variable (E : Env α) (hE : ∀ a c, Plain c → P a → P (E.call a c).1)
include hE

theorem Keeps.invoke {a : α} {c : Call} {st : State} (ha : P a) (hc : Plain c) (h : st.noRules = true) : Keeps P (Conf.invoke E a c st) := by
  have h1 := hE a c hc ha
  unfold Conf.invoke
  split
  · rename_i e; rw [e] at h1; exact .ok h1 h
  · rename_i e; rw [e] at h1; exact .err h1

theorem setPolicy_keeps {a : α} {st : State} (ha : P a) (h : st.noRules = true) : Keeps P (setPolicy E a st) := by
  unfold setPolicy
  split
  · exact Keeps.invoke E hE ha trivial h
  · exact .ok ha h

theorem config_keeps {a : α} {st : State} {ev : Ev} {c : EventConfig} {put : EventConfig → State} (ha : P a) (h : st.noRules = true)
    (hp : ∀ c, (put c).noRules = true) : Keeps P (handleConfig E a st ev c put) := by
  unfold handleConfig
  simp only
  repeat' first
    | exact Keeps.map ha (fun _ => hp _)
    | exact .ok ha h
    | exact .ok ha rfl
    | exact .err ha
    | exact Keeps.andThen (Keeps.invoke E hE ha trivial h) (fun a st ha h => setPolicy_keeps E hE ha h)
    | exact Keeps.withValue ha (fun _ => Keeps.invoke E hE ha trivial h)
    | refine Keeps.ite (fun _ => ?_) (fun _ => ?_)

theorem policy_keeps {a : α} {st : State} {ev : Ev} (ha : P a) (h : st.noRules = true) : Keeps P (handlePolicy E a st ev) := by
  unfold handlePolicy
  rw [if_pos (show st.noRules = true from h)]
  repeat' first
    | exact Keeps.map ha (fun _ => h)
    | exact .ok ha h
    | exact .ok ha rfl
    | exact .err ha
    | exact setPolicy_keeps E hE ha h
    | refine Keeps.ite (fun _ => ?_) (fun _ => ?_)

omit hE in
theorem route_keeps {a : α} {st : State} {ev : Ev} (ha : P a) (h : st.noRules = true) : Keeps P (handleRoute E a st ev) := by
  have h' := reset_noRules h
  unfold handleRoute routeEnd
  rw [if_pos (show st.noRules = true from h)]
  repeat' first
    | exact Keeps.map ha (fun _ => h)
    | exact .ok ha h
    | exact .ok ha rfl
    | exact .ok ha h'
    | exact .err ha
    | refine Keeps.ite (fun _ => ?_) (fun _ => ?_)

omit hE in
theorem eventTail_keeps {a : α} {st : State} {ev : Ev} (ha : P a) (h : st.noRules = true) : Keeps P (eventTail E ev a st) := by
  have h' := reset_noRules h
  unfold eventTail
  simp only [h, if_true]
  repeat' first
    | exact .ok ha h
    | exact .ok ha rfl
    | exact .ok ha h'
    | exact .err ha
    | refine Keeps.ite (fun _ => ?_) (fun _ => ?_)
    | split

theorem event_keeps {a : α} {st : State} {ev : Ev} (ha : P a) (h : st.noRules = true) : Keeps P (handleEvent E a st ev) := by
  unfold handleEvent
  repeat' first
    | exact Keeps.map ha (fun _ => h)
    | exact config_keeps E hE ha h (fun _ => h)
    | exact .ok ha h
    | exact .ok ha rfl
    | exact .err ha
    | (rw [if_pos (show st.noRules = true from h)]; exact .ok ha h)
    | refine Keeps.ite (fun _ => ?_) (fun _ => ?_)
    | (refine Keeps.andThen ?_ (fun a st ha h => eventTail_keeps E ha h)
       unfold insertEvent
       simp only [h, if_true]
       split
       · exact .ok ha h
       · exact .ok ha rfl)
    | (simp only [h, if_true]; exact .ok ha h)

theorem value_keeps {a : α} {st : State} {ev : Ev} (ha : P a) (h : st.noRules = true) : Keeps P (handleUserValue E a st ev) := by
  have h' := reset_noRules h
  have inv : ∀ {a : α} {st : State} {k : List Byte} {v : UserValue}, P a → st.noRules = true → Keeps P (Conf.invoke E a (.store k v) st) :=
    fun ha h => Keeps.invoke E hE ha trivial h
  have hplain : Keeps P (plainValue E a st ev) := by
    unfold plainValue
    split
    · exact inv ha h
    · exact inv ha h
    · exact inv ha h
    · have dbl : ∀ a', P a' → Keeps P (Conf.withValue a' (convertDouble E ev.type ev.data) fun d => Conf.invoke E a' (.store st.key (.double d)) st) :=
        fun a' ha' => Keeps.withValue ha' (fun _ => inv ha' h)
      simp only
      split
      · rename_i i _
        have hc := hE a (.store st.key (.sint i)) trivial ha
        split
        · rename_i e; rw [e] at hc; exact .ok hc h
        · rename_i e; rw [e] at hc; exact dbl _ hc
      · exact dbl a ha
      · exact .ub ha
    · exact Keeps.ite (fun _ => .err ha) (fun _ => inv ha h)
    · exact .ok ha h
    · exact .ok ha h
    · exact .err ha
  have htyped : ∀ st : State, st.noRules = true → Keeps P (typedValue E a st ev) := by
    intro st h
    unfold typedValue
    repeat' first
      | exact .err ha
      | exact inv ha h
      | exact Keeps.withValue ha (fun _ => inv ha h)
      | refine Keeps.ite (fun _ => ?_) (fun _ => ?_)
  have hjson : ∀ st : State, st.noRules = true → Keeps P (jsonValue E a st ev) := by
    intro st h
    unfold jsonValue
    simp only
    split
    · exact .err ha
    · exact Keeps.ite (fun _ => inv ha h) (fun _ => .ok ha h)
  have htail : Keeps P (userValueTail E a st ev) := by
    unfold userValueTail
    simp only
    have hs : ∀ (c : Prop) (_ : Decidable c), (if c then { st with section_ := .json, dom := [] } else st).noRules = true := by
      intro c _; split <;> exact h
    exact Keeps.ite (fun _ => hjson _ (hs _ _)) (fun _ => Keeps.ite (fun _ => htyped _ (hs _ _)) (fun _ => .err ha))
  unfold handleUserValue
  repeat' first
    | exact hplain
    | exact htail
    | exact .ok ha h
    | exact .ok ha rfl
    | exact .ok ha h'
    | exact .err ha
    | refine Keeps.ite (fun _ => ?_) (fun _ => ?_)

omit hE in
theorem top_keeps {a : α} {st : State} {ev : Ev} (ha : P a) (h : st.noRules = true) : Keeps P (handleTop a st ev) := by
  unfold handleTop
  split
  · split
    all_goals repeat' first
      | exact .ok ha h
      | exact .err ha
      | exact Keeps.bind ha (fun _ => by split; exact .err ha; exact .ok ha h)
      | refine Keeps.ite (fun _ => ?_) (fun _ => ?_)
  · exact .err ha

theorem step_keeps {a : α} {st : State} {ev : Ev} (ha : P a) (h : st.noRules = true) : Keeps P (step E a st ev) := by
  unfold step
  split
  · unfold handleKey
    exact Keeps.ite (fun _ => value_keeps E hE ha h) (fun _ => Keeps.ite (fun _ => .err ha) (fun _ => .ok ha h))
  · generalize hs : ({ st with depth := newDepth ev.type st.depth } : State) = st'
    have h' : st'.noRules = true := by rw [← hs]; exact h
    unfold dispatch
    refine Keeps.ite (fun _ => .ok ha h') (fun _ => Keeps.ite (fun _ => .ok ha (reset_noRules h')) (fun _ => ?_))
    split
    · exact top_keeps ha h'
    · exact config_keeps E hE ha h' (fun _ => h')
    · exact policy_keeps E hE ha h'
    · exact Keeps.ite (fun _ => .ok ha h') (fun _ => route_keeps E ha h')
    · exact Keeps.ite (fun _ => .ok ha h') (fun _ => event_keeps E hE ha h')
    · exact Keeps.ite (fun _ => .ok ha h') (fun _ => value_keeps E hE ha h')

theorem load_keeps (tail : Tail) (cfg : Config) (c : EventConfig) (a : α) (chunks : List (List Byte)) (ha : P a) :
    P (load E tail cfg true c a chunks).user.1 := by
  have := parse_user cfg (loader E tail) (P := Keeps P) (by
    rintro ⟨a, r⟩ e v q h
    rcases r with st | er | _
    · exact step_keeps E hE h.1 (h.2 st rfl)
    · exact h
    · exact h) (a, .ok (start true c)) chunks (.ok ha rfl)
  exact this.1

end WS.Conf
