import Verif.Proof.Config5
/-
Loader proofs, part 6: events.
-/
namespace WS.Conf
open WS WS.Sax WS.Time WS.ConfNum WS.Spec.Load WS.Spec.Conf

variable {α : Type}

/-! ### The lists in an event configuration -/

/-- A list member: its table of names and the field it goes to. -/
structure ListField where
  table : List (Flags × String)
  get : EventConfig → Flags
  set : EventConfig → Flags → EventConfig

def listOf (k : List Byte) : Option ListField :=
  if k = ascii "route-flags-to-add-on-insert" then
    some ⟨flagNames, fun c => c.routeFlagsToAdd, fun c f => { c with routeFlagsToAdd := f }⟩
  else if k = ascii "route-flags-to-clear-on-insert" then
    some ⟨flagNames, fun c => c.routeFlagsToClear, fun c f => { c with routeFlagsToClear := f }⟩
  else if k = ascii "action-res-filter-bits-set" then
    some ⟨actionResNames, fun c => c.filterBitsSet, fun c f => { c with filterBitsSet := f }⟩
  else if k = ascii "action-res-filter-bits-unset" then
    some ⟨actionResNames, fun c => c.filterBitsUnset, fun c f => { c with filterBitsUnset := f }⟩
  else if k = ascii "action-res-bits-to-add" then
    some ⟨actionResNames, fun c => c.resBitsToAdd, fun c f => { c with resBitsToAdd := f }⟩
  else if k = ascii "action-res-bits-to-clear" then
    some ⟨actionResNames, fun c => c.resBitsToClear, fun c f => { c with resBitsToClear := f }⟩
  else none

structure ListField.Lawful (l : ListField) : Prop where
  get_set : ∀ c f, l.get (l.set c f) = f
  set_get : ∀ c, l.set c (l.get c) = c
  set_set : ∀ c f g, l.set (l.set c f) g = l.set c g

theorem listOf_lawful {k : List Byte} {l : ListField} (h : listOf k = some l) : l.Lawful := by
  unfold listOf at h
  repeat' split at h
  all_goals (first | cases h | skip)
  all_goals exact ⟨fun _ _ => rfl, fun _ => rfl, fun _ _ _ => rfl⟩

theorem eventSetting_iff {k : List Byte} {v : J} {c c' : EventConfig} : EventSetting k v c c' ↔
    Setting k v c c' ∨ ∃ l xs f, listOf k = some l ∧ v = .arr xs ∧ Names l.table xs (l.get c) f ∧ c' = l.set c f := by
  constructor
  · intro h
    cases h with
    | setting h => exact .inl h
    | add h => exact .inr ⟨_, _, _, rfl, rfl, h, rfl⟩
    | clear h => exact .inr ⟨_, _, _, rfl, rfl, h, rfl⟩
    | filterSet h => exact .inr ⟨_, _, _, rfl, rfl, h, rfl⟩
    | filterUnset h => exact .inr ⟨_, _, _, rfl, rfl, h, rfl⟩
    | resAdd h => exact .inr ⟨_, _, _, rfl, rfl, h, rfl⟩
    | resClear h => exact .inr ⟨_, _, _, rfl, rfl, h, rfl⟩
  · rintro (h | ⟨l, xs, f, hl, rfl, h, rfl⟩)
    · exact .setting h
    · unfold listOf at hl
      split at hl
      · rename_i hk; subst hk; cases hl; exact .add h
      split at hl
      · rename_i hk; subst hk; cases hl; exact .clear h
      split at hl
      · rename_i hk; subst hk; cases hl; exact .filterSet h
      split at hl
      · rename_i hk; subst hk; cases hl; exact .filterUnset h
      split at hl
      · rename_i hk; subst hk; cases hl; exact .resAdd h
      split at hl
      · rename_i hk; subst hk; cases hl; exact .resClear h
      · cases hl

theorem flagNames_plain : ∀ p ∈ flagNames, cstr (ascii p.2) = ascii p.2 := by decide

theorem routeFlag_ok {data : List Byte} {f : Flags} : routeFlag data = .ok f ↔ ∃ n, (f, n) ∈ flagNames ∧ data = ascii n := by
  unfold routeFlag
  rcases hf : flagAssocByName (cstr data) with e | g
  · simp only [reduceCtorEq, false_iff]
    rintro ⟨n, h, rfl⟩
    rw [flagNames_plain _ h, flagName_ok.2 ⟨n, h, rfl⟩] at hf
    cases hf
  · simp only
    obtain ⟨n, h1, h2⟩ := flagName_ok.1 hf
    by_cases hc : cstr data = data
    · rw [if_pos hc]
      simp only [Res.ok.injEq]
      constructor
      · rintro rfl; exact ⟨n, h1, by rw [← hc, h2]⟩
      · rintro ⟨n', h, rfl⟩
        rw [hc] at h2
        have := flagNames_unique _ h _ h1 h2
        simp only [Prod.mk.injEq] at this
        exact this.1.symm
    · rw [if_neg hc]
      simp only [reduceCtorEq, false_iff]
      rintro ⟨n', h, rfl⟩
      exact hc (flagNames_plain _ h)

theorem actionResNames_unique : ∀ p ∈ actionResNames, ∀ q ∈ actionResNames, ascii p.2 = ascii q.2 → p = q := by decide

theorem actionResByName_ok {k : List Byte} {f : Flags} : actionResByName k = .ok f ↔ ∃ n, (f, n) ∈ actionResNames ∧ k = ascii n := by
  unfold actionResByName
  constructor
  · intro h
    split at h
    · rename_i p hp
      injection h with h
      have h1 := List.find?_some hp
      have h2 := List.mem_of_find?_eq_some hp
      simp only [beq_iff_eq] at h1
      exact ⟨p.2, by rw [← h]; exact h2, h1.symm⟩
    · cases h
  · rintro ⟨n, h1, rfl⟩
    have : actionResNames.find? (fun p => ascii p.2 == ascii n) = some (f, n) := by
      rcases hq : actionResNames.find? (fun p => ascii p.2 == ascii n) with _ | q
      · have := List.find?_eq_none.1 hq _ h1
        simp at this
      · have h2 := List.find?_some hq
        have h3 := List.mem_of_find?_eq_some hq
        simp only [beq_iff_eq] at h2
        have h4 := actionResNames_unique q h3 _ h1 h2
        rw [hq, h4]
    rw [this]

theorem actionRes_ok {data : List Byte} {f : Flags} : actionRes data = .ok f ↔ ∃ n, (f, n) ∈ actionResNames ∧ data = ascii n := by
  rw [← actionResByName_ok]
  unfold actionRes
  rcases actionResByName data with e | g <;> simp

theorem configList_beg {k : List Byte} {c c' : EventConfig} {d : List Byte} : configList k .arrayBeg d c = .ok c' ↔ c' = c ∧ (listOf k).isSome := by
  have ok : ∀ l : ListField, (Res.ok c : Res EventConfig) = .ok c' ↔ c' = c ∧ (some l).isSome = true := fun l =>
    ⟨fun h => ⟨by injection h with h; exact h.symm, rfl⟩, fun h => by rw [h.1]⟩
  unfold configList listOf
  by_cases h1 : k = ascii "route-flags-to-add-on-insert"
  · simp only [h1, true_or, if_true]; exact ok _
  by_cases h2 : k = ascii "route-flags-to-clear-on-insert"
  · subst h2; simp only [h1, if_false, or_true, if_true]; exact ok _
  simp only [h1, h2, or_self, if_false]
  by_cases h3 : k = ascii "action-res-filter-bits-set"
  · simp only [h3, true_or, if_true]; exact ok _
  by_cases h4 : k = ascii "action-res-filter-bits-unset"
  · subst h4; simp only [h3, if_false, true_or, or_true, if_true]; exact ok _
  by_cases h5 : k = ascii "action-res-bits-to-add"
  · subst h5; simp only [h3, h4, if_false, true_or, or_true, if_true]; exact ok _
  by_cases h6 : k = ascii "action-res-bits-to-clear"
  · subst h6; simp only [h3, h4, h5, if_false, or_true, if_true]; exact ok _
  · simp [h3, h4, h5, h6]

theorem configList_value {k : List Byte} {v : J} {l : ListField} (hl : listOf k = some l) (hv : restEvs v = []) {c c' : EventConfig} :
    configList k (leafEv v).type (leafEv v).data c = .ok c' ↔ ∃ f, Named l.table v f ∧ c' = l.set c (l.get c ||| f) := by
  have hty : (leafEv v).type ≠ .arrayBeg := by
    cases v with
    | bool b => cases b <;> simp [leafEv]
    | arr xs => exact absurd hv (rest_arr xs)
    | _ => simp [leafEv]
  have hnamed : ∀ t f, Named t v f ↔ (leafEv v).type = .string ∧ ∃ n, (f, n) ∈ t ∧ (leafEv v).data = ascii n := by
    intro t f
    constructor
    · rintro ⟨n, after, h, rfl⟩; exact ⟨rfl, n, h, rfl⟩
    · rintro ⟨h, n, h1, h2⟩
      obtain ⟨s, r, rfl⟩ := leaf_string h
      have h2 : s = ascii n := h2
      exact ⟨n, r, h1, by rw [h2]⟩
  simp only [hnamed]
  generalize (leafEv v).type = ty at hty ⊢
  generalize (leafEv v).data = data
  unfold configList
  unfold listOf at hl
  have key : ∀ (g : Flags → EventConfig) (rf : Res Flags) (t : List (Flags × String)), (∀ f, rf = .ok f ↔ ∃ n, (f, n) ∈ t ∧ data = ascii n) →
      (∀ r : Res EventConfig, r = (if ty = .arrayBeg then .ok c else if ty ≠ .string then .err .configInvalidValue else rf.bind fun f => .ok (g f)) →
        (r = .ok c' ↔ ∃ f, (ty = .string ∧ ∃ n, (f, n) ∈ t ∧ data = ascii n) ∧ c' = g f)) := by
    rintro g rf t h r rfl
    rw [if_neg hty]
    by_cases hs : ty = .string
    · rw [if_neg (by simpa using hs), bind_ok_iff]
      simp only [h, hs, true_and, Res.ok.injEq]
      constructor
      · rintro ⟨f, h1, h2⟩; exact ⟨f, h1, h2.symm⟩
      · rintro ⟨f, h1, h2⟩; exact ⟨f, h1, h2.symm⟩
    · rw [if_pos hs]; simp [hs]
  split at hl
  · rename_i hk
    injection hl with hl; subst hl
    simp only [hk, true_or, if_true]
    exact key _ _ _ (fun f => routeFlag_ok) _ rfl
  rename_i h1
  split at hl
  · rename_i hk
    injection hl with hl; subst hl
    subst hk
    simp only [or_true, if_true, h1, if_false]
    exact key _ _ _ (fun f => routeFlag_ok) _ rfl
  rename_i h2
  simp only [h1, h2, or_self, if_false]
  split at hl
  · rename_i hk
    injection hl with hl; subst hl
    subst hk
    simp only [true_or, if_true]
    exact key _ _ _ (fun f => actionRes_ok) _ rfl
  rename_i h3
  split at hl
  · rename_i hk
    injection hl with hl; subst hl
    subst hk
    simp only [or_true, true_or, if_true, h3, if_false]
    exact key _ _ _ (fun f => actionRes_ok) _ rfl
  rename_i h4
  split at hl
  · rename_i hk
    injection hl with hl; subst hl
    subst hk
    simp only [or_true, true_or, if_true, h3, h4, if_false]
    exact key _ _ _ (fun f => actionRes_ok) _ rfl
  rename_i h5
  split at hl
  · rename_i hk
    injection hl with hl; subst hl
    subst hk
    simp only [or_true, if_true, h3, h4, h5, if_false]
    exact key _ _ _ (fun f => actionRes_ok) _ rfl
  · cases hl

/-! ### States within an event -/

/-- The event under construction for what is known of it. -/
def evUC (e : EventSt) (c : EventConfig) (l : Option ActionType) : EventUC :=
  { label := e.label, priority := e.priority, config := e.config.getD c, configed := e.config.isSome, inserted := e.inserted, list := l }

def AtEvents (nr : Bool) (s : State) (f : Fr) : Prop :=
  ∃ k kd dom, s = { base nr f k kd dom with table := .events, depth := 2 }

def AtEvent (nr : Bool) (f : Fr) (s : State) (e : EventSt) : Prop :=
  ∃ k kd dom c l, s = { base nr f k kd dom with table := .events, object := .event, depth := 3, event := evUC e c l }

def AtEventConfig (nr : Bool) (f : Fr) (e : EventSt) (s : State) (c : EventConfig) : Prop :=
  ∃ k kd dom l, s = { base nr f k kd dom with
    table := .events, object := .event, depth := 4, section_ := .eventConfig, event := evUC { e with config := some c } {} l }

def AtNames (nr : Bool) (f : Fr) (e : EventSt) (k : List Byte) (s : State) (c : EventConfig) : Prop :=
  ∃ kd dom l, s = { base nr f k kd dom with
    table := .events, object := .event, depth := 5, section_ := .eventConfig, event := evUC { e with config := some c } {} l }

def AtActions (nr : Bool) (f : Fr) (e : EventSt) (t : ActionType) (s : State) (_ : Unit) : Prop :=
  ∃ k kd dom c, s = { base nr f k kd dom with
    table := .events, object := .event, depth := 4, section_ := .actionList, event := evUC e c (some t) }

theorem event_level (nr : Bool) (f : Fr) : Level (AtEvent nr f) 3 := by
  constructor
  · rintro s x ⟨k, kd, dom, c, l, rfl⟩; simp [base]
  · rintro s x ⟨k, kd, dom, c, l, rfl⟩; rfl
  · rintro s x k' ⟨k, kd, dom, c, l, rfl⟩; exact ⟨k', _, dom, c, l, rfl⟩

theorem eventConfig_level (nr : Bool) (f : Fr) (e : EventSt) : Level (AtEventConfig nr f e) 4 := by
  constructor
  · rintro s x ⟨k, kd, dom, l, rfl⟩; simp
  · rintro s x ⟨k, kd, dom, l, rfl⟩; rfl
  · rintro s x k' ⟨k, kd, dom, l, rfl⟩; exact ⟨k', _, dom, l, rfl⟩

theorem handleEvent_config {E : Env α} {a : α} {s : State} {ev : Ev} (ht : s.table = .events) (ho : s.object = .event)
    (hd : s.depth = 4 ∨ s.depth = 5) (hs : s.section_ = .eventConfig) :
    handleEvent E a s ev = handleConfig E a s ev s.event.config (fun c => { s with event := { s.event with config := c } }) := by
  have h1 : s.depth ≠ 1 := by omega
  have h3 : s.depth ≠ 3 := by omega
  unfold handleEvent
  simp only [ht, ho, hs, h1, h3, false_and, ne_eq, not_true_eq_false, if_false, reduceCtorEq, and_false]
  rw [if_pos ⟨hd, trivial⟩]

/-- Past the members before insertion. -/
theorem handleEvent_tail {E : Env α} {a : α} {s : State} {ev : Ev} (ht : s.table = .events) (ho : s.object = .event)
    (h1 : s.depth ≠ 1) (h2 : ¬ (s.depth = 3 ∧ ev.type = .string ∧ s.key = ascii "label"))
    (h3 : ¬ (s.depth = 3 ∧ ev.type = .number)) (h4 : ¬ (s.depth = 4 ∧ ev.type = .objectBeg ∧ s.key = ascii "config" ∧ s.section_ = .none))
    (h5 : s.section_ ≠ .eventConfig) :
    handleEvent E a s ev = andThen (insertEvent E a s) (eventTail E ev) := by
  unfold handleEvent
  rw [if_neg (by simp [ht]), if_neg (fun h => h1 h.1), if_neg (by simp [ho]), if_neg h2, if_neg h3, if_neg h4, if_neg (fun h => h5 h.2),
    if_neg (fun h => h5 h.2.2)]

theorem insertEvent_ok {E : Env α} {nr : Bool} {a a' : α} {s s' : State} {e : EventSt} {c : EventConfig} {l : Option ActionType}
    (hn : s.noRules = nr) (he : s.event = evUC e c l) : insertEvent E a s = (a', .ok s') ↔
      ∃ e', Inserted E nr (e, a) (e', a') ∧ s' = { s with event := evUC e' c l } := by
  obtain ⟨_, _, _, _, _, _, _, _, _, _, _, _, _, _⟩ := s
  simp only at hn he
  subst hn he
  rcases Bool.eq_false_or_eq_true e.inserted with h | h
  · have hins : ∀ (n : Bool) (s : State), s.event = evUC e c l → insertEvent E a s = (a, .ok s) := by
      intro n s hs
      unfold insertEvent
      rw [hs]
      show (if e.inserted = true then _ else _) = _
      rw [if_pos h]
    rw [hins false _ rfl]
    simp only [Prod.mk.injEq, Res.ok.injEq]
    constructor
    · rintro ⟨rfl, rfl⟩
      exact ⟨e, .before h, rfl⟩
    · rintro ⟨e', hin, rfl⟩
      cases hin with
      | before _ => exact ⟨rfl, rfl⟩
      | now h' _ => rw [h] at h'; cases h'
  · rename_i nr _ _ _ _ _ _ _ _ _ _ _
    have hc : (if (evUC e c l).configed = true then some (evUC e c l).config else none) = e.config := by
      unfold evUC; cases e.config <;> simp
    have hins : ∀ (s : State), s.event = evUC e c l → insertEvent E a s = if s.noRules then (a, .ok { s with event := evUC { e with inserted := true } c l })
        else invoke E a (.eventInsert e.label e.priority e.config) { s with event := evUC { e with inserted := true } c l } := by
      intro s hs
      unfold insertEvent
      rw [hs, hc]
      show (if e.inserted = true then _ else _) = _
      rw [if_neg (by simp [h])]
      rfl
    rw [hins _ rfl]
    simp only
    have : ∀ e', Inserted E nr (e, a) (e', a') ↔ e' = { e with inserted := true } ∧ DidRule E nr (.eventInsert e.label e.priority e.config) a a' := by
      intro e'
      constructor
      · intro hin
        cases hin with
        | before h' => rw [h] at h'; cases h'
        | now _ h' => exact ⟨rfl, h'⟩
      · rintro ⟨rfl, h'⟩; exact .now h h'
    simp only [this]
    unfold DidRule
    cases nr
    · simp only [Bool.false_eq_true, if_false, invoke_ok]
      constructor
      · rintro ⟨h1, rfl⟩; exact ⟨_, ⟨rfl, h1⟩, rfl⟩
      · rintro ⟨_, ⟨rfl, h1⟩, rfl⟩; exact ⟨h1, rfl⟩
    · simp only [if_true, Prod.mk.injEq, Res.ok.injEq]
      constructor
      · rintro ⟨rfl, rfl⟩; exact ⟨_, ⟨rfl, rfl⟩, rfl⟩
      · rintro ⟨_, ⟨rfl, rfl⟩, rfl⟩; exact ⟨rfl, rfl⟩

/-- Refused after the insertion. -/
theorem tail_refused {E : Env α} {a : α} {s : State} {ev : Ev} (h : ∀ a1 s1, s1.depth = s.depth → s1.section_ = s.section_ → s1.key = s.key →
    ∀ a' s', eventTail E ev a1 s1 ≠ (a', .ok s')) : ∀ a' s', andThen (insertEvent E a s) (eventTail E ev) ≠ (a', .ok s') := by
  intro a' s' hr
  obtain ⟨a1, s1, h1, h2⟩ := andThen_ok.1 hr
  refine h a1 s1 ?_ ?_ ?_ _ _ h2
  all_goals
    unfold insertEvent at h1
    split at h1
    · simp only [Prod.mk.injEq, Res.ok.injEq] at h1; rw [← h1.2]
    · split at h1
      · simp only [Prod.mk.injEq, Res.ok.injEq] at h1; rw [← h1.2]
      · rw [(invoke_ok.1 h1).2]

end WS.Conf
