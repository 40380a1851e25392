import Verif.Proof.Config6
/-
Loader proofs, part 7: event objects and lists of events.
-/
namespace WS.Conf
open WS WS.Sax WS.Time WS.ConfNum WS.Spec.Load WS.Spec.Conf

variable {α : Type}

/-! ### The configuration of an event -/

theorem names_elements {l : ListField} (hl : l.Lawful) : ∀ (xs : List J) (c c' : EventConfig) (a a' : α),
    Elements (fun v (p q : EventConfig × α) => (∃ f, Named l.table v f ∧ q.1 = l.set p.1 (l.get p.1 ||| f)) ∧ q.2 = p.2) xs (c, a) (c', a') ↔
      (∃ f, Names l.table xs (l.get c) f ∧ c' = l.set c f) ∧ a' = a
  | [], c, c', a, a' => by
    constructor
    · intro h; cases h; exact ⟨⟨_, .nil _, (hl.set_get c).symm⟩, rfl⟩
    · rintro ⟨⟨f, h, rfl⟩, rfl⟩
      cases h
      rw [hl.set_get]; exact .nil _
  | v :: vs, c, c', a, a' => by
    constructor
    · intro h
      cases h with
      | @cons _ _ _ y _ h1 h2 =>
        obtain ⟨c1, a1⟩ := y
        obtain ⟨⟨f, hf, e1⟩, e2⟩ := h1
        simp only at e1 e2
        subst e1 e2
        obtain ⟨⟨g, hg, rfl⟩, rfl⟩ := (names_elements hl vs _ _ _ _).1 h2
        rw [hl.get_set] at hg
        exact ⟨⟨g, .cons hf hg, hl.set_set _ _ _⟩, rfl⟩
    · rintro ⟨⟨f, h, rfl⟩, rfl⟩
      cases h with
      | cons h1 h2 =>
        rename_i g
        refine .cons (y := (l.set c (l.get c ||| g), a')) ⟨⟨g, h1, rfl⟩, rfl⟩ ((names_elements hl vs _ _ _ _).2 ⟨⟨f, ?_, (hl.set_set _ _ _).symm⟩, rfl⟩)
        rw [hl.get_set]; exact h2

theorem handleConfig_five {E : Env α} {a : α} {s : State} {ev : Ev} {c : EventConfig} {put : EventConfig → State} (hd : s.depth = 5) :
    handleConfig E a s ev c put = (a, Res.map put (configList s.key ev.type ev.data c)) := by
  unfold handleConfig
  simp only [hd, if_true]

theorem name_value (E : Env α) (nr : Bool) (f : Fr) (e : EventSt) (k : List Byte) (l : ListField) (hl : listOf k = some l) (v : J) :
    Sim E (AtNames nr f e k) (AtNames nr f e k) v.events (fun p q => (∃ g, Named l.table v g ∧ q.1 = l.set p.1 (l.get p.1 ||| g)) ∧ q.2 = p.2) := by
  refine Sim.leaf ?_ ?_
  · rintro a s c ⟨kd, dom, lst, rfl⟩
    refine ⟨fun y => { base nr f k kd dom with
      table := .events, object := .event, depth := 5, section_ := .eventConfig, event := evUC { e with config := some y } {} lst },
      fun y => ⟨_, _, _, rfl⟩, ?_⟩
    intro a' s'
    rw [step_leaf (by show (1 : Int) ≤ 5; decide)]
    show handleEvent _ _ _ _ = _ ↔ _
    by_cases hr : restEvs v = []
    · rw [handleEvent_config rfl rfl (by right; show newDepth _ 5 = 5; rw [leaf_depth hr]) rfl]
      unfold handleConfig
      simp only [leaf_depth hr, if_true]
      rw [res_map_pair]
      show (∃ b, configList k _ _ c = .ok b ∧ _) ↔ _
      simp only [configList_value hl hr]
      constructor
      · rintro ⟨b, ⟨g, h, rfl⟩, rfl, rfl⟩
        exact ⟨_, ⟨⟨g, h, rfl⟩, rfl⟩, rfl⟩
      · rintro ⟨y, ⟨⟨g, h, rfl⟩, rfl⟩, rfl⟩
        exact ⟨_, ⟨g, h, rfl⟩, rfl, rfl⟩
    · have hno : ¬ ∃ y, ((∃ g, Named l.table v g ∧ y = l.set c (l.get c ||| g)) ∧ a' = a) ∧ s' = { base nr f k kd dom with
          table := .events, object := .event, depth := 5, section_ := .eventConfig, event := evUC { e with config := some y } {} lst } := by
        rintro ⟨y, ⟨⟨g, ⟨n, after, _, rfl⟩, _⟩, _⟩, _⟩
        exact hr rfl
      refine iff_of_false ?_ hno
      have hd : newDepth (leafEv v).type 5 = 6 := leaf_depth_rest hr 5
      simp only [hd]
      unfold handleEvent
      simp only [base, reduceCtorEq, not_true_eq_false, ne_eq, if_false, Int.reduceEq, false_and, or_self]
      refine tail_refused ?_ a' s'
      intro a1 s1 g1 g2 g3 a2 s2
      simp only at g1 g2
      unfold eventTail
      simp [g1]
  · rintro hr p q ⟨⟨g, ⟨n, after, _, rfl⟩, _⟩, _⟩
    exact hr rfl

theorem names_array (E : Env α) (nr : Bool) (f : Fr) (e : EventSt) (k : List Byte) (l : ListField) (hl : listOf k = some l) (xs : List J) :
    Sim E (Keyed (AtEventConfig nr f e) 4 k) (AtEventConfig nr f e) (J.arr xs).events
      (fun p q => (∃ g, Names l.table xs (l.get p.1) g ∧ q.1 = l.set p.1 g) ∧ q.2 = p.2) := by
  refine (Sim.array (B := AtNames nr f e k) (O := fun p q => q = (p.1, p.2)) (S := fun p q => q = (p.1, p.2))
    (R := fun v p q => (∃ g, Named l.table v g ∧ q.1 = l.set p.1 (l.get p.1 ||| g)) ∧ q.2 = p.2) ?_ ?_ ?_).congr ?_
  · refine Sim.move id ?_
    rintro a s c ⟨⟨k', kd, dom, lst, rfl⟩, rfl, rfl⟩
    refine ⟨_, ?_, 4, dom, lst, rfl⟩
    rw [step_deep (by simp) (by show (2 : Int) ≤ 5; decide)]
    show handleEvent _ _ _ _ = _
    rw [handleEvent_config rfl rfl (by right; rfl) rfl]
    have : configList k' .arrayBeg [] c = .ok c := configList_beg.2 ⟨rfl, by
      have hl : listOf k' = some l := hl
      rw [hl]; rfl⟩
    rw [handleConfig_five rfl]
    show (a, Res.map _ (configList k' .arrayBeg [] c)) = _
    rw [this]
    rfl
  · intro v hm; exact name_value E nr f e k l hl v
  · refine Sim.move id ?_
    rintro a s c ⟨kd, dom, lst, rfl⟩
    exact ⟨_, rfl, _, _, _, _, rfl⟩
  · rintro ⟨c, a⟩ ⟨c', a'⟩
    constructor
    · rintro h
      exact ⟨_, rfl, (c', a'), (names_elements (listOf_lawful hl) xs _ _ _ _).2 h, rfl⟩
    · rintro ⟨_, rfl, ⟨c1, a1⟩, h, e⟩
      simp only [Prod.mk.injEq] at e
      obtain ⟨rfl, rfl⟩ := e
      exact (names_elements (listOf_lawful hl) xs _ _ _ _).1 h

theorem listOf_not_setting {k : List Byte} {l : ListField} (hl : listOf k = some l) {v : J} {c c' : EventConfig} : ¬ Setting k v c c' := by
  unfold listOf at hl
  intro h
  cases h <;> simp (decide := true) at hl

/-- The members of an event's "config". -/
theorem eventConfig_value (E : Env α) (nr : Bool) (f : Fr) (e : EventSt) (k : List Byte) (v : J) (hv : v.InPlace) :
    Sim E (Keyed (AtEventConfig nr f e) 4 k) (AtEventConfig nr f e) v.events (fun p q => EventSetting k v p.1 q.1 ∧ q.2 = p.2) := by
  by_cases harr : ∃ l xs, listOf k = some l ∧ v = .arr xs
  · obtain ⟨l, xs, hl, rfl⟩ := harr
    refine (names_array E nr f e k l hl xs).congr ?_
    rintro ⟨c, a⟩ ⟨c', a'⟩
    simp only [eventSetting_iff]
    constructor
    · rintro ⟨h | ⟨l', xs', g, h1, h2, h3, h4⟩, h5⟩
      · exact absurd h (listOf_not_setting hl)
      · rw [hl] at h1; cases h1; cases h2; exact ⟨⟨g, h3, h4⟩, h5⟩
    · rintro ⟨⟨g, h3, h4⟩, h5⟩
      exact ⟨.inr ⟨l, xs, g, hl, rfl, h3, h4⟩, h5⟩
  · have hiff : ∀ c c', EventSetting k v c c' ↔ Setting k v c c' := by
      intro c c'
      rw [eventSetting_iff]
      constructor
      · rintro (h | ⟨l, xs, _, h1, h2, _⟩)
        · exact h
        · exact absurd ⟨l, xs, h1, h2⟩ harr
      · exact .inl
    simp only [hiff]
    refine Sim.leaf ?_ ?_
    · rintro a s c ⟨⟨k', kd, dom, lst, rfl⟩, rfl, rfl⟩
      refine ⟨fun y => { base nr f k' 4 dom with
        table := .events, object := .event, depth := 4, section_ := .eventConfig, event := evUC { e with config := some y } {} lst },
        fun y => ⟨_, _, _, _, rfl⟩, ?_⟩
      intro a' s'
      rw [step_leaf (by show (1 : Int) ≤ 4; decide)]
      show handleEvent _ _ _ _ = _ ↔ _
      rw [handleEvent_config rfl rfl (by rcases leaf_depth_or v 4 with h | h; exact .inl h; exact .inr h) rfl]
      by_cases hr : restEvs v = []
      · rw [handleConfig_iff hv (by show newDepth _ 4 ≠ 5; rw [leaf_depth hr]; decide)]
        simp only [leaf_depth hr, reduceCtorEq, false_and, or_false]
        constructor
        · rintro ⟨c', h, rfl, rfl⟩; exact ⟨c', ⟨h, rfl⟩, rfl⟩
        · rintro ⟨c', ⟨h, rfl⟩, rfl⟩; exact ⟨c', h, rfl, rfl⟩
      · have hno : ¬ ∃ y, (Setting k' v c y ∧ a' = a) ∧ s' = { base nr f k' 4 dom with
            table := .events, object := .event, depth := 4, section_ := .eventConfig, event := evUC { e with config := some y } {} lst } := by
          rintro ⟨y, ⟨h, _⟩, _⟩; exact hr (setting_leaf h)
        refine iff_of_false ?_ hno
        have hd : newDepth (leafEv v).type 4 = 5 := leaf_depth_rest hr 4
        unfold handleConfig
        rw [if_pos hd, res_map_pair]
        rintro ⟨b, h, _⟩
        have h : configList k' (leafEv v).type (leafEv v).data c = .ok b := h
        cases v with
        | arr xs =>
          obtain ⟨_, h⟩ := configList_beg.1 h
          obtain ⟨l, hl⟩ := Option.isSome_iff_exists.1 h
          exact harr ⟨l, xs, hl, rfl⟩
        | obj ms =>
          unfold configList at h
          simp only [leafEv, reduceCtorEq, if_false, ne_eq, not_false_eq_true, if_true] at h
          repeat' split at h
          all_goals cases h
        | bool b => cases b <;> exact hr rfl
        | _ => exact hr rfl
    · rintro hr p q ⟨h, _⟩; exact hr (setting_leaf h)

/-- A parameter that stays the same. -/
theorem Sim.param {ζ σ τ : Type} {E : Env α} {A : ζ → State → σ → Prop} {B : ζ → State → τ → Prop} {evs : List Ev}
    {R : ζ → σ × α → τ × α → Prop} (P : ζ → Prop) (h : ∀ z, P z → Sim E (A z) (B z) evs (R z)) :
    Sim E (fun s (p : ζ × σ) => P p.1 ∧ A p.1 s p.2) (fun s (p : ζ × τ) => P p.1 ∧ B p.1 s p.2) evs
      (fun p q => q.1.1 = p.1.1 ∧ R p.1.1 (p.1.2, p.2) (q.1.2, q.2)) := by
  rintro a s ⟨z, x⟩ ⟨hP, hA⟩
  obtain ⟨f, g⟩ := h z hP a s x hA
  constructor
  · intro a' s' hr
    obtain ⟨y, h1, h2⟩ := f a' s' hr
    exact ⟨(z, y), ⟨hP, h1⟩, rfl, h2⟩
  · rintro a' ⟨z', y⟩ ⟨e, h2⟩
    simp only at e h2
    subst e
    obtain ⟨s', h3, h4⟩ := g a' y h2
    exact ⟨s', h3, hP, h4⟩

/-- "config". -/
theorem eventConfig_object (E : Env α) (nr : Bool) (f : Fr) (ms : List (List Byte × J)) (hv : membersInPlace ms) :
    Sim E (Keyed (AtEvent nr f) 3 (ascii "config")) (AtEvent nr f) (J.obj ms).events
      (fun p q => p.1.inserted = false ∧ ∃ c, Members EventSetting ms f.config c ∧ q = ({ p.1 with config := some c }, p.2)) := by
  refine (Sim.object (B := fun s (p : EventSt × EventConfig) => p.1.inserted = false ∧ AtEventConfig nr f p.1 s p.2) (d := 4) ?_ (ms := ms)
    (O := fun p q => p.1.inserted = false ∧ q = ((p.1, f.config), p.2)) (S := fun p q => q = ({ p.1.1 with config := some p.1.2 }, p.2))
    (R := fun k v p q => q.1.1 = p.1.1 ∧ EventSetting k v p.1.2 q.1.2 ∧ q.2 = p.2) ?_ ?_ ?_).congr ?_
  · constructor
    · rintro s x ⟨_, h⟩; exact (eventConfig_level nr f x.1).sect s x.2 h
    · rintro s x ⟨_, h⟩; exact (eventConfig_level nr f x.1).depth s x.2 h
    · rintro s x k' ⟨hi, h⟩; exact ⟨hi, (eventConfig_level nr f x.1).key s x.2 k' h⟩
  · refine Sim.one ?_
    rintro a s e ⟨⟨k', kd, dom, c, lst, rfl⟩, hk, rfl⟩
    have hk : k' = ascii "config" := hk
    subst hk
    rcases Bool.eq_false_or_eq_true e.inserted with h | h
    · constructor
      · intro a' s' hs
        rw [step_deep (by simp) (by show (2 : Int) ≤ 4; decide)] at hs
        simp only [base, newDepth] at hs
        unfold handleEvent at hs
        simp [evUC, h] at hs
      · rintro a' y ⟨h', _⟩
        simp only [h] at h'
        cases h'
    · have hs : step E a { base nr f (ascii "config") 3 dom with table := .events, object := .event, depth := 3, event := evUC e c lst } ⟨.objectBeg, [], []⟩ =
          (a, .ok { base nr f (ascii "config") 3 dom with
            table := .events, object := .event, depth := 4, section_ := .eventConfig, event := evUC { e with config := some f.config } {} lst }) := by
        rw [step_deep (by simp) (by show (2 : Int) ≤ 4; decide)]
        simp only [base, newDepth]
        unfold handleEvent
        simp [evUC, h]
      constructor
      · intro a' s' hs'
        have := hs.symm.trans hs'
        simp only [Prod.mk.injEq, Res.ok.injEq] at this
        obtain ⟨rfl, rfl⟩ := this
        exact ⟨(e, f.config), ⟨h, _, _, _, _, rfl⟩, h, rfl⟩
      · rintro a' y ⟨_, e⟩
        simp only [Prod.mk.injEq] at e
        obtain ⟨rfl, rfl⟩ := e
        exact ⟨_, hs, h, _, _, _, _, rfl⟩
  · intro k v hm
    have h := Sim.param (fun e : EventSt => e.inserted = false)
      (fun e _ => eventConfig_value E nr f e (name k) v (inPlace_mem hv _ _ hm))
    intro a s x hA
    exact h a s x ⟨hA.1.1, hA.1.2, hA.2⟩
  · refine Sim.move (fun p : EventSt × EventConfig => { p.1 with config := some p.2 }) ?_
    rintro a s ⟨e, c⟩ ⟨hi, k', kd, dom, lst, rfl⟩
    simp only at hi
    refine ⟨{ base nr f k' kd dom with table := .events, object := .event, depth := 3, event := evUC { e with config := some c } {} lst }, ?_, _, _, _, _, _, rfl⟩
    rw [step_deep (by simp) (by show (2 : Int) ≤ 3; decide)]
    simp only [base, newDepth]
    unfold handleEvent
    simp [evUC, hi]
  · rintro ⟨e, a⟩ ⟨e', a'⟩
    have hlens := fun (p : EventSt × EventConfig) a1 => members_lens (α := α) (fun x : EventSt × EventConfig => x.2) (fun x c => (x.1, c)) (fun _ _ => rfl) (fun _ => rfl) (fun _ _ _ => rfl)
      (R := fun k v (p q : EventConfig × α) => EventSetting k v p.1 q.1 ∧ q.2 = p.2) (ms := ms) (x := (e, f.config)) (y := p) (a := a) (b := a1)
    have hrel : (fun k v (p q : (EventSt × EventConfig) × α) => q.1.1 = p.1.1 ∧ EventSetting k v p.1.2 q.1.2 ∧ q.2 = p.2) =
        (fun k v p q => ∃ c, q.1 = (p.1.1, c) ∧ EventSetting k v p.1.2 c ∧ q.2 = p.2) := by
      funext k v ⟨⟨e1, c1⟩, a1⟩ ⟨⟨e2, c2⟩, a2⟩
      apply propext
      simp only [Prod.mk.injEq]
      constructor
      · rintro ⟨h1, h2, h3⟩; exact ⟨c2, ⟨h1, rfl⟩, h2, h3⟩
      · rintro ⟨c, ⟨h1, rfl⟩, h2, h3⟩; exact ⟨h1, h2, h3⟩
    rw [hrel]
    constructor
    · rintro ⟨h1, c, h2, h3⟩
      exact ⟨_, ⟨h1, rfl⟩, ((e, c), a), (hlens _ _).2 ⟨c, rfl, members_pure.2 ⟨h2, rfl⟩⟩, h3⟩
    · rintro ⟨_, ⟨h1, rfl⟩, ⟨⟨e1, c⟩, a1⟩, h2, h3⟩
      obtain ⟨c', e2, h4⟩ := (hlens _ _).1 h2
      simp only [Prod.mk.injEq] at e2
      obtain ⟨rfl, rfl⟩ := e2
      obtain ⟨h4', rfl⟩ := members_pure.1 h4
      exact ⟨h1, c, h4', h3⟩

/-! ### Action lists -/

theorem listType_ok {k : List Byte} {t : ActionType} : listType k = some t ↔ ∃ n, (n, t) ∈ listKeys ∧ k = ascii n := by
  unfold listType
  constructor
  · intro h
    repeat' split at h
    all_goals cases h
    · rename_i hk; rcases hk with rfl | rfl
      · exact ⟨_, by decide, rfl⟩
      · exact ⟨_, by decide, rfl⟩
    all_goals (rename_i hk; subst hk; exact ⟨_, by decide, rfl⟩)
  · rintro ⟨n, h, rfl⟩
    simp only [listKeys, List.mem_cons, Prod.mk.injEq, List.not_mem_nil, or_false] at h
    rcases h with ⟨rfl, rfl⟩ | ⟨rfl, rfl⟩ | ⟨rfl, rfl⟩ | ⟨rfl, rfl⟩ | ⟨rfl, rfl⟩ | ⟨rfl, rfl⟩ | ⟨rfl, rfl⟩ <;> decide

theorem subeventType_ok {k : List Byte} {t : ActionType} : subeventType k = some t ↔ ∃ n, (n, t) ∈ subeventKeys ∧ k = ascii n := by
  unfold subeventType
  constructor
  · intro h
    repeat' split at h
    all_goals cases h
    all_goals (rename_i hk; subst hk; exact ⟨_, by decide, rfl⟩)
  · rintro ⟨n, h, rfl⟩
    simp only [subeventKeys, List.mem_cons, Prod.mk.injEq, List.not_mem_nil, or_false] at h
    rcases h with ⟨rfl, rfl⟩ | ⟨rfl, rfl⟩ | ⟨rfl, rfl⟩ | ⟨rfl, rfl⟩ | ⟨rfl, rfl⟩ <;> decide

theorem inserted_facts {E : Env α} {nr : Bool} {e e' : EventSt} {a a' : α} (h : Inserted E nr (e, a) (e', a')) :
    e'.inserted = true ∧ e'.label = e.label ∧ e'.config = e.config ∧ e'.priority = e.priority := by
  cases h with
  | before h => exact ⟨h, rfl, rfl, rfl⟩
  | now _ _ => exact ⟨rfl, rfl, rfl, rfl⟩

theorem did_step {E : Env α} {nr : Bool} {a a' : α} {c : Call} {s s' : State} :
    (if nr = true then (a, Res.ok s) else invoke E a c s) = (a', .ok s') ↔ DidRule E nr c a a' ∧ s' = s := by
  unfold DidRule
  cases nr
  · simp only [Bool.false_eq_true, if_false, invoke_ok]
  · simp only [if_true, Prod.mk.injEq, Res.ok.injEq]
    exact ⟨fun ⟨h1, h2⟩ => ⟨h1.symm, h2.symm⟩, fun ⟨h1, h2⟩ => ⟨h1.symm, h2.symm⟩⟩

theorem insertEvent_done {E : Env α} {a : α} {s : State} (h : s.event.inserted = true) : insertEvent E a s = (a, .ok s) := by
  unfold insertEvent
  rw [if_pos h]

theorem action_element (E : Env α) (nr : Bool) (f : Fr) (e : EventSt) (he : e.inserted = true) (t : ActionType) (v : J) :
    Sim E (AtActions nr f e t) (AtActions nr f e t) v.events (fun p q => ListedAction E nr e.label t v p.2 q.2 ∧ q.1 = p.1) := by
  have hL : ∀ a a', ListedAction E nr e.label t v a a' ↔ ∃ s r, v = .str s r ∧ s.length ≤ 32 ∧ DidRule E nr (.actionAppend e.label t s) a a' := by
    intro a a'
    constructor
    · rintro ⟨h1, h2⟩; exact ⟨_, _, rfl, h1, h2⟩
    · rintro ⟨s, r, rfl, h1, h2⟩; exact .mk h1 h2
  refine Sim.leaf ?_ ?_
  · rintro a s ⟨⟩ ⟨k, kd, dom, c, rfl⟩
    refine ⟨fun _ => { base nr f k kd dom with table := .events, object := .event, depth := 4, section_ := .actionList, event := evUC e c (some t) },
      fun _ => ⟨_, _, _, _, rfl⟩, ?_⟩
    intro a' s'
    rw [step_leaf (by show (1 : Int) ≤ 4; decide)]
    show handleEvent _ _ _ _ = _ ↔ _
    rw [handleEvent_tail rfl rfl (by show newDepth _ 4 ≠ 1; rcases leaf_depth_or v 4 with h | h <;> omega)
      (by rintro ⟨h, _⟩; have h : newDepth _ 4 = (3 : Int) := h; rcases leaf_depth_or v 4 with h' | h' <;> omega)
      (by rintro ⟨h, _⟩; have h : newDepth _ 4 = (3 : Int) := h; rcases leaf_depth_or v 4 with h' | h' <;> omega)
      (by rintro ⟨_, _, _, h⟩; cases h) (by simp), insertEvent_done (by exact he)]
    show eventTail _ _ _ _ = _ ↔ _
    simp only [hL]
    by_cases hs : (leafEv v).type = .string
    · obtain ⟨t', r, rfl⟩ := leaf_string hs
      have : eventTail E (leafEv (.str t' r)) a { base nr f k kd dom with table := .events, object := .event, depth := 4, section_ := .actionList, event := evUC e c (some t) } =
          if 32 < t'.length then (a, .err .stringArgTooLong) else
            if nr = true then (a, .ok { base nr f k kd dom with table := .events, object := .event, depth := 4, section_ := .actionList, event := evUC e c (some t) })
            else invoke E a (.actionAppend e.label t t') { base nr f k kd dom with table := .events, object := .event, depth := 4, section_ := .actionList, event := evUC e c (some t) } := by
        rfl
      show eventTail E _ a { base nr f k kd dom with table := .events, object := .event, depth := 4, section_ := .actionList, event := evUC e c (some t) } = _ ↔ _
      rw [this]
      by_cases hl : 32 < t'.length
      · rw [if_pos hl]
        simp only [Prod.mk.injEq, reduceCtorEq, and_false, false_iff]
        rintro ⟨_, ⟨⟨_, _, h, h1, _⟩, _⟩, _⟩
        cases h; omega
      · rw [if_neg hl, did_step]
        constructor
        · rintro ⟨h, rfl⟩; exact ⟨(), ⟨⟨t', r, rfl, by omega, h⟩, trivial⟩, rfl⟩
        · rintro ⟨_, ⟨⟨_, _, h, h1, h2⟩, _⟩, rfl⟩
          cases h
          exact ⟨h2, rfl⟩
    · refine iff_of_false ?_ ?_
      · unfold eventTail
        have hd : newDepth (leafEv v).type 4 ≠ 3 := by rcases leaf_depth_or v 4 with h | h <;> omega
        have hd2 : newDepth (leafEv v).type 4 ≠ 2 := by rcases leaf_depth_or v 4 with h | h <;> omega
        simp [hs, hd, hd2]
      · rintro ⟨_, ⟨⟨_, _, rfl, _⟩, _⟩, _⟩
        exact hs rfl
  · rintro hr p q ⟨h, _⟩
    obtain ⟨s, r, rfl, _⟩ := (hL _ _).1 h
    exact hr rfl

/-- The members of an event. -/
def EventScalar (E : Env α) (nr : Bool) (k : List Byte) (v : J) (p q : EventSt × α) : Prop :=
  (k = ascii "label" ∧ ∃ s r, v = .str s r ∧ s.length < 32 ∧ q = ({ p.1 with label := s }, p.2)) ∨
  (k = ascii "priority" ∧ ∃ t r n, v = .num t r ∧ p.1.inserted = false ∧ UInt 16 8 v n ∧ q = ({ p.1 with priority := n }, p.2)) ∨
  (∃ s r a1, v = .str s r ∧ Inserted E nr p (q.1, a1) ∧
    ((k = ascii "aux-parent-event" ∧ DidRule E nr (.setAuxEvent p.1.label s) a1 q.2) ∨
     (∃ t, subeventType k = some t ∧ s.length ≤ 32 ∧ DidRule E nr (.copyActions p.1.label t s) a1 q.2)))

theorem eventMember_iff {E : Env α} {nr : Bool} {dc : EventConfig} {k : List Byte} {v : J} {p q : EventSt × α} :
    EventMember E nr dc k v p q ↔ EventScalar E nr k v p q ∨
      (k = ascii "config" ∧ ∃ ms, v = .obj ms ∧ p.1.inserted = false ∧ ∃ c, Members EventSetting ms dc c ∧ q = ({ p.1 with config := some c }, p.2)) ∨
      (∃ t xs a1, listType k = some t ∧ v = .arr xs ∧ Inserted E nr p (q.1, a1) ∧ Elements (ListedAction E nr p.1.label t) xs a1 q.2) := by
  constructor
  · intro h
    cases h with
    | label h => exact .inl (.inl ⟨rfl, _, _, rfl, h, rfl⟩)
    | priority h1 h2 => exact .inl (.inr (.inl ⟨rfl, _, _, _, rfl, h1, h2, rfl⟩))
    | config h1 h2 => exact .inr (.inl ⟨rfl, _, rfl, h1, _, h2, rfl⟩)
    | aux h1 h2 => exact .inl (.inr (.inr ⟨_, _, _, rfl, h1, .inl ⟨rfl, h2⟩⟩))
    | subevent h1 h2 h3 h4 => exact .inl (.inr (.inr ⟨_, _, _, rfl, h2, .inr ⟨_, subeventType_ok.2 ⟨_, h1, rfl⟩, h3, h4⟩⟩))
    | list h1 h2 h3 => exact .inr (.inr ⟨_, _, _, listType_ok.2 ⟨_, h1, rfl⟩, rfl, h2, h3⟩)
  · obtain ⟨e, a⟩ := p
    obtain ⟨e', a'⟩ := q
    rintro ((⟨rfl, s, r, rfl, h, e1⟩ | ⟨rfl, t, r, n, rfl, h1, h2, e1⟩ | ⟨s, r, a1, rfl, h1, ⟨rfl, h2⟩ | ⟨t, h2, h3, h4⟩⟩) |
      ⟨rfl, ms, rfl, h1, c, h2, e1⟩ | ⟨t, xs, a1, h1, rfl, h2, h3⟩)
    · simp only [Prod.mk.injEq] at e1; obtain ⟨rfl, rfl⟩ := e1; exact .label h
    · simp only [Prod.mk.injEq] at e1; obtain ⟨rfl, rfl⟩ := e1; exact .priority h1 h2
    · exact .aux h1 h2
    · obtain ⟨n, h5, rfl⟩ := subeventType_ok.1 h2
      exact .subevent h5 h1 h3 h4
    · simp only [Prod.mk.injEq] at e1; obtain ⟨rfl, rfl⟩ := e1; exact .config h1 h2
    · obtain ⟨n, h5, rfl⟩ := listType_ok.1 h1
      exact .list h5 h2 h3

/-- An array of actions. -/
theorem actions_array (E : Env α) (nr : Bool) (f : Fr) (k : List Byte) (t : ActionType) (hk : listType k = some t) (xs : List J) :
    Sim E (Keyed (AtEvent nr f) 3 k) (AtEvent nr f) (J.arr xs).events
      (fun p q => ∃ a1, Inserted E nr p (q.1, a1) ∧ Elements (ListedAction E nr p.1.label t) xs a1 q.2) := by
  refine (Sim.array (B := fun s (p : EventSt × Unit) => p.1.inserted = true ∧ AtActions nr f p.1 t s p.2)
    (O := fun p q => Inserted E nr p (q.1.1, q.2)) (S := fun p q => q = (p.1.1, p.2))
    (R := fun v p q => q.1.1 = p.1.1 ∧ ListedAction E nr p.1.1.label t v p.2 q.2 ∧ q.1.2 = p.1.2) ?_ ?_ ?_).congr ?_
  · refine Sim.one ?_
    rintro a s e ⟨⟨k', kd, dom, c, lst, rfl⟩, rfl, rfl⟩
    have hk : listType k' = some t := hk
    have hs : step E a { base nr f k' 3 dom with table := .events, object := .event, depth := 3, event := evUC e c lst } ⟨.arrayBeg, [], []⟩ =
        andThen (insertEvent E a { base nr f k' 3 dom with table := .events, object := .event, depth := 4, event := evUC e c lst })
          (eventTail E ⟨.arrayBeg, [], []⟩) := by
      rw [step_deep (by simp) (by show (2 : Int) ≤ 4; decide)]
      show handleEvent _ _ _ _ = _
      rw [handleEvent_tail rfl rfl (by show (4 : Int) ≠ 1; decide) (by simp) (by simp) (by simp) (by simp [base])]
      rfl
    have ht : ∀ a1 e1 a' s', eventTail E ⟨.arrayBeg, [], []⟩ a1 { base nr f k' 3 dom with table := .events, object := .event, depth := 4, event := evUC e1 c lst } = (a', .ok s') ↔
        a' = a1 ∧ s' = { base nr f k' 3 dom with
          table := .events, object := .event, depth := 4, section_ := .actionList, event := evUC e1 c (some t) } := by
      intro a1 e1 a' s'
      unfold eventTail
      simp only [base, Int.reduceEq, reduceCtorEq, false_and, if_false, true_and, if_true, hk, Prod.mk.injEq, Res.ok.injEq]
      constructor
      · rintro ⟨rfl, rfl⟩; exact ⟨rfl, rfl⟩
      · rintro ⟨rfl, rfl⟩; exact ⟨rfl, rfl⟩
    have hstep : ∀ a' s', step E a { base nr f k' 3 dom with table := .events, object := .event, depth := 3, event := evUC e c lst } ⟨.arrayBeg, [], []⟩ = (a', .ok s') ↔
        ∃ e', Inserted E nr (e, a) (e', a') ∧ s' = { base nr f k' 3 dom with
          table := .events, object := .event, depth := 4, section_ := .actionList, event := evUC e' c (some t) } := by
      intro a' s'
      rw [hs, andThen_ok]
      simp only [insertEvent_ok (E := E) (a := a) (nr := nr) (s := { base nr f k' 3 dom with table := .events, object := .event, depth := 4, event := evUC e c lst }) (e := e) (c := c) (l := lst) rfl rfl]
      constructor
      · rintro ⟨a1, s1, ⟨e', h1, rfl⟩, h2⟩
        obtain ⟨rfl, rfl⟩ := (ht _ _ _ _).1 h2
        exact ⟨e', h1, rfl⟩
      · rintro ⟨e', h1, rfl⟩
        exact ⟨a', _, ⟨e', h1, rfl⟩, (ht _ _ _ _).2 ⟨rfl, rfl⟩⟩
    constructor
    · intro a' s' h
      obtain ⟨e', h1, rfl⟩ := (hstep _ _).1 h
      exact ⟨(e', ()), ⟨(inserted_facts h1).1, _, _, _, _, rfl⟩, h1⟩
    · rintro a' ⟨e', ⟨⟩⟩ h1
      exact ⟨_, (hstep _ _).2 ⟨e', h1, rfl⟩, (inserted_facts h1).1, _, _, _, _, rfl⟩
  · intro v hm
    exact Sim.param (fun e : EventSt => e.inserted = true) (fun e he => action_element E nr f e he t v)
  · refine Sim.move (fun p : EventSt × Unit => p.1) ?_
    rintro a s ⟨e, ⟨⟩⟩ ⟨hi, k', kd, dom, c, rfl⟩
    simp only at hi
    refine ⟨{ base nr f k' kd dom with table := .events, object := .event, depth := 3, event := evUC e c (some t) }, ?_, _, _, _, _, _, rfl⟩
    rw [step_deep (by simp) (by show (2 : Int) ≤ 3; decide)]
    show handleEvent _ _ _ _ = _
    rw [handleEvent_tail rfl rfl (by show (3 : Int) ≠ 1; decide) (by simp) (by simp) (by simp) (by simp), insertEvent_done (by exact hi)]
    rfl
  · rintro ⟨e, a⟩ ⟨e', a'⟩
    have hel : ∀ (vs : List J) (e1 : EventSt × Unit) (a1 : α) (e2 : EventSt × Unit) (a2 : α),
        Elements (fun v (p q : (EventSt × Unit) × α) => q.1.1 = p.1.1 ∧ ListedAction E nr p.1.1.label t v p.2 q.2 ∧ q.1.2 = p.1.2) vs (e1, a1) (e2, a2) ↔
          e2 = e1 ∧ Elements (ListedAction E nr e1.1.label t) vs a1 a2 := by
      intro vs
      induction vs with
      | nil =>
        intro e1 a1 e2 a2
        constructor
        · intro h; cases h; exact ⟨rfl, .nil _⟩
        · rintro ⟨rfl, h⟩; cases h; exact .nil _
      | cons v vs ih =>
        intro e1 a1 e2 a2
        constructor
        · intro h
          cases h with
          | @cons _ _ _ y _ h1 h2 =>
            obtain ⟨⟨e3, ⟨⟩⟩, a3⟩ := y
            obtain ⟨e1, ⟨⟩⟩ := e1
            obtain ⟨g1, g2, _⟩ := h1
            simp only at g1 g2
            subst g1
            obtain ⟨rfl, h3⟩ := (ih _ _ _ _).1 h2
            exact ⟨rfl, .cons g2 h3⟩
        · rintro ⟨rfl, h⟩
          cases h with
          | @cons _ _ _ y _ h1 h2 => exact .cons (y := (e2, y)) ⟨rfl, h1, rfl⟩ ((ih _ _ _ _).2 ⟨rfl, h2⟩)
    constructor
    · rintro ⟨a1, h1, h2⟩
      refine ⟨((e', ()), a1), h1, ((e', ()), a'), (hel _ _ _ _ _).2 ⟨rfl, ?_⟩, rfl⟩
      rw [(inserted_facts h1).2.1]; exact h2
    · rintro ⟨⟨⟨e1, ⟨⟩⟩, a1⟩, h1, ⟨⟨e2, ⟨⟩⟩, a2⟩, h2, h3⟩
      simp only [Prod.mk.injEq] at h3
      obtain ⟨rfl, rfl⟩ := h3
      obtain ⟨g, h2'⟩ := (hel _ _ _ _ _).1 h2
      simp only [Prod.mk.injEq, and_true] at g
      subst g
      simp only at h1 h2'
      rw [(inserted_facts h1).2.1] at h2'
      exact ⟨a1, h1, h2'⟩

theorem subevent_not {k : List Byte} {t : ActionType} (h : subeventType k = some t) : k ≠ ascii "label" ∧ k ≠ ascii "priority" ∧ k ≠ ascii "aux-parent-event" := by
  obtain ⟨n, h', rfl⟩ := subeventType_ok.1 h
  have : ∀ p ∈ subeventKeys, ascii p.1 ≠ ascii "label" ∧ ascii p.1 ≠ ascii "priority" ∧ ascii p.1 ≠ ascii "aux-parent-event" := by decide
  exact this _ h'

theorem event_scalar (E : Env α) (nr : Bool) (f : Fr) (k : List Byte) (v : J) (hr : restEvs v = []) :
    Sim E (Keyed (AtEvent nr f) 3 k) (AtEvent nr f) v.events (EventScalar E nr k v) := by
  rw [events_leaf, hr]
  refine Sim.one ?_
  rintro a s e ⟨⟨k', kd, dom, c, lst, rfl⟩, rfl, rfl⟩
  have key : ∀ a' s', step E a { base nr f k' 3 dom with table := .events, object := .event, depth := 3, event := evUC e c lst } (leafEv v) = (a', .ok s') ↔
      ∃ e', EventScalar E nr k' v (e, a) (e', a') ∧ s' = { base nr f k' 3 dom with table := .events, object := .event, depth := 3, event := evUC e' c lst } := by
    intro a' s'
    rw [step_leaf (by show (1 : Int) ≤ 3; decide)]
    show handleEvent _ _ _ _ = _ ↔ _
    simp only [leaf_depth hr]
    by_cases h1 : (leafEv v).type = .string ∧ k' = ascii "label"
    · obtain ⟨h1, rfl⟩ := h1
      obtain ⟨t, r, rfl⟩ := leaf_string h1
      have hs : handleEvent E a { base nr f (ascii "label") 3 dom with table := .events, object := .event, depth := 3, event := evUC e c lst } (leafEv (.str t r)) =
          if 32 ≤ t.length then (a, .err .stringArgTooLong)
          else (a, .ok { base nr f (ascii "label") 3 dom with table := .events, object := .event, depth := 3, event := evUC { e with label := t } c lst }) := rfl
      show handleEvent E a { base nr f (ascii "label") 3 dom with table := .events, object := .event, depth := 3, event := evUC e c lst } _ = _ ↔ _
      rw [hs]
      have hE : ∀ e', EventScalar E nr (ascii "label") (.str t r) (e, a) (e', a') ↔ t.length < 32 ∧ e' = { e with label := t } ∧ a' = a := by
        intro e'
        unfold EventScalar
        constructor
        · rintro (⟨_, s, r', h, h', e1⟩ | ⟨h, _⟩ | ⟨_, _, _, _, _, ⟨h, _⟩ | ⟨t, h, _⟩⟩)
          · cases h; simp only [Prod.mk.injEq] at e1; exact ⟨h', e1⟩
          · exact absurd h (by decide)
          · exact absurd h (by decide)
          · exact absurd rfl (subevent_not h).1
        · rintro ⟨h1, rfl, rfl⟩; exact .inl ⟨rfl, _, _, rfl, h1, rfl⟩
      simp only [hE]
      by_cases hl : 32 ≤ t.length
      · rw [if_pos hl]
        simp only [Prod.mk.injEq, reduceCtorEq, and_false, false_iff]
        rintro ⟨e', ⟨h, _⟩, _⟩; omega
      · rw [if_neg hl]
        simp only [Prod.mk.injEq, Res.ok.injEq]
        constructor
        · rintro ⟨rfl, rfl⟩; exact ⟨_, ⟨by omega, rfl, rfl⟩, rfl⟩
        · rintro ⟨_, ⟨_, rfl, rfl⟩, rfl⟩; exact ⟨rfl, rfl⟩
    by_cases h2 : (leafEv v).type = .number
    · obtain ⟨t, r, rfl⟩ := leaf_number h2
      have hs : handleEvent E a { base nr f k' 3 dom with table := .events, object := .event, depth := 3, event := evUC e c lst } (leafEv (.num t r)) =
          if k' = ascii "priority" then
            if e.inserted then (a, .err .configOutOfSequence)
            else (a, Res.map (fun n => { base nr f k' 3 dom with table := .events, object := .event, depth := 3, event := evUC { e with priority := n } c lst })
              (convertU16 (leafEv (.num t r)).type (leafEv (.num t r)).data))
          else (a, .err .configInvalidKey) := by rfl
      show handleEvent E a { base nr f k' 3 dom with table := .events, object := .event, depth := 3, event := evUC e c lst } _ = _ ↔ _
      rw [hs]
      have hE : ∀ e', EventScalar E nr k' (.num t r) (e, a) (e', a') ↔ k' = ascii "priority" ∧ e.inserted = false ∧
          ∃ n, UInt 16 8 (.num t r) n ∧ e' = { e with priority := n } ∧ a' = a := by
        intro e'
        unfold EventScalar
        constructor
        · rintro (⟨_, s, r', h, _⟩ | ⟨h, _, _, n, _, h1, h2, e1⟩ | ⟨_, _, _, h, _⟩)
          · cases h
          · simp only [Prod.mk.injEq] at e1; exact ⟨h, h1, n, h2, e1⟩
          · cases h
        · rintro ⟨h1, h2, n, h3, rfl, rfl⟩; exact .inr (.inl ⟨h1, _, _, n, rfl, h2, h3, rfl⟩)
      simp only [hE]
      by_cases hk : k' = ascii "priority"
      · rw [if_pos hk]
        simp only [hk, true_and]
        rcases Bool.eq_false_or_eq_true e.inserted with h | h
        · simp [h]
        · simp only [h, Bool.false_eq_true, if_false, true_and]
          rw [res_map_pair]
          simp only [u16_conv]
          constructor
          · rintro ⟨n, h, rfl, rfl⟩; exact ⟨_, ⟨n, h, rfl, rfl⟩, rfl⟩
          · rintro ⟨_, ⟨n, h, rfl, rfl⟩, rfl⟩; exact ⟨n, h, rfl, rfl⟩
      · rw [if_neg hk]
        simp [hk]
    · rw [handleEvent_tail rfl rfl (by show (3 : Int) ≠ 1; decide) (by rintro ⟨_, h⟩; exact h1 h) (by rintro ⟨_, h⟩; exact h2 h)
        (by rintro ⟨h, _⟩; exact absurd h (by show (3 : Int) ≠ 4; decide)) (by simp [base]), andThen_ok]
      simp only [insertEvent_ok (E := E) (a := a) (nr := nr) (s := { base nr f k' 3 dom with table := .events, object := .event, depth := 3, event := evUC e c lst }) (e := e) (c := c) (l := lst) rfl rfl]
      have ht : ∀ a1 e1, eventTail E (leafEv v) a1 { base nr f k' 3 dom with table := .events, object := .event, depth := 3, event := evUC e1 c lst } = (a', .ok s') ↔
          s' = { base nr f k' 3 dom with table := .events, object := .event, depth := 3, event := evUC e1 c lst } ∧
          ∃ t r, v = .str t r ∧ ((k' = ascii "aux-parent-event" ∧ DidRule E nr (.setAuxEvent e1.label t) a1 a') ∨
            (∃ ty, subeventType k' = some ty ∧ t.length ≤ 32 ∧ DidRule E nr (.copyActions e1.label ty t) a1 a')) := by
        intro a1 e1
        by_cases hs : (leafEv v).type = .string
        · obtain ⟨t, r, rfl⟩ := leaf_string hs
          have hs : eventTail E (leafEv (.str t r)) a1 { base nr f k' 3 dom with table := .events, object := .event, depth := 3, event := evUC e1 c lst } =
              if k' = ascii "aux-parent-event" then
                if nr = true then (a1, .ok { base nr f k' 3 dom with table := .events, object := .event, depth := 3, event := evUC e1 c lst })
                else invoke E a1 (.setAuxEvent e1.label t) { base nr f k' 3 dom with table := .events, object := .event, depth := 3, event := evUC e1 c lst }
              else
                match subeventType k' with
                | some ty => if 32 < t.length then (a1, .err .stringArgTooLong)
                  else if nr = true then (a1, .ok { base nr f k' 3 dom with table := .events, object := .event, depth := 3, event := evUC e1 c lst })
                  else invoke E a1 (.copyActions e1.label ty t) { base nr f k' 3 dom with table := .events, object := .event, depth := 3, event := evUC e1 c lst }
                | none => (a1, .err .configInvalidKey) := by rfl
          rw [hs]
          have hx : ∀ Q : List Byte → Prop, (∃ t' r', J.str t r = .str t' r' ∧ Q t') ↔ Q t := fun Q =>
            ⟨fun ⟨_, _, h, h'⟩ => by cases h; exact h', fun h => ⟨_, _, rfl, h⟩⟩
          rw [hx (fun t => (k' = ascii "aux-parent-event" ∧ DidRule E nr (.setAuxEvent e1.label t) a1 a') ∨
            (∃ ty, subeventType k' = some ty ∧ t.length ≤ 32 ∧ DidRule E nr (.copyActions e1.label ty t) a1 a'))]
          by_cases hk : k' = ascii "aux-parent-event"
          · rw [if_pos hk, did_step]
            constructor
            · rintro ⟨h, h'⟩; exact ⟨h', .inl ⟨hk, h⟩⟩
            · rintro ⟨h', ⟨_, h⟩ | ⟨ty, h, _⟩⟩
              · exact ⟨h, h'⟩
              · exact absurd hk (subevent_not h).2.2
          · rw [if_neg hk]
            rcases hty : subeventType k' with _ | ty
            · simp [hk]
            · simp only
              by_cases hl : 32 < t.length
              · rw [if_pos hl]
                simp only [Prod.mk.injEq, reduceCtorEq, and_false, false_iff]
                rintro ⟨_, ⟨h, _⟩ | ⟨_, _, h, _⟩⟩
                · exact hk h
                · omega
              · rw [if_neg hl, did_step]
                constructor
                · rintro ⟨h, h'⟩; exact ⟨h', .inr ⟨ty, rfl, by omega, h⟩⟩
                · rintro ⟨h', ⟨h, _⟩ | ⟨_, h, _, h''⟩⟩
                  · exact absurd h hk
                  · cases h; exact ⟨h'', h'⟩
        · refine iff_of_false ?_ ?_
          · unfold eventTail
            have ha : (leafEv v).type ≠ .arrayEnd := leaf_arrayEnd v
            simp [hs, ha]
          · rintro ⟨_, t, r, rfl, _⟩
            exact hs rfl
      constructor
      · rintro ⟨a1, s1, ⟨e', h3, rfl⟩, h4⟩
        obtain ⟨rfl, t, r, rfl, h5⟩ := (ht a1 e').1 h4
        rw [(inserted_facts h3).2.1] at h5
        exact ⟨e', .inr (.inr ⟨t, r, a1, rfl, h3, h5⟩), rfl⟩
      · rintro ⟨e', ⟨hk, t, r, rfl, _⟩ | ⟨_, t, r, _, rfl, _⟩ | ⟨t, r, a1, rfl, h3, h4⟩, rfl⟩
        · exact absurd ⟨rfl, hk⟩ h1
        · exact absurd rfl h2
        · refine ⟨a1, _, ⟨e', h3, rfl⟩, (ht a1 e').2 ⟨rfl, t, r, rfl, ?_⟩⟩
          rw [(inserted_facts h3).2.1]; exact h4
  show (∀ a' s', step E a { base nr f k' 3 dom with table := .events, object := .event, depth := 3, event := evUC e c lst } _ = _ → _) ∧
    (∀ a' y, _ → ∃ s', step E a { base nr f k' 3 dom with table := .events, object := .event, depth := 3, event := evUC e c lst } _ = _ ∧ _)
  simp only [key]
  constructor
  · rintro a' s' ⟨e', h, rfl⟩; exact ⟨e', ⟨_, _, _, _, _, rfl⟩, h⟩
  · rintro a' e' h; exact ⟨_, ⟨e', h, rfl⟩, _, _, _, _, _, rfl⟩

theorem eventScalar_leaf {E : Env α} {nr : Bool} {k : List Byte} {v : J} {p q : EventSt × α} (h : EventScalar E nr k v p q) : restEvs v = [] := by
  rcases h with ⟨_, t, r, rfl, _⟩ | ⟨_, t, r, _, rfl, _⟩ | ⟨t, r, _, rfl, _⟩ <;> rfl

/-- The members of an event. -/
theorem event_value (E : Env α) (nr : Bool) (f : Fr) (k : List Byte) (v : J) (hv : v.InPlace) :
    Sim E (Keyed (AtEvent nr f) 3 k) (AtEvent nr f) v.events (EventMember E nr f.config k v) := by
  by_cases hr : restEvs v = []
  · refine (event_scalar E nr f k v hr).congr ?_
    intro p q
    rw [eventMember_iff]
    constructor
    · rintro (h | ⟨_, ms, rfl, _⟩ | ⟨_, xs, _, _, rfl, _⟩)
      · exact h
      · exact absurd hr (rest_obj ms)
      · exact absurd hr (rest_arr xs)
    · exact .inl
  have hsc : ∀ p q, ¬ EventScalar E nr k v p q := fun p q h => hr (eventScalar_leaf h)
  cases v with
  | arr xs =>
    rcases ht : listType k with _ | t
    · rw [events_leaf]
      refine Sim.refused ?_ ?_
      · rintro a s e ⟨⟨k', kd, dom, c, lst, rfl⟩, rfl, rfl⟩ a' s'
        have ht : listType k' = none := ht
        rw [step_leaf (by show (1 : Int) ≤ 3; decide)]
        show handleEvent _ _ _ _ ≠ _
        rw [handleEvent_tail rfl rfl (by show (4 : Int) ≠ 1; decide) (by simp [leafEv]) (by simp [leafEv]) (by simp [leafEv]) (by simp [base])]
        refine tail_refused ?_ a' s'
        intro a1 s1 g1 g2 g3 a2 s2
        have g1 : s1.depth = 4 := g1
        have g2 : s1.section_ = .none := g2
        have g3 : s1.key = k' := g3
        unfold eventTail
        simp [g1, g2, g3, leafEv, ht]
      · intro p q h
        rcases eventMember_iff.1 h with h | ⟨_, ms, h, _⟩ | ⟨t, _, _, h, _⟩
        · exact hsc _ _ h
        · cases h
        · rw [ht] at h; cases h
    · refine (actions_array E nr f k t ht xs).congr ?_
      intro p q
      rw [eventMember_iff]
      constructor
      · rintro (h | ⟨_, ms, h, _⟩ | ⟨t', xs', a1, h1, h2, h3, h4⟩)
        · exact absurd h (hsc _ _)
        · cases h
        · rw [ht] at h1; cases h1; cases h2; exact ⟨a1, h3, h4⟩
      · rintro ⟨a1, h3, h4⟩; exact .inr (.inr ⟨t, xs, a1, ht, rfl, h3, h4⟩)
  | obj ms =>
    by_cases hk : k = ascii "config"
    · subst hk
      refine (eventConfig_object E nr f ms hv).congr ?_
      intro p q
      rw [eventMember_iff]
      constructor
      · rintro (h | ⟨_, ms', h, h1, h2⟩ | ⟨_, _, _, _, h, _⟩)
        · exact absurd h (hsc _ _)
        · cases h; exact ⟨h1, h2⟩
        · cases h
      · rintro ⟨h1, h2⟩; exact .inr (.inl ⟨rfl, ms, rfl, h1, h2⟩)
    · rw [events_leaf]
      refine Sim.refused ?_ ?_
      · rintro a s e ⟨⟨k', kd, dom, c, lst, rfl⟩, rfl, rfl⟩ a' s'
        have hk : k' ≠ ascii "config" := hk
        rw [step_leaf (by show (1 : Int) ≤ 3; decide)]
        show handleEvent _ _ _ _ ≠ _
        rw [handleEvent_tail rfl rfl (by show (4 : Int) ≠ 1; decide) (by simp [leafEv]) (by simp [leafEv])
          (by rintro ⟨_, _, h, _⟩; exact hk h) (by simp [base])]
        refine tail_refused ?_ a' s'
        intro a1 s1 g1 g2 g3 a2 s2
        have g1 : s1.depth = 4 := g1
        unfold eventTail
        simp [g1, leafEv]
      · intro p q h
        rcases eventMember_iff.1 h with h | ⟨h, _⟩ | ⟨_, _, _, _, h, _⟩
        · exact hsc _ _ h
        · exact hk h
        · cases h
  | bool b => cases b <;> exact absurd rfl hr
  | _ => exact absurd rfl hr

theorem event_end (E : Env α) (nr : Bool) (f : Fr) : Sim E (AtEvent nr f) (fun s (_ : Unit) => AtEvents nr s f) [⟨.objectEnd, [], []⟩]
    (fun p q => ∃ e', Inserted E nr p (e', q.2)) := by
  refine Sim.one ?_
  rintro a s e ⟨k, kd, dom, c, lst, rfl⟩
  have hs : ∀ a' s', step E a { base nr f k kd dom with table := .events, object := .event, depth := 3, event := evUC e c lst } ⟨.objectEnd, [], []⟩ = (a', .ok s') ↔
      (∃ e', Inserted E nr (e, a) (e', a')) ∧ s' = { base nr f k kd dom with table := .events, depth := 2 } := by
    intro a' s'
    rw [step_deep (by simp) (by show (2 : Int) ≤ 2; decide)]
    show handleEvent _ _ _ _ = _ ↔ _
    rw [handleEvent_tail rfl rfl (by show (2 : Int) ≠ 1; decide) (by simp) (by simp) (by simp) (by simp [base]), andThen_ok]
    rw [show ({ base nr f k kd dom with table := .events, object := .event, depth := newDepth .objectEnd 3, event := evUC e c lst } : State) =
      { base nr f k kd dom with table := .events, object := .event, depth := 2, event := evUC e c lst } from rfl]
    simp only [insertEvent_ok (E := E) (a := a) (nr := nr) (s := { base nr f k kd dom with table := .events, object := .event, depth := 2, event := evUC e c lst }) (e := e) (c := c) (l := lst) rfl rfl]
    have ht : ∀ a1 e1, eventTail E ⟨.objectEnd, [], []⟩ a1 { base nr f k kd dom with table := .events, object := .event, depth := 2, event := evUC e1 c lst } =
        (a1, .ok { base nr f k kd dom with table := .events, depth := 2 }) := fun _ _ => rfl
    constructor
    · rintro ⟨a1, s1, ⟨e', h, rfl⟩, h2⟩
      have := (ht a1 e').symm.trans h2
      simp only [Prod.mk.injEq, Res.ok.injEq] at this
      obtain ⟨rfl, rfl⟩ := this
      exact ⟨⟨e', h⟩, rfl⟩
    · rintro ⟨⟨e', h⟩, rfl⟩
      exact ⟨a', _, ⟨e', h, rfl⟩, ht _ _⟩
  show (∀ a' s', step E a { base nr f k kd dom with table := .events, object := .event, depth := 3, event := evUC e c lst } _ = _ → _) ∧
    (∀ a' y, _ → ∃ s', step E a { base nr f k kd dom with table := .events, object := .event, depth := 3, event := evUC e c lst } _ = _ ∧ _)
  simp only [hs]
  constructor
  · rintro a' s' ⟨h, rfl⟩; exact ⟨(), ⟨_, _, _, rfl⟩, h⟩
  · rintro a' _ h; exact ⟨_, ⟨h, rfl⟩, _, _, _, rfl⟩

/-- An element of "events". -/
theorem event_element (E : Env α) (nr : Bool) (v : J) (hv : v.InPlace) :
    Sim E (AtEvents nr) (AtEvents nr) v.events (fun p q => q.1 = p.1 ∧ EventObj E nr p.1.config v p.2 q.2) := by
  have hfix : (∀ f, Sim E (fun s (_ : Unit) => AtEvents nr s f) (fun s (_ : Unit) => AtEvents nr s f) v.events (fun p q => EventObj E nr f.config v p.2 q.2)) →
      Sim E (AtEvents nr) (AtEvents nr) v.events (fun p q => q.1 = p.1 ∧ EventObj E nr p.1.config v p.2 q.2) := by
    intro h a s f hA
    obtain ⟨g1, g2⟩ := h f a s () hA
    constructor
    · intro a' s' hr
      obtain ⟨_, h1, h2⟩ := g1 a' s' hr
      exact ⟨f, h1, rfl, h2⟩
    · rintro a' y ⟨rfl, h2⟩
      exact g2 a' () h2
  refine hfix ?_
  intro f
  by_cases hobj : ∃ ms, v = .obj ms
  · obtain ⟨ms, rfl⟩ := hobj
    refine (Sim.object (event_level nr f) (O := fun p q => q = ({}, p.2)) (R := EventMember E nr f.config) ?_ ?_ (event_end E nr f)).congr ?_
    · refine Sim.move (fun _ => ({} : EventSt)) ?_
      rintro a s ⟨⟩ ⟨k', kd, dom, rfl⟩
      exact ⟨_, rfl, k', kd, dom, {}, none, rfl⟩
    · intro k' v hm
      exact event_value E nr f _ v (inPlace_mem hv _ _ hm)
    · rintro ⟨⟨⟩, a⟩ ⟨⟨⟩, a'⟩
      constructor
      · rintro ⟨h1, h2⟩; exact ⟨_, rfl, _, h1, _, h2⟩
      · rintro ⟨_, rfl, ⟨e, a1⟩, h1, e', h2⟩; exact .mk h1 h2
  · rw [events_leaf]
    refine Sim.refused ?_ ?_
    · rintro a s ⟨⟩ ⟨k, kd, dom, rfl⟩ a' s'
      have ht : (leafEv v).type ≠ .objectBeg := by
        cases v with
        | obj ms => exact absurd ⟨ms, rfl⟩ hobj
        | bool b => cases b <;> simp [leafEv]
        | _ => simp [leafEv]
      rw [step_leaf (by show (1 : Int) ≤ 2; decide)]
      show handleEvent _ _ _ _ ≠ _
      unfold handleEvent
      simp [leaf_arrayEnd, base, ht]
    · rintro p q ⟨⟩
      exact hobj ⟨_, rfl⟩

/-- Elements that keep part of the state. -/
theorem elements_fixed {σ : Type} {R : σ → J → α → α → Prop} : ∀ {vs : List J} {x y : σ} {a b : α},
    Elements (fun v (p q : σ × α) => q.1 = p.1 ∧ R p.1 v p.2 q.2) vs (x, a) (y, b) ↔ y = x ∧ Elements (R x) vs a b
  | [], x, y, a, b => by
    constructor
    · intro h; cases h; exact ⟨rfl, .nil _⟩
    · rintro ⟨rfl, h⟩; cases h; exact .nil _
  | v :: vs, x, y, a, b => by
    constructor
    · intro h
      cases h with
      | @cons _ _ _ w _ h1 h2 =>
        obtain ⟨x1, a1⟩ := w
        obtain ⟨g1, g2⟩ := h1
        simp only at g1 g2
        subst g1
        obtain ⟨rfl, h3⟩ := elements_fixed.1 h2
        exact ⟨rfl, .cons g2 h3⟩
    · rintro ⟨rfl, h⟩
      cases h with
      | @cons _ _ _ w _ h1 h2 => exact .cons (y := (y, w)) ⟨rfl, h1⟩ (elements_fixed.2 ⟨rfl, h2⟩)

/-- "events". -/
theorem events_array (E : Env α) (nr : Bool) (k : List Byte) (hk : k = ascii "events" ∨ k = ascii "events-insert") (vs : List J)
    (hv : elementsInPlace vs) : Sim E (Keyed (AtTop nr) 1 k) (AtTop nr) (J.arr vs).events
      (fun p q => 0 < p.1.version ∧ q.1 = p.1 ∧ Elements (EventObj E nr p.1.config) vs p.2 q.2) := by
  refine (Sim.array (B := AtEvents nr) (O := fun p q => q = p ∧ 0 < p.1.version) (S := fun p q => q = (p.1, p.2))
    (R := fun v p q => q.1 = p.1 ∧ EventObj E nr p.1.config v p.2 q.2) ?_ ?_ ?_).congr ?_
  · refine open_section ?_ ?_
    · intro a x dom hx
      refine ⟨_, ?_, k, 1, dom, rfl⟩
      have hx' : ¬ x.version = 0 := by omega
      rcases hk with rfl | rfl <;> simp [step, dispatch, handleTop, newDepth, base, hx']
    · intro a x dom hx a' s'
      simp [step, dispatch, handleTop, newDepth, base, hx]
  · intro v hm; exact event_element E nr v (inPlace_elem hv v hm)
  · refine Sim.move id ?_
    rintro a s f ⟨k', kd, dom, rfl⟩
    exact ⟨_, rfl, k', kd, dom, rfl⟩
  · rintro ⟨f, a⟩ ⟨f', a'⟩
    have he := fun (f1 : Fr) a1 => elements_fixed (R := fun (f : Fr) => EventObj E nr f.config) (vs := vs) (x := f) (y := f1) (a := a) (b := a1)
    constructor
    · rintro ⟨h1, h2, h3⟩
      simp only at h2; subst h2
      exact ⟨_, ⟨rfl, h1⟩, (f', a'), (he _ _).2 ⟨rfl, h3⟩, rfl⟩
    · rintro ⟨_, ⟨rfl, h1⟩, ⟨f1, a1⟩, h2, h3⟩
      obtain ⟨rfl, h2'⟩ := (he _ _).1 h2
      simp only [Prod.mk.injEq] at h3
      obtain ⟨rfl, rfl⟩ := h3
      exact ⟨h1, rfl, h2'⟩

end WS.Conf
