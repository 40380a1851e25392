import Verif.Proof.Loaded2
/-
C84: library calls other than rule insertions.
-/
namespace WS.Ld
open WS WS.Conf WS.LT WS.Spec WS.Spec.Load WS.Spec.Ld

/-- A context as the library keeps it: the rule table in order and with a purge queue to match, rules linked to events of the table,
events in order, no two actions with one label, IDs of rules given out, and not those of `old`, which were given out earlier. -/
structure Good (issued : Nat → Nat → Prop) (old : List Nat) (c : Cx) : Prop where
  table : TableInv c.routes
  queue : PurgeSorted c.routes
  linked : ∀ r ∈ c.routes.ents, ∀ e, r.event = some e → e ∈ c.events
  events : Ordered c.events
  actions : ∀ a ∈ c.actions, ∀ b ∈ c.actions, a.1 = b.1 → a = b
  ids : ∀ r ∈ c.routes.ents, issued c.idState r.id ∧ r.id ∉ old
  past : ∀ i ∈ old, issued c.idState i

variable {issued : Nat → Nat → Prop} {old : List Nat}

theorem Good.routes {c : Cx} (h : Good issued old c) {T : RouteTable} (h1 : T.ents = c.routes.ents) (h2 : T.lastAfWildcard = c.routes.lastAfWildcard)
    (h3 : T.highestPriority = c.routes.highestPriority) (h4 : T.bitmaskAfs = c.routes.bitmaskAfs) (h5 : T.purgeList = c.routes.purgeList) :
    Good issued old { c with routes := T } :=
  { table := ⟨h.table.core.congr h1 h2 h3 h4, h.table.purge.congr h1 h5⟩
    queue := h.queue.congr h1 h5
    linked := by show ∀ r ∈ T.ents, _; rw [h1]; exact h.linked
    events := h.events
    actions := h.actions
    ids := by show ∀ r ∈ T.ents, _; rw [h1]; exact h.ids
    past := h.past }

theorem event_ok {c : Cx} {l : List Byte} {e : Event} (h : c.event l = .ok e) : (view c).events l = some e ∧ l ≠ [] := by
  unfold Cx.event at h
  split at h
  · cases h
  · rename_i t ht
    obtain ⟨rfl, hne⟩ := labelCheck_arg ht
    split at h
    · rename_i e' he
      cases h
      exact ⟨he, hne⟩
    · cases h

theorem upTo_eq (e : Event) : (fun x : Event => if x.label == e.label then e else x) = upTo e := rfl

/-- The rule after a store to the event. -/
def relink (e : Event) (r : Route) : Route := { r with event := r.event.map (upTo e) }

theorem relinked {c : Cx} (h : Good issued old c) {e e0 : Event} (he : at_ c.events e.label = some e0) (hp : e.priority = e0.priority)
    {r : Route} (hr : r ∈ c.routes.ents) : Relinked r (relink e r) := by
  refine ⟨rfl, ?_, ?_⟩
  · show (r.event.map (upTo e)).map (·.label) = _
    cases hx : r.event with
    | none => rfl
    | some x => show some (upTo e x).label = some x.label; rw [upTo_label]
  · show (r.event.map (upTo e)).map (·.priority) = _
    cases hx : r.event with
    | none => rfl
    | some x =>
      show some (upTo e x).priority = some x.priority
      unfold upTo
      split
      · rename_i hl
        have hm := h.linked r hr x hx
        have h0 := at_some he
        have : x = e0 := ordered_inj h.events hm h0.1 (by rw [h0.2]; exact beq_iff_eq.1 hl)
        rw [this, hp]
      · rfl

theorem setEvent_good {c : Cx} (h : Good issued old c) {e e0 : Event} (he : at_ c.events e.label = some e0) (hp : e.priority = e0.priority) :
    Good issued old (c.setEvent e) ∧ view (c.setEvent e) = { view c with events := setAt (view c).events e.label e } := by
  have hr : ∀ r ∈ c.routes.ents, Relinked r (relink e r) := fun r hr => relinked h he hp hr
  have h1 := tableInv_relink h.table (relink e) hr
  have h2 := purgeSorted_relink h.queue (relink e) hr
  have hg : Good issued old (c.setEvent e) :=
    { table := ⟨h1.core.congr rfl rfl rfl rfl, h1.purge.congr rfl rfl⟩
      queue := h2.congr rfl rfl
      linked := by
        intro r hr' x hx
        obtain ⟨y, hy, rfl⟩ := List.mem_map.1 hr'
        cases hye : y.event with
        | none =>
          have : (y.event.map (upTo e)) = some x := hx
          rw [hye] at this; cases this
        | some z =>
          have : (y.event.map (upTo e)) = some x := hx
          rw [hye] at this
          injection this with this
          exact List.mem_map.2 ⟨z, h.linked y hy z hye, this⟩
      events := ordered_upTo h.events e
      actions := h.actions
      ids := by
        intro r hr'
        obtain ⟨y, hy, rfl⟩ := List.mem_map.1 hr'
        exact h.ids y hy
      past := h.past }
  refine ⟨hg, ?_⟩
  have hd : (c.setEvent e).routes.defaultEvent.map (·.label) = c.routes.defaultEvent.map (·.label) := by
    show (if c.dfltStale then c.routes.defaultEvent else c.routes.defaultEvent.map (upTo e)).map (·.label) = _
    split
    · rfl
    · cases c.routes.defaultEvent with
      | none => rfl
      | some x => show some (upTo e x).label = some x.label; rw [upTo_label]
  have hrs : (c.setEvent e).routes.ents.map seen = c.routes.ents.map seen := by
    show (c.routes.ents.map (relink e)).map seen = _
    rw [List.map_map]
    exact List.map_congr_left (fun r hr' => (hr r hr').seen)
  have hev : (view (c.setEvent e)).events = setAt (view c).events e.label e := by
    funext k
    exact at_upTo he k
  unfold view at hev ⊢
  rw [hd, hrs]
  simp only at hev
  rw [hev]
  rfl

/-! ### Actions -/

theorem appendAction_ok {e e' : Event} {t : ActionType} {a : Nat} (h : appendAction e t a = .ok e') :
    e' = withMore e [a] t ∧ a ∉ e.actions t := by
  unfold appendAction at h
  split at h
  · cases h
  · rename_i hc
    injection h with h
    refine ⟨?_, fun hm => hc (by simpa using hm)⟩
    rw [← h]
    cases t <;> rfl

theorem withMore_key (e : Event) (as : List Nat) (t : ActionType) : (withMore e as t).label = e.label ∧ (withMore e as t).priority = e.priority := by
  cases t <;> exact ⟨rfl, rfl⟩

theorem actionAppend_ok {c c' : Cx} (hG : Good issued old c) {l al : List Byte} {t : ActionType} (h : actionAppendC c l t al = (c', none)) :
    ∃ e a, (view c).events l = some e ∧ (view c).actions al = some a ∧ a ∉ e.actions t ∧ Good issued old c' ∧ c'.actions = c.actions ∧
      view c' = { view c with events := setAt (view c).events l (withMore e [a] t) } := by
  unfold actionAppendC at h
  split at h
  · cases h
  rename_i e he
  split at h
  · cases h
  rename_i al' hal
  obtain ⟨rfl, _⟩ := labelCheck_arg hal
  split at h
  · cases h
  rename_i a ha
  split at h
  · cases h
  rename_i e' he'
  obtain ⟨rfl, hn⟩ := appendAction_ok he'
  injection h with h _
  obtain ⟨hev, _⟩ := event_ok he
  have hl : e.label = l := (at_some hev).2
  have hk := withMore_key e [a.2] t
  have := setEvent_good hG (e := withMore e [a.2] t) (e0 := e) (by rw [hk.1, hl]; exact hev) hk.2
  rw [h] at this
  refine ⟨e, a.2, hev, ?_, hn, this.1, by rw [← h]; rfl, ?_⟩
  · show (c.actions.find? _).map (·.2) = _
    rw [ha]; rfl
  · rw [this.2, hk.1, hl]

theorem setAt_setAt (m : List Byte → Option Event) (l : List Byte) (a b : Event) : setAt (setAt m l a) l b = setAt m l b := by
  funext k; unfold setAt; split <;> rfl

theorem withMore_append (e : Event) (as bs : List Nat) (t : ActionType) : withMore (withMore e as t) bs t = withMore e (as ++ bs) t := by
  cases t <;> simp only [withMore, List.append_assoc]

theorem withMore_actions (e : Event) (as : List Nat) (t : ActionType) : (withMore e as t).actions t = e.actions t ++ as := by cases t <;> rfl

theorem copyLoop_ok {l : List Byte} {t : ActionType} : ∀ (as : List Nat) {c c' : Cx}, Good issued old c → copyLoop l t as c = (c', none) →
    as ≠ [] → ∃ e, (view c).events l = some e ∧ (∀ a ∈ as, a ∉ e.actions t) ∧ as.Nodup ∧ Good issued old c' ∧
      view c' = { view c with events := setAt (view c).events l (withMore e as t) } := by
  intro as
  induction as with
  | nil => intro c c' _ _ h; exact absurd rfl h
  | cons a as ih =>
    intro c c' hG h _
    unfold copyLoop at h
    split at h
    · cases h
    rename_i x hx
    split at h
    · cases h
    rename_i c1 h1
    obtain ⟨e, a', he, ha', hn, hG1, hact, hv⟩ := actionAppend_ok hG h1
    have haa : a' = a := by
      have hxm := List.mem_of_find?_eq_some hx
      have hx2 : x.2 = a := by simpa using List.find?_some hx
      have : ((c.actions.find? (fun y => y.1 == x.1)).map (·.2)) = some a' := ha'
      cases hy : c.actions.find? (fun y => y.1 == x.1) with
      | none => rw [hy] at this; cases this
      | some y =>
        rw [hy] at this
        injection this with this
        have hym := List.mem_of_find?_eq_some hy
        have hy1 : y.1 = x.1 := by simpa using List.find?_some hy
        rw [← this, ← hx2, hG.actions y hym x hxm hy1]
    subst haa
    by_cases has : as = []
    · subst has
      unfold copyLoop at h
      injection h with h _
      subst h
      exact ⟨e, he, fun b hb => by rw [List.mem_singleton.1 hb]; exact hn, by simp, hG1, hv⟩
    · obtain ⟨e1, he1, hn1, hnd, hG2, hv2⟩ := ih hG1 h has
      have he1' : e1 = withMore e [a'] t := by
        rw [hv] at he1
        simp only [setAt, if_true] at he1
        exact (Option.some.inj he1).symm
      subst he1'
      refine ⟨e, he, ?_, ?_, hG2, ?_⟩
      · intro b hb
        rcases List.mem_cons.1 hb with rfl | hb
        · exact hn
        · intro hc
          exact hn1 b hb (by rw [withMore_actions]; exact List.mem_append_left _ hc)
      · refine List.nodup_cons.2 ⟨fun hc => ?_, hnd⟩
        exact hn1 a' hc (by rw [withMore_actions]; exact List.mem_append_right _ (List.mem_singleton.2 rfl))
      · rw [hv2, hv, withMore_append]
        simp only [setAt_setAt, List.singleton_append]

/-! ### Events -/

theorem cfg_round (c : EventConfig) : ofCfg (toCfg c) = c := rfl

theorem cfgLoad_padded {p : Plat} {c : EventConfig} {i : CfgInt} (h : cfgLoad p (some (toCfg c)) {} = .ok i) :
    Padded (some c) (some (ofCfg i.config)) := by
  unfold cfgLoad at h
  simp only at h
  split at h
  · cases h
  · injection h with h
    rw [← h]
    unfold cfgPad
    split <;> rfl

theorem newEventCfg_padded {p : Plat} {c : Option EventConfig} {i : Option CfgInt} (h : newEventCfg p (c.map toCfg) = .ok i) :
    Padded c (i.map (fun i => ofCfg i.config)) := by
  unfold newEventCfg at h
  cases c with
  | none => simp only [Option.map_none] at h; injection h with h; rw [← h]; trivial
  | some c =>
    simp only [Option.map_some] at h
    split at h
    · cases h
    · rename_i j hj
      injection h with h
      rw [← h]
      exact cfgLoad_padded hj

theorem eventInsert_ok {H : Host} (hI : Issues H issued) {c c' : Cx} (hG : Good issued old c) {l : List Byte} {n : Nat} {conf : Option EventConfig}
    (h : eventInsertC H c l n conf = (c', none)) :
    Good issued old c' ∧ Does H.store (.eventInsert l n conf) (view c) (view c') := by
  unfold eventInsertC at h
  split at h
  · cases h
  split at h
  · cases h
  rename_i t ht
  obtain ⟨rfl, _⟩ := labelCheck_arg ht
  split at h
  · cases h
  rename_i i hi
  unfold Host.allocId at h
  split at h
  · cases h
  rename_i c1 hal
  rename_i id
  split at hal
  · cases hal
  rename_i id' s hs
  injection hal with _ hal
  subst hal
  split at h
  · cases h
  rename_i es hes
  injection h with h _
  subst h
  obtain ⟨hid0, _, _, hmono⟩ := hI _ _ _ hs
  obtain ⟨ho, _⟩ := eventSplice_ordered hG.events hes
  obtain ⟨hnone, hat⟩ := at_splice hG.events hes
  refine ⟨{ table := hG.table, queue := hG.queue, linked := ?_, events := ho, actions := hG.actions, ids := ?_, past := fun i hi => hmono _ (hG.past i hi) }, ?_⟩
  · intro r hr e he
    exact (eventSplice_perm hes).mem_iff.2 (List.mem_cons_of_mem _ (hG.linked r hr e he))
  · intro r hr; exact ⟨hmono _ (hG.ids r hr).1, (hG.ids r hr).2⟩
  · have hv : view { c with idState := s, events := es } =
        { view c with events := setAt (view c).events t { label := t, priority := n, config := i.map (fun i => ofCfg i.config) } } := by
      unfold view
      congr 1
      funext k
      exact hat k
    show Does H.store _ (view c) (view { c with idState := s, events := es })
    rw [hv]
    exact .event hnone (newEventCfg_padded hi)

end WS.Ld
