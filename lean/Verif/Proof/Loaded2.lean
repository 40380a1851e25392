import Verif.Proof.Loaded1
import Verif.Proof.RouteHist3
import Verif.Props.RouteKey
/-
C84: contexts a load meets, events by label, and rules whose event object changes.
-/
namespace WS.Ld
open WS WS.Conf WS.LT WS.Spec WS.Spec.Load WS.Spec.Ld

/-! ### Rules whose event changes, but for label and priority -/

/-- The same rule, its event perhaps with other actions and another configuration. -/
structure Relinked (a b : Route) : Prop where
  rest : b = { a with event := b.event }
  label : b.event.map (·.label) = a.event.map (·.label)
  prio : b.event.map (·.priority) = a.event.map (·.priority)

section
variable {a b a' b' : Route}

theorem Relinked.id (h : Relinked a b) : b.id = a.id := by rw [h.rest]
theorem Relinked.family (h : Relinked a b) : b.family = a.family := by rw [h.rest]
theorem Relinked.flags (h : Relinked a b) : b.flags = a.flags := by rw [h.rest]
theorem Relinked.data (h : Relinked a b) : b.data = a.data := by rw [h.rest]
theorem Relinked.remote (h : Relinked a b) : b.remote = a.remote := by rw [h.rest]
theorem Relinked.loc (h : Relinked a b) : b.loc = a.loc := by rw [h.rest]
theorem Relinked.proto (h : Relinked a b) : b.proto = a.proto := by rw [h.rest]

theorem Relinked.wf (h : Relinked a b) (hw : a.WF) : b.WF := by unfold Route.WF at *; rw [h.remote, h.loc]; exact hw

theorem Relinked.effPrio (h : Relinked a b) : b.effPriority = a.effPriority := by
  have := h.prio
  unfold Route.effPriority
  cases h1 : a.event <;> cases h2 : b.event <;> rw [h1, h2] at this <;> simp_all

theorem Relinked.sameKey (h : Relinked a b) : SameKey a b := by
  refine ⟨h.family.symm, h.proto.symm, ?_, ?_, ?_, ?_, ?_, ?_, ?_, ?_, fun k _ => by rw [h.flags], ?_, h.label.symm⟩ <;>
    first
    | rw [h.remote] | rw [h.loc] | (unfold priority; rw [h.prio])

theorem Relinked.cmp (h : Relinked a b) (h' : Relinked a' b') (hw : a.WF) (hw' : a'.WF) : routeKeyCmp b b' = routeKeyCmp a a' := by
  rw [← Props.C01_congr a b b' hw (h.wf hw) (h'.wf hw') h.sameKey]
  rw [Props.C01_swap b' a (h'.wf hw') hw, Props.C01_swap a' a hw' hw]
  rw [Props.C01_congr a' b' a hw' (h'.wf hw') hw h'.sameKey]

theorem Relinked.seen (h : Relinked a b) : seen b = Spec.Ld.seen a := by
  unfold Spec.Ld.seen
  rw [h.label, h.flags, h.family, h.proto, h.remote, h.loc, h.data]

theorem Relinked.wildZero (h : Relinked a b) (hz : WildZero a) : WildZero b := by
  obtain ⟨h1, h2, h3, h4, h5, h6, h7, h8⟩ := hz
  constructor <;> simp only [h.flags, h.family, h.proto, h.remote, h.loc] <;> assumption

end

theorem coreInv_relink {T : RouteTable} (h : CoreInv T) (f : Route → Route) (hf : ∀ x ∈ T.ents, Relinked x (f x)) :
    CoreInv { T with ents := T.ents.map f } := by
  have hbm : ∀ af, bmCount (T.ents.map f) af = bmCount T.ents af := by
    intro af
    unfold bmCount
    rw [List.countP_map]
    apply List.countP_congr
    intro x hx
    simp only [Function.comp, Route.hasBitmask, (hf x hx).flags, (hf x hx).family]
  constructor
  · constructor
    · rw [List.pairwise_map]
      refine List.Pairwise.imp_of_mem ?_ h.sorted.sorted
      intro a b ha hb hab
      rw [(hf a ha).cmp (hf b hb) (h.sorted.wf a ha) (h.sorted.wf b hb)]; exact hab
    · intro r hr
      obtain ⟨x, hx, rfl⟩ := List.mem_map.1 hr
      exact (hf x hx).wf (h.sorted.wf x hx)
  · have : (T.ents.map f).map (·.id) = T.ents.map (·.id) := by
      rw [List.map_map]
      apply List.map_congr_left
      intro x hx; exact (hf x hx).id
    show ((T.ents.map f).map (·.id)).Nodup
    rw [this]; exact h.ids
  · intro r hr
    obtain ⟨x, hx, rfl⟩ := List.mem_map.1 hr
    rw [(hf x hx).id]; exact h.nonzero x hx
  · intro id hid
    obtain ⟨r, hr, h1, h2⟩ := h.lastAf id hid
    exact ⟨f r, List.mem_map.2 ⟨r, hr, rfl⟩, by rw [(hf r hr).id, h1], by rw [(hf r hr).flags, h2]⟩
  · intro r hr
    obtain ⟨x, hx, rfl⟩ := List.mem_map.1 hr
    rw [(hf x hx).effPrio]; exact h.hpLe x hx
  · rcases h.hpEx with h1 | ⟨r, hr, h1⟩
    · exact Or.inl h1
    · exact Or.inr ⟨f r, List.mem_map.2 ⟨r, hr, rfl⟩, by rw [(hf r hr).effPrio]; exact h1⟩
  · exact h.afsNodup
  · intro af n hn; rw [hbm]; exact h.afsCount af n hn
  · intro af hn; rw [hbm] at hn; exact h.afsMem af hn
  · intro r hr
    obtain ⟨x, hx, rfl⟩ := List.mem_map.1 hr
    rw [(hf x hx).flags]; exact h.inTable x hx
  · intro r hr
    obtain ⟨x, hx, rfl⟩ := List.mem_map.1 hr
    exact (hf x hx).wildZero (h.wildZero x hx)
  · intro r hr
    obtain ⟨x, hx, rfl⟩ := List.mem_map.1 hr
    rw [(hf x hx).flags]; exact h.sens x hx

theorem expiry_relink {T : RouteTable} (f : Route → Route) (hf : ∀ x ∈ T.ents, Relinked x (f x)) (id : Nat) :
    RouteTable.expiry { T with ents := T.ents.map f } id = T.expiry id := by
  unfold RouteTable.expiry RouteTable.get?
  show (match (T.ents.map f).find? _ with | some r => _ | none => _) = _
  rw [find?_map_id T.ents f (fun x hx => (hf x hx).id) id]
  cases h : T.ents.find? (fun r => r.id == id) with
  | none => rfl
  | some r => exact congrArg (·.purgeAfter) (hf r (List.mem_of_find?_eq_some h)).data

theorem tableInv_relink {T : RouteTable} (h : TableInv T) (f : Route → Route) (hf : ∀ x ∈ T.ents, Relinked x (f x)) :
    TableInv { T with ents := T.ents.map f } := by
  refine ⟨coreInv_relink h.core f hf, h.purge.nodup, fun id => ?_⟩
  rw [show ({ T with ents := T.ents.map f } : RouteTable).purgeList = T.purgeList from rfl, h.purge.mem id]
  constructor
  · rintro ⟨r, hr, h1, h2⟩
    exact ⟨f r, List.mem_map.2 ⟨r, hr, rfl⟩, by rw [(hf r hr).id, h1], by rw [(hf r hr).data]; exact h2⟩
  · rintro ⟨r, hr, h1, h2⟩
    obtain ⟨x, hx, rfl⟩ := List.mem_map.1 hr
    exact ⟨x, hx, by rw [← (hf x hx).id, h1], by rw [← (hf x hx).data]; exact h2⟩

theorem purgeSorted_relink {T : RouteTable} (h : PurgeSorted T) (f : Route → Route) (hf : ∀ x ∈ T.ents, Relinked x (f x)) :
    PurgeSorted { T with ents := T.ents.map f } := h.of_expiry rfl (fun x _ => expiry_relink f hf x)

/-! ### Labels and events -/

theorem labelCheck_arg {l t : List Byte} (h : labelCheck (arg l) = .ok t) : t = l ∧ l ≠ [] := by
  unfold labelCheck at h
  split at h
  · cases h
  rename_i h1
  split at h
  · cases h
  split at h
  · cases h
  injection h with h
  have hl : (arg l).len = (l.length : Int) := rfl
  constructor
  · rw [← h]
    show (if (arg l).len < 0 then l.takeWhile (· != 0#8) else l.take (arg l).len.toNat) = l
    rw [hl, if_neg (by omega), Int.toNat_natCast, List.take_length]
  · rintro rfl
    exact h1 rfl

/-- Events are in strict order of their labels. -/
def Ordered (l : List Event) : Prop := l.Pairwise (fun a b => labelCmp a.label b.label = .lt)

theorem labelCmp_ne {a b : List Byte} (h : labelCmp a b = .lt) : a ≠ b := by
  rintro rfl
  rw [(labelCmp_eq_iff a a).2 rfl] at h; cases h

theorem ordered_inj {l : List Event} (h : Ordered l) {a b : Event} (ha : a ∈ l) (hb : b ∈ l) (hl : a.label = b.label) : a = b := by
  induction h with
  | nil => cases ha
  | cons h1 _ ih =>
    rcases List.mem_cons.1 ha with ha' | ha'
    · rcases List.mem_cons.1 hb with hb' | hb'
      · rw [ha', hb']
      · rw [ha'] at hl; exact absurd hl (labelCmp_ne (h1 _ hb'))
    · rcases List.mem_cons.1 hb with hb' | hb'
      · rw [hb'] at hl; exact absurd hl.symm (labelCmp_ne (h1 _ ha'))
      · exact ih ha' hb'

/-- The event under a label. -/
def at_ (l : List Event) (k : List Byte) : Option Event := l.find? (fun e => e.label == k)

theorem at_some {l : List Event} {k : List Byte} {e : Event} (h : at_ l k = some e) : e ∈ l ∧ e.label = k :=
  ⟨List.mem_of_find?_eq_some h, by simpa using List.find?_some h⟩

theorem at_of_mem {l : List Event} (h : Ordered l) {e : Event} (he : e ∈ l) : at_ l e.label = some e := by
  cases hx : at_ l e.label with
  | none =>
    unfold at_ at hx
    rw [List.find?_eq_none] at hx
    exact absurd (hx e he) (by simp)
  | some x =>
    obtain ⟨h1, h2⟩ := at_some hx
    rw [ordered_inj h h1 he h2]

theorem at_none {l : List Event} {k : List Byte} : at_ l k = none ↔ ∀ e ∈ l, e.label ≠ k := by
  unfold at_
  rw [List.find?_eq_none]
  simp only [beq_iff_eq, ne_eq]

theorem eventSplice_perm {e : Event} {l l' : List Event} (h : eventSplice e l = some l') : l'.Perm (e :: l) := by
  induction l generalizing l' with
  | nil => cases h; exact .refl _
  | cons x xs ih =>
    unfold eventSplice at h
    split at h
    · cases hx : eventSplice e xs with
      | none => rw [hx] at h; cases h
      | some ys =>
        rw [hx] at h; cases h
        exact ((ih hx).cons x).trans (List.Perm.swap _ _ _)
    · cases h
    · cases h; exact .refl _

theorem eventSplice_ordered {e : Event} {l l' : List Event} (hl : Ordered l) (h : eventSplice e l = some l') :
    Ordered l' ∧ ∀ x ∈ l, x.label ≠ e.label := by
  induction l generalizing l' with
  | nil => cases h; exact ⟨List.pairwise_singleton _ _, fun x hx => by cases hx⟩
  | cons x xs ih =>
    unfold eventSplice at h
    obtain ⟨h1, h2⟩ := List.pairwise_cons.1 hl
    split at h
    · rename_i hlt
      cases hx : eventSplice e xs with
      | none => rw [hx] at h; cases h
      | some ys =>
        rw [hx] at h; cases h
        obtain ⟨h3, h4⟩ := ih h2 hx
        refine ⟨List.pairwise_cons.2 ⟨fun y hy => ?_, h3⟩, fun y hy => ?_⟩
        · rcases List.mem_cons.1 ((eventSplice_perm hx).mem_iff.1 hy) with rfl | hy
          · exact hlt
          · exact h1 y hy
        · rcases List.mem_cons.1 hy with rfl | hy
          · exact labelCmp_ne hlt
          · exact h4 y hy
    · cases h
    · rename_i hgt
      cases h
      have hlt : labelCmp e.label x.label = .lt := by rw [Props.C43_label_swap x.label e.label, hgt]; rfl
      have hall : ∀ y ∈ x :: xs, labelCmp e.label y.label = .lt := by
        intro y hy
        rcases List.mem_cons.1 hy with rfl | hy
        · exact hlt
        · exact Props.C43_label_trans _ _ _ hlt (h1 y hy)
      exact ⟨List.pairwise_cons.2 ⟨hall, hl⟩, fun y hy => (labelCmp_ne (hall y hy)).symm⟩

theorem at_splice {e : Event} {l l' : List Event} (hl : Ordered l) (h : eventSplice e l = some l') :
    at_ l e.label = none ∧ ∀ k, at_ l' k = if k = e.label then some e else at_ l k := by
  obtain ⟨ho, hn⟩ := eventSplice_ordered hl h
  have hp := eventSplice_perm h
  refine ⟨at_none.2 hn, fun k => ?_⟩
  split
  · rename_i hk
    rw [hk]; exact at_of_mem ho (hp.mem_iff.2 (List.mem_cons_self ..))
  · rename_i hk
    cases hx : at_ l k with
    | none =>
      rw [at_none] at hx ⊢
      intro y hy
      rcases List.mem_cons.1 (hp.mem_iff.1 hy) with rfl | hy
      · exact fun h => hk h.symm
      · exact hx y hy
    | some x =>
      obtain ⟨h1, h2⟩ := at_some hx
      rw [← h2]; exact at_of_mem ho (hp.mem_iff.2 (List.mem_cons_of_mem _ h1))

/-- One event replaced by another with its label. -/
def upTo (e : Event) (x : Event) : Event := if x.label == e.label then e else x

theorem upTo_label (e x : Event) : (upTo e x).label = x.label := by
  unfold upTo; split
  · rename_i h; exact (beq_iff_eq.1 h).symm
  · rfl

theorem ordered_upTo {l : List Event} (h : Ordered l) (e : Event) : Ordered (l.map (upTo e)) := by
  unfold Ordered
  rw [List.pairwise_map]
  simp only [upTo_label]
  exact h

theorem at_upTo {l : List Event} {e e0 : Event} (h : at_ l e.label = some e0) (k : List Byte) :
    at_ (l.map (upTo e)) k = if k = e.label then some e else at_ l k := by
  unfold at_
  rw [List.find?_map]
  have : ((fun x : Event => x.label == k) ∘ upTo e) = (fun x => x.label == k) := by funext x; simp only [Function.comp, upTo_label]
  rw [this]
  split
  · rename_i hk
    rw [hk]
    unfold at_ at h
    rw [h]
    show some (upTo e e0) = some e
    unfold upTo
    rw [if_pos]
    simpa using List.find?_some h
  · rename_i hk
    cases hx : l.find? (fun x => x.label == k) with
    | none => rfl
    | some x =>
      show some (upTo e x) = some x
      unfold upTo
      rw [if_neg]
      have : x.label = k := by simpa using List.find?_some hx
      rw [this]; simpa using hk

end WS.Ld
