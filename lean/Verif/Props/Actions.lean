import Verif.Spec.Actions
import Verif.Props.DList
/-
Properties C24 (running action lists) and C25 (editing action lists).
-/
namespace WS.Props
open WS Spec

/-! ## C24 -/

variable {σ : Type}

/-- C24: the actions run are a subsequence of the list: in list order, none more often than it is
listed. -/
theorem C24_in_order (E : ActEnv σ) (ty : ActionType) (l : List Nat) (s : σ) (a : Flags) :
    (runActions E ty l s a).called.Sublist l := by
  induction l generalizing s a with
  | nil => exact List.Sublist.refl _
  | cons i rest ih =>
    unfold runActions
    split
    · exact (ih s a).cons i
    · simp only
      split
      · exact (List.nil_sublist rest).cons_cons i
      · split
        · exact (List.nil_sublist rest).cons_cons i
        · exact (ih _ _).cons_cons i

/-- C24: what is left is what the called handlers produce one after the other. -/
theorem C24_fold (E : ActEnv σ) (ty : ActionType) (l : List Nat) (s : σ) (a : Flags) :
    ((runActions E ty l s a).st, (runActions E ty l s a).ares) = after E ty (runActions E ty l s a).called (s, a) := by
  induction l generalizing s a with
  | nil => rfl
  | cons i rest ih =>
    unfold runActions
    split
    · exact ih s a
    · simp only
      split
      · rfl
      · split
        · rfl
        · simp only [after]; exact ih _ _

theorem hasAll_stop (f : Flags) : f.hasAll AR.STOP = f.getLsbD 6 := by
  unfold Flags.hasAll AR.STOP bit
  rw [BitVec.and_twoPow]
  cases h : f.getLsbD 6 <;> simp <;> decide

/-- C24: after an action that failed or set the stop bit no further action is called. -/
theorem C24_stops (E : ActEnv σ) (ty : ActionType) (l : List Nat) (s : σ) (a : Flags) (p q : List Nat) (i : Nat)
    (h : (runActions E ty l s a).called = p ++ i :: q)
    (hs : callErr E ty i (after E ty p (s, a)) ≠ none ∨ callStops E ty i (after E ty p (s, a))) : q = [] := by
  induction l generalizing s a p with
  | nil => simp [runActions] at h
  | cons j rest ih =>
    unfold runActions at h
    split at h
    · exact ih s a p h hs
    · simp only at h
      split at h
      · cases p with
        | nil => simp at h; exact h.2
        | cons x p => simp at h
      · split at h
        · cases p with
          | nil => simp at h; exact h.2
          | cons x p => simp at h
        · rename_i he hst
          cases p with
          | nil =>
            simp only [List.nil_append, List.cons.injEq] at h
            exfalso
            obtain ⟨rfl, -⟩ := h
            rcases hs with hs | hs
            · exact hs he
            · unfold callStops at hs
              simp only [after] at hs
              rw [hasAll_stop] at hst
              exact hst hs
          | cons x p =>
            simp only [List.cons_append, List.cons.injEq] at h
            obtain ⟨rfl, h⟩ := h
            exact ih _ _ p h hs

/-- C24: the list reports an error exactly when its last called action did, and that one. -/
theorem C24_error (E : ActEnv σ) (ty : ActionType) (l : List Nat) (s : σ) (a : Flags) :
    ((runActions E ty l s a).called = [] → (runActions E ty l s a).err = none) ∧
    (∀ p i, (runActions E ty l s a).called = p ++ [i] →
      (runActions E ty l s a).err = callErr E ty i (after E ty p (s, a))) := by
  induction l generalizing s a with
  | nil => exact ⟨fun _ => rfl, fun p i h => by simp [runActions] at h⟩
  | cons j rest ih =>
    unfold runActions
    split
    · exact ih s a
    · simp only
      split
      · rename_i e he
        refine ⟨fun h => by simp at h, fun p i h => ?_⟩
        cases p with
        | nil => simp at h; subst h; simp [callErr, after, he]
        | cons x p => simp at h
      · rename_i he
        split
        · refine ⟨fun h => by simp at h, fun p i h => ?_⟩
          cases p with
          | nil => simp at h; subst h; simp [callErr, after, he]
          | cons x p => simp at h
        · refine ⟨fun h => by simp at h, fun p i h => ?_⟩
          cases p with
          | nil =>
            simp only [List.nil_append, List.cons.injEq] at h
            obtain ⟨rfl, h⟩ := h
            simp only [(ih _ _).1 h, callErr, after, he]
          | cons x p =>
            simp only [List.cons_append, List.cons.injEq] at h
            obtain ⟨rfl, h⟩ := h
            exact (ih _ _).2 p i h

/-- C24: every enabled action is called, up to the first that fails or stops; disabled ones are
skipped.  (Stated for handlers that do not enable or disable actions of the list they run in.) -/
theorem C24_all_enabled (E : ActEnv σ) (ty : ActionType) (l : List Nat) (s : σ) (a : Flags) (dis : Nat → Bool)
    (hd : ∀ s i, E.disabled s i = dis i) :
    ∃ rest, l.filter (fun i => !dis i) = (runActions E ty l s a).called ++ rest ∧
      (rest ≠ [] → ∃ p i, (runActions E ty l s a).called = p ++ [i] ∧
        (callErr E ty i (after E ty p (s, a)) ≠ none ∨ callStops E ty i (after E ty p (s, a)))) := by
  induction l generalizing s a with
  | nil => exact ⟨[], rfl, fun h => absurd rfl h⟩
  | cons j rest ih =>
    unfold runActions
    rw [hd]
    by_cases hj : dis j = true
    · simp only [hj, if_true]
      obtain ⟨r, h1, h2⟩ := ih s a
      exact ⟨r, by rw [List.filter_cons_of_neg (by simp [hj])]; exact h1, h2⟩
    · simp only [Bool.not_eq_true] at hj
      rw [List.filter_cons_of_pos (by simp [hj])]
      simp only [hj, Bool.false_eq_true, if_false]
      split
      · rename_i e he
        exact ⟨_, rfl, fun _ => ⟨[], j, rfl, Or.inl (by simp [callErr, after, he])⟩⟩
      · split
        · rename_i hst
          rw [hasAll_stop] at hst
          exact ⟨_, rfl, fun _ => ⟨[], j, rfl, Or.inr hst⟩⟩
        · obtain ⟨r, h1, h2⟩ := ih (E.handler ty j (E.enter s j) a).1 (E.handler ty j (E.enter s j) a).2.1
          refine ⟨r, by simp only [List.cons_append]; rw [← h1], fun hr => ?_⟩
          obtain ⟨p, i, e1, e2⟩ := h2 hr
          exact ⟨j :: p, i, by simp only [e1, List.cons_append], e2⟩

/-- C24: nothing runs, and nothing changes, when the stop bit is already set. -/
theorem C24_already_stopped (E : ActEnv σ) (g : EventConfig) (e : Event) (ty : ActionType) (s : σ) (a : Flags)
    (h : a.getLsbD 6 = true) :
    listDispatch E g e ty s a = { called := [], st := s, ares := a, err := some .alreadyStopped } := by
  unfold listDispatch
  rw [show AR.STOP = bit 6 from rfl, Flags.has_bit _ _ (by decide), h]
  rfl

/-- The configuration inhibits actions (event configuration flag bit 2). -/
def InhibitedBy (g : EventConfig) (e : Event) : Prop :=
  g.flags.getLsbD 2 = true ∨ ∃ c, e.config = some c ∧ c.flags.getLsbD 2 = true

theorem hasAll_bit (f : Flags) (k : Nat) (hk : k < 32) : f.hasAll (bit k) = f.getLsbD k := by
  rw [← Flags.has_bit f k hk]
  unfold Flags.hasAll Flags.has bit
  rw [BitVec.and_twoPow]
  have : BitVec.twoPow 32 k ≠ 0#32 := by
    intro hc
    have := congrArg (fun b => BitVec.getLsbD b k) hc
    simp [hk] at this
  split
  · simp [this]
  · simp [Ne.symm this]

theorem inhibited_iff (g : EventConfig) (e : Event) : inhibited g e = true ↔ InhibitedBy g e := by
  unfold inhibited InhibitedBy
  rw [show EF.INHIBIT_ACTIONS = bit 2 from rfl, hasAll_bit _ _ (by decide), Bool.or_eq_true]
  cases e.config with
  | none => simp
  | some c => simp only [hasAll_bit _ 2 (by decide)]; simp

/-- C24: no action runs, and results are unchanged, when actions are inhibited globally or for the
event. -/
theorem C24_inhibited (E : ActEnv σ) (g : EventConfig) (e : Event) (ty : ActionType) (s : σ) (a : Flags)
    (h : InhibitedBy g e) :
    (listDispatch E g e ty s a).called = [] ∧ (listDispatch E g e ty s a).ares = a := by
  have hi := (inhibited_iff g e).2 h
  unfold listDispatch
  split
  · exact ⟨rfl, rfl⟩
  · cases ty <;> simp only [hi, if_true] <;> first | exact ⟨trivial, trivial⟩ | (split <;> exact ⟨rfl, rfl⟩)

/-- C24: otherwise the list of the event for that type is run (for the four types that are not tied
to a rule's creation and removal; those are C26). -/
theorem C24_runs_list (E : ActEnv σ) (g : EventConfig) (e : Event) (ty : ActionType) (s : σ) (a : Flags)
    (h : ¬ InhibitedBy g e) (hs : a.getLsbD 6 = false) (h1 : ty ≠ .insert) (h2 : ty ≠ .delete) :
    listDispatch E g e ty s a = runActions E ty (e.actions ty) s a := by
  have hi : inhibited g e = false := by
    cases hh : inhibited g e
    · rfl
    · exact absurd ((inhibited_iff g e).1 hh) h
  unfold listDispatch
  rw [show AR.STOP = bit 6 from rfl, Flags.has_bit _ _ (by decide), hs]
  cases ty <;> simp_all

/-- C24: which list runs: each kind of action runs the list the event has for that kind, on the given
rule and results.  The lists for insertion and deletion run once per rule (the rule's bits 16 and 17
tell) and mark the rule first. -/
theorem C24_which_list (E : ActEnv σ) (g : EventConfig) (e : Event) (s : σ) (a : Flags)
    (h : ¬ InhibitedBy g e) (hs : a.getLsbD 6 = false) :
    listDispatch E g e .post s a = runActions E .post e.postActions s a ∧
    listDispatch E g e .match_ s a = runActions E .match_ e.matchActions s a ∧
    listDispatch E g e .update s a = runActions E .update e.updateActions s a ∧
    listDispatch E g e .decision s a = runActions E .decision e.decisionActions s a ∧
    ((E.rule s).flags.getLsbD 16 = false →
      listDispatch E g e .insert s a = runActions E .insert e.insertActions
        (E.setRule s { E.rule s with flags := (E.rule s).flags ||| bit 16 }) a) ∧
    ((E.rule s).flags.getLsbD 17 = false →
      listDispatch E g e .delete s a = runActions E .delete e.deleteActions
        (E.setRule s { E.rule s with flags := (E.rule s).flags ||| bit 17 }) a) := by
  have hi : inhibited g e = false := by
    cases hh : inhibited g e
    · rfl
    · exact absurd ((inhibited_iff g e).1 hh) h
  have hst : a.has AR.STOP = false := by
    rw [show AR.STOP = bit 6 from rfl, Flags.has_bit _ _ (by decide), hs]
  have hb : ∀ (f : Flags) (k : Nat), k < 32 → f.getLsbD k = false → f.hasAll (bit k) = false := by
    intro f k hk hf
    have h1 := Flags.has_bit f k hk
    rw [hf] at h1
    unfold Flags.has at h1
    unfold Flags.hasAll
    have h2 : f &&& bit k = 0#32 := by simpa using h1
    rw [h2]
    have hz : bit k ≠ 0#32 := by
      intro hc
      have := congrArg (fun b => BitVec.getLsbD b k) hc
      simp [bit, hk] at this
    simpa using fun hc => hz hc.symm
  refine ⟨?_, ?_, ?_, ?_, ?_, ?_⟩
  · simp [listDispatch, hst, hi, Event.actions]
  · simp [listDispatch, hst, hi, Event.actions]
  · simp [listDispatch, hst, hi, Event.actions]
  · simp [listDispatch, hst, hi, Event.actions]
  · intro hf
    have := hb _ 16 (by decide) hf
    simp only [listDispatch, hst, hi, Event.actions, RF.INSERT_ACTIONS_CALLED, this]
    rfl
  · intro hf
    have := hb _ 17 (by decide) hf
    simp only [listDispatch, hst, hi, Event.actions, RF.DELETE_ACTIONS_CALLED, this]
    rfl

/-- Three actions: 1 adds the accept bit, 2 is disabled, 3 stops; 4 is never reached. -/
def demoEnv : ActEnv Unit where
  rule := fun _ => {}
  setRule := fun s _ => s
  disabled := fun _ i => i == 2
  countHit := fun s _ => s
  handler := fun _ i s a => (s, if i = 3 then a ||| AR.STOP else a ||| AR.ACCEPT, none)

example : (listDispatch demoEnv {} { label := [], matchActions := [1, 2, 3, 4] } .match_ () 0).called = [1, 3] ∧
    (listDispatch demoEnv {} { label := [], matchActions := [1, 2, 3, 4] } .insert () 0).called = [] := by decide

example : (runActions demoEnv .match_ [1, 2, 3, 4] () 0).called = [1, 3] ∧
    (runActions demoEnv .match_ [1, 2, 3, 4] () 0).ares = AR.ACCEPT ||| AR.STOP ∧
    (∀ s i, demoEnv.disabled s i = (i == 2)) ∧
    callStops demoEnv .match_ 3 (after demoEnv .match_ [1] ((), 0)) := by
  refine ⟨by decide, by decide, fun _ _ => rfl, by unfold callStops; decide⟩

/-! ## C25 -/

theorem cells_eq {l : ActionList} {xs : List Nat} (h : DList.IsList l.s xs) : l.cells = xs := by
  unfold ActionList.cells
  exact C05_walk h _ (by rw [h.len]; exact Nat.le_refl _)

theorem find_isSome {l : ActionList} {L : List Nat} (h : Holds l L) (a : Nat) : (l.find a).isSome = true ↔ a ∈ L := by
  obtain ⟨xs, h1, rfl⟩ := h
  unfold ActionList.find
  rw [cells_eq h1, List.find?_isSome, List.mem_map]
  constructor
  · rintro ⟨x, hx, e⟩; exact ⟨x, hx, by simpa using e⟩
  · rintro ⟨x, hx, e⟩; exact ⟨x, hx, by simp [e]⟩

theorem map_setAct (l : ActionList) (c a : Nat) (xs : List Nat) (h : c ∉ xs) :
    xs.map (l.setAct c a).act = xs.map l.act := by
  apply List.map_congr_left
  intro x hx
  have : x ≠ c := fun e => h (e ▸ hx)
  simp [ActionList.setAct, this]

/-- C25: appending an action that is not in the list puts it at the end. -/
theorem C25_append (l : ActionList) (L : List Nat) (a c : Nat) (h : Holds l L) (hc : FreshCell l c) (ha : a ∉ L) :
    ∃ l', l.append1 a (some c) = .ok l' ∧ Holds l' (L ++ [a]) := by
  have hf : (l.find a).isSome = false := by
    cases hh : (l.find a).isSome
    · rfl
    · exact absurd ((find_isSome h a).1 hh) ha
  obtain ⟨xs, h1, rfl⟩ := h
  refine ⟨{ l.setAct c a with s := DList.append l.s c }, by unfold ActionList.append1; rw [hf]; rfl, xs ++ [c], ?_, ?_⟩
  · exact (C05_append h1 (hc xs h1)).1
  · simp only [List.map_append, List.map_cons, List.map_nil]
    rw [map_setAct l c a xs (hc xs h1)]
    simp [ActionList.setAct]

/-- C25: prepending an action that is not in the list puts it at the front. -/
theorem C25_prepend (l : ActionList) (L : List Nat) (a c : Nat) (h : Holds l L) (hc : FreshCell l c) (ha : a ∉ L) :
    ∃ l', l.prepend1 a (some c) = .ok l' ∧ Holds l' (a :: L) := by
  have hf : (l.find a).isSome = false := by
    cases hh : (l.find a).isSome
    · rfl
    · exact absurd ((find_isSome h a).1 hh) ha
  obtain ⟨xs, h1, rfl⟩ := h
  refine ⟨{ l.setAct c a with s := DList.prepend l.s c }, by unfold ActionList.prepend1; rw [hf]; rfl, c :: xs, ?_, ?_⟩
  · exact (C05_prepend h1 (hc xs h1)).1
  · simp only [List.map_cons]
    rw [map_setAct l c a xs (hc xs h1)]
    simp [ActionList.setAct]

theorem find_split {l : ActionList} {A B : List Nat} {p : Nat} (h : Holds l (A ++ p :: B)) (hp : p ∉ A) :
    ∃ xa x xb, DList.IsList l.s (xa ++ x :: xb) ∧ xa.map l.act = A ∧ l.act x = p ∧ xb.map l.act = B ∧
      l.find p = some x := by
  obtain ⟨xs, h1, h2⟩ := h
  obtain ⟨xa, ys, rfl, h3, h4⟩ := List.map_eq_append_iff.1 h2
  obtain ⟨x, xb, rfl, h5, h6⟩ := List.map_eq_cons_iff.1 h4
  refine ⟨xa, x, xb, h1, h3, h5, h6, ?_⟩
  unfold ActionList.find
  rw [cells_eq h1, List.find?_append]
  have : xa.find? (fun y => l.act y == p) = none := by
    rw [List.find?_eq_none]
    intro y hy hyp
    apply hp
    rw [← h3, List.mem_map]
    exact ⟨y, hy, by simpa using hyp⟩
  rw [this]
  simp [h5]

/-- C25: inserting an absent action after a present one puts it right behind that one — if the
point is not the last element, or the memory of the new cell happens to hold a NULL `next`.
The unconditional claim is false of the code: see `C25_insert_after_last_broken`. -/
theorem C25_insert_after_partial (l : ActionList) (A B : List Nat) (a p c : Nat) (h : Holds l (A ++ p :: B))
    (hp : p ∉ A) (hc : FreshCell l c) (ha : a ∉ A ++ p :: B) (hlast : B = [] → (l.s.cell c).next = none) :
    ∃ l', l.insertAfter1 a p (some c) = .ok l' ∧ Holds l' (A ++ p :: a :: B) := by
  have hf : (l.find a).isSome = false := by
    cases hh : (l.find a).isSome
    · rfl
    · exact absurd ((find_isSome h a).1 hh) ha
  obtain ⟨xa, x, xb, h1, rfl, rfl, rfl, hx⟩ := find_split h hp
  have hcx := hc _ h1
  refine ⟨{ l.setAct c a with s := DList.insertAfter l.s (some x) c },
    by unfold ActionList.insertAfter1; rw [hf, hx]; rfl, xa ++ x :: c :: xb, ?_, ?_⟩
  · exact (C05_insertAfter_partial h1 hcx (fun e => hlast (by rw [e]; rfl))).1
  · have e1 := map_setAct l c a xa (fun hm => hcx (by simp [hm]))
    have e2 := map_setAct l c a xb (fun hm => hcx (by simp [hm]))
    have e3 : (l.setAct c a).act x = l.act x := by
      have : x ≠ c := fun e => hcx (by simp [e])
      simp [ActionList.setAct, this]
    have e4 : (l.setAct c a).act c = a := by simp [ActionList.setAct]
    simp only [List.map_append, List.map_cons]
    rw [e1, e2, e3, e4]

/-- C25 is false of the code at the end of the list: the new cell comes from `malloc`, and unless its
memory happens to hold NULL in `next`, the result is no list at all
(src/wolfsentry_ll.h:82-99 never stores that link). -/
theorem C25_insert_after_last_broken (l : ActionList) (A : List Nat) (a p c : Nat) (h : Holds l (A ++ [p]))
    (hp : p ∉ A) (hc : FreshCell l c) (ha : a ∉ A ++ [p]) (hgarbage : (l.s.cell c).next ≠ none) :
    ∃ l', l.insertAfter1 a p (some c) = .ok l' ∧ ∀ L, ¬ Holds l' L := by
  have hf : (l.find a).isSome = false := by
    cases hh : (l.find a).isSome
    · rfl
    · exact absurd ((find_isSome h a).1 hh) ha
  obtain ⟨xa, x, xb, h1, h2, h3, h4, hx⟩ := find_split (B := []) h hp
  have hxb : xb = [] := by simpa using h4
  subst hxb
  refine ⟨{ l.setAct c a with s := DList.insertAfter l.s (some x) c },
    by unfold ActionList.insertAfter1; rw [hf, hx]; rfl, ?_⟩
  rintro L ⟨ys, hy, -⟩
  have hcx := hc _ h1
  exact C05_insertAfter_stale_broken h1 (fun e => hcx (by simp [e])) hgarbage ys hy

/-- C25: a second occurrence of an action is refused by all three ways of adding (the call changes
nothing: there is no new list). -/
theorem C25_duplicate (l : ActionList) (L : List Nat) (a p : Nat) (c : Option Nat) (h : Holds l L) (ha : a ∈ L) :
    l.append1 a c = .error .itemAlreadyPresent ∧ l.prepend1 a c = .error .itemAlreadyPresent ∧
    l.insertAfter1 a p c = .error .itemAlreadyPresent := by
  have hf := (find_isSome h a).2 ha
  unfold ActionList.append1 ActionList.prepend1 ActionList.insertAfter1
  simp [hf]

/-- C25: an anchor that is not in the list is reported. -/
theorem C25_missing_anchor (l : ActionList) (L : List Nat) (a p : Nat) (c : Option Nat) (h : Holds l L) (ha : a ∉ L)
    (hp : p ∉ L) : l.insertAfter1 a p c = .error .itemNotFound := by
  have hf : l.find a = none := by
    cases hh : l.find a
    · rfl
    · exact absurd ((find_isSome h a).1 (by rw [hh]; rfl)) ha
  have hf' : l.find p = none := by
    cases hh : l.find p
    · rfl
    · exact absurd ((find_isSome h p).1 (by rw [hh]; rfl)) hp
  unfold ActionList.insertAfter1
  simp [hf, hf']

/-- C25: deleting by label removes the first action with that label and nothing else; no NULL is
dereferenced. -/
theorem C25_delete (l : ActionList) (A B : List Nat) (a : Nat) (lab : List Byte) (h : Holds l (A ++ a :: B))
    (hlab : l.label a = lab) (hA : ∀ x ∈ A, l.label x ≠ lab) :
    ∃ l', l.delete lab = some (.ok l') ∧ Holds l' (A ++ B) := by
  obtain ⟨xs, h1, h2⟩ := h
  obtain ⟨xa, ys, rfl, h3, h4⟩ := List.map_eq_append_iff.1 h2
  obtain ⟨x, xb, rfl, h5, h6⟩ := List.map_eq_cons_iff.1 h4
  have hx : l.cells.find? (fun y => l.label (l.act y) == lab) = some x := by
    rw [cells_eq h1, List.find?_append]
    have : xa.find? (fun y => l.label (l.act y) == lab) = none := by
      rw [List.find?_eq_none]
      intro y hy hyp
      refine hA (l.act y) ?_ (by simpa using hyp)
      rw [← h3, List.mem_map]; exact ⟨y, hy, rfl⟩
    rw [this]
    simp [h5, hlab]
  obtain ⟨s', e1, e2, -⟩ := C05_delete h1
  refine ⟨{ l with s := s' }, by unfold ActionList.delete; rw [hx]; simp [e1], xa ++ xb, e2, ?_⟩
  simp only [List.map_append, h3, h6]

/-- C25: deleting a label no action of the list has is reported. -/
theorem C25_delete_missing (l : ActionList) (L : List Nat) (lab : List Byte) (h : Holds l L)
    (hL : ∀ x ∈ L, l.label x ≠ lab) : l.delete lab = some (.error .itemNotFound) := by
  obtain ⟨xs, h1, rfl⟩ := h
  have : l.cells.find? (fun y => l.label (l.act y) == lab) = none := by
    rw [cells_eq h1, List.find?_eq_none]
    intro y hy hyp
    exact hL (l.act y) (List.mem_map.2 ⟨y, hy, rfl⟩) (by simpa using hyp)
  unfold ActionList.delete
  rw [this]

theorem deleteAll_foldl (xs : List Nat) (s : DList.State) (h : DList.IsList s xs) :
    ∃ s', xs.foldl (fun st c => st.bind (fun s => DList.delete s c)) (some s) = some s' ∧ DList.IsList s' [] := by
  induction xs generalizing s with
  | nil => exact ⟨s, rfl, h⟩
  | cons x xs ih =>
    obtain ⟨s', e1, e2, -⟩ := C05_delete (as := []) h
    obtain ⟨s'', e3, e4⟩ := ih s' e2
    exact ⟨s'', by simp only [List.foldl_cons, Option.bind_some, e1]; exact e3, e4⟩

/-- C25: deleting all leaves the empty list. -/
theorem C25_delete_all (l : ActionList) (L : List Nat) (h : Holds l L) :
    ∃ l', l.deleteAll = some l' ∧ Holds l' [] := by
  obtain ⟨xs, h1, rfl⟩ := h
  obtain ⟨s', e1, e2⟩ := deleteAll_foldl xs l.s h1
  refine ⟨{ l with s := s' }, ?_, [], e2, rfl⟩
  unfold ActionList.deleteAll
  rw [cells_eq h1, e1]; rfl

/-- C25: unknown labels are refused before the list is looked at; known ones reach it. -/
theorem C25_unknown_label (l : ActionList) (res : List Byte → Option Nat) (lab point : List Byte) (c : Option Nat) :
    (res lab = none → l.append res lab c = .error .itemNotFound ∧ l.prepend res lab c = .error .itemNotFound ∧
      l.insertAfter res lab point c = .error .itemNotFound) ∧
    (res point = none → l.insertAfter res lab point c = .error .itemNotFound) ∧
    (∀ a p, res lab = some a → res point = some p → l.append res lab c = l.append1 a c ∧
      l.prepend res lab c = l.prepend1 a c ∧ l.insertAfter res lab point c = l.insertAfter1 a p c) := by
  refine ⟨fun h => ?_, fun h => ?_, fun a p h h' => ?_⟩
  · simp [ActionList.append, ActionList.prepend, ActionList.insertAfter, h]
  · simp only [ActionList.insertAfter, h]
    split <;> rfl
  · simp [ActionList.append, ActionList.prepend, ActionList.insertAfter, h, h']

/-- The demo list of `Props/DList` holding the actions 11, 12, 13. -/
def demoActs : ActionList := { s := demoList, act := fun c => c + 10, label := fun a => [BitVec.ofNat 8 a] }
theorem demoActs_holds : Holds demoActs [11, 12, 13] := ⟨[1, 2, 3], demoList_isList, rfl⟩
theorem demoActs_fresh : FreshCell demoActs 9 := by
  intro xs h
  rw [C05_unique h demoList_isList]; decide
example : ∃ l', demoActs.append1 14 (some 9) = .ok l' ∧ Holds l' [11, 12, 13, 14] :=
  C25_append _ _ _ _ demoActs_holds demoActs_fresh (by decide)
example : ∃ l', demoActs.prepend1 14 (some 9) = .ok l' ∧ Holds l' [14, 11, 12, 13] :=
  C25_prepend _ _ _ _ demoActs_holds demoActs_fresh (by decide)
example : ∃ l', demoActs.insertAfter1 14 12 (some 9) = .ok l' ∧ Holds l' [11, 12, 14, 13] :=
  C25_insert_after_partial _ [11] [13] 14 12 9 demoActs_holds (by decide) demoActs_fresh (by decide) (by simp)
example : ∃ l', demoActs.insertAfter1 14 13 (some 9) = .ok l' ∧ ∀ L, ¬ Holds l' L :=
  C25_insert_after_last_broken _ [11, 12] 14 13 9 demoActs_holds (by decide) demoActs_fresh (by decide) (by decide)
example : ∃ l', demoActs.delete [12#8] = some (.ok l') ∧ Holds l' [11, 13] :=
  C25_delete _ [11] [13] 12 [12#8] demoActs_holds (by decide) (by decide)

end WS.Props
