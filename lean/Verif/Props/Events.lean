import Verif.Proof.Events
/-
Properties C27 (built-in names), C41 (event configuration), C43 (event catalogue by label).
All theorems about histories start from a freshly initialised context: `catInit` with any default
configuration and any built-in actions.
-/
namespace WS.Props
open WS WS.Spec Std

/-- A small platform: private data at offset 200, 8-byte pointers. -/
def demoPlat : Plat := { dataOffset := 200, ptrSize := 8 }

/-- The label `"%track-peer-v1"` (src/action_builtins.c:147). -/
def trackPeer : List Byte :=
  [0x25#8, 0x74#8, 0x72#8, 0x61#8, 0x63#8, 0x6b#8, 0x2d#8, 0x70#8, 0x65#8, 0x65#8, 0x72#8, 0x2d#8, 0x76#8, 0x31#8]

def trackPeerArg : LabelArg := { mem := some (trackPeer ++ [0#8]), len := -1 }
/-- The label `"in"`, given with an explicit length and no terminator. -/
def inArg : LabelArg := { mem := some [0x69#8, 0x6e#8, 0x7a#8], len := 2 }

theorem storeInsert_first (t : Nat) (k : List Byte) :
    storeInsert catCmp {} t k =
      (.ok ⟨1, t, k⟩, { tables := fun t' => if t' = t then { ents := [⟨1, t, k⟩], nEnts := 1, nInserts := 1 } else {},
                        byId := [⟨1, t, k⟩], nById := 1, counter := 1 }) := by
  unfold storeInsert
  rw [idAllocate]
  simp [insertById, idSplice, tableInsert, keySplice, Store.setTable, idModulus]

/-- The state right after initialisation with the built-in action of the library. -/
def initState : Cat := ({ store := (storeInsert catCmp {} tblActions trackPeer).2 } : Cat)

theorem initState_reachable : catInit demoPlat none [trackPeerArg] = .ok initState := by
  have hl : labelCheck trackPeerArg = .ok trackPeer := by decide
  simp only [catInit, cfgLoad, List.foldl, actionInsert1, hl, initState, storeInsert_first]

/-! ## C27 -/

/-- C27: no user call can create an event or an action whose label is in the reserved namespace:
the call fails with `NOT_PERMITTED` and changes nothing at all. -/
theorem C27_reserved_insert_refused (p : Plat) (s : Cat) (a : LabelArg) (c : Option Cfg) (h : Reserved a.text) :
    eventInsert p s a c = (.error .notPermitted, s) ∧ actionInsert s a = (.error .notPermitted, s) := by
  have hne : a.text ≠ [] := by intro hc; rw [Reserved, hc] at h; simp at h
  have hm : a.mem.isNone = false := by
    cases hm : a.mem with
    | none => exact absurd (by unfold LabelArg.text; rw [hm]) hne
    | some m => rfl
  have hl : a.len ≠ 0 := by
    intro hl
    apply hne
    unfold LabelArg.text
    cases a.mem with
    | none => rfl
    | some m => simp [hl]
  have hb : labelIsBuiltin a = .ok true := by
    unfold labelIsBuiltin
    rw [if_neg (by simp [hm, hl])]
    cases ht : a.text with
    | nil => exact absurd ht hne
    | cons b bs =>
      rw [Reserved, ht] at h
      simp at h
      simp [prefixCompare, builtinPrefix, h]
  exact ⟨by unfold eventInsert; rw [hb], by unfold actionInsert; rw [hb]⟩

theorem trackPeer_reserved : Reserved trackPeer := rfl
example : Reserved trackPeerArg.text := by unfold Reserved; decide

theorem cfgCheck_err {p : Plat} {c : Cfg} {x : Err} (h : cfgCheck p c = .error x) :
    x = .invalidArg ∨ x = .numericArgTooBig := by
  unfold cfgCheck at h
  repeat' split at h
  all_goals first
    | (cases h; exact Or.inl rfl)
    | (cases h; exact Or.inr rfl)
    | cases h

theorem newEventCfg_err {p : Plat} {c : Option Cfg} {x : Err} (h : newEventCfg p c = .error x) :
    x = .invalidArg ∨ x = .numericArgTooBig := by
  unfold newEventCfg cfgLoad at h
  cases c with
  | none => cases h
  | some c =>
    simp only at h
    cases hc : cfgCheck p c with
    | error y => rw [hc] at h; cases h; exact cfgCheck_err hc
    | ok u => rw [hc] at h; cases h

/-- C27: other labels are never refused as reserved: in any reachable state `NOT_PERMITTED` is
reported only for reserved labels (and for the empty string). -/
theorem C27_not_permitted_only_reserved (p : Plat) (g : CfgInt) (c0 : Option Cfg) (bs : List LabelArg) (s0 : Cat)
    (h0 : catInit p c0 bs = .ok s0) (ops : List CatOp) (hops : ∀ o ∈ ops, o.Ok) (a : LabelArg) (c : Option Cfg)
    (h : (eventInsert p (catRun p g s0 ops) a c).1 = .error .notPermitted ∨
         (actionInsert (catRun p g s0 ops) a).1 = .error .notPermitted) :
    Reserved a.text ∨ a.text = [] := by
  have hinv := catRun_inv p g (catInit_inv h0).1 ops hops
  generalize catRun p g s0 ops = s at hinv h
  have hb : labelIsBuiltin a = .ok true := by
    apply Classical.byContradiction
    intro hb
    have he : eventInsert p s a c = eventInsert1 p s a c := by
      unfold eventInsert
      split
      · rename_i h'; exact absurd h' hb
      · rfl
    have ha : actionInsert s a = actionInsert1 s a := by
      unfold actionInsert
      split
      · rename_i h'; exact absurd h' hb
      · rfl
    rw [he, ha] at h
    unfold eventInsert1 actionInsert1 at h
    have hlc : ∀ x, labelCheck a = .error x → x = .invalidArg ∨ x = .stringArgTooLong := by
      intro x hx
      unfold labelCheck at hx
      repeat' split at hx
      all_goals first
        | (cases hx; exact Or.inl rfl)
        | (cases hx; exact Or.inr rfl)
        | cases hx
    cases hl : labelCheck a with
    | error x =>
      rw [hl] at h
      simp only [Except.error.injEq, or_self] at h
      subst h
      rcases hlc _ hl with h | h <;> cases h
    | ok t =>
      rw [hl] at h
      simp only at h
      have hst : ∀ tb, (storeInsert catCmp s.store tb t).1 ≠ .error .notPermitted := by
        intro tb hx
        rcases storeInsert_spec catCmp hinv.store tb t with ⟨b, _⟩ | ⟨b, _⟩ | ⟨_, b, _⟩ <;>
          rw [b] at hx <;> cases hx
      rcases h with h | h
      · cases hn : newEventCfg p c with
        | error x =>
          rw [hn] at h
          simp only [Except.error.injEq] at h
          subst h
          rcases newEventCfg_err hn with h | h <;> cases h
        | ok i =>
          rw [hn] at h
          simp only [eventInsertTail] at h
          have := hst tblEvents
          rcases hs : storeInsert catCmp s.store tblEvents t with ⟨r, st⟩
          rw [hs] at h this
          cases r with
          | error x =>
            simp only [Except.error.injEq] at h
            subst h; exact this rfl
          | ok e => cases h
      · have := hst tblActions
        rcases hs : storeInsert catCmp s.store tblActions t with ⟨r, st⟩
        rw [hs] at h this
        cases r with
        | error x =>
          simp only [Except.error.injEq] at h
          subst h; exact this rfl
        | ok e => cases h
  unfold labelIsBuiltin at hb
  split at hb
  · cases hb
  · simp only [Except.ok.injEq] at hb
    cases ht : a.text with
    | nil => exact Or.inr rfl
    | cons b bs =>
      rw [ht] at hb
      left
      simp [prefixCompare, builtinPrefix] at hb
      simp [Reserved, hb]

/-- C27 (creation side, all histories): whatever calls a user makes, no event with a reserved label
ever exists, and every action with a reserved label is one that was put there at initialisation.
The deletion side of C27 is false of the code: see `C27_builtin_action_deletable`. -/
theorem C27_reserved_only_from_init_partial (p : Plat) (g : CfgInt) (c : Option Cfg) (bs : List LabelArg) (s0 : Cat)
    (h0 : catInit p c bs = .ok s0) (ops : List CatOp) (hops : ∀ o ∈ ops, o.Ok) :
    (∀ e ∈ (catRun p g s0 ops).events, ¬ Reserved e.key) ∧
    (∀ e ∈ (catRun p g s0 ops).actions, Reserved e.key → e ∈ s0.actions) := by
  have hi := catInit_inv h0
  have gen : ∀ (ops : List CatOp) (s : Cat), (∀ o ∈ ops, o.Ok) → CatInv s →
      (∀ e ∈ s.events, ¬ Reserved e.key) → (∀ e ∈ s.actions, Reserved e.key → e ∈ s0.actions) →
      (∀ e ∈ (catRun p g s ops).events, ¬ Reserved e.key) ∧
      (∀ e ∈ (catRun p g s ops).actions, Reserved e.key → e ∈ s0.actions) := by
    intro ops
    induction ops with
    | nil => intro s _ _ h1 h2; exact ⟨h1, h2⟩
    | cons o os ih =>
      intro s hos hinv h1 h2
      have hstep := catStep_inv p g hinv o (hos o (List.mem_cons_self ..))
      apply ih (catStep p g s o) (fun o' h' => hos o' (List.mem_cons_of_mem _ h')) hstep
      · intro e he hres
        cases o with
        | eventInsert a cc =>
          rcases eventInsert_cases p hinv a cc with ⟨x, _, hh, _⟩ | ⟨e', i, g1, g2, _, _, _, _, _, _, _, _, hm, _⟩
          · rw [Cat.events, catStep, hh] at he; exact h1 e he hres
          · rcases (hm e).1 he with rfl | he
            · rw [g2] at hres
              rw [(C27_reserved_insert_refused p s a cc hres).1] at g1
              cases g1
            · exact h1 e he hres
        | eventDelete a =>
          rcases eventDelete_cases hinv a with ⟨x, hh⟩ | ⟨e', hh, _, _, _, hm, _⟩
          · rw [catStep, hh] at he; exact h1 e he hres
          · rw [catStep, hh] at he; exact h1 e ((hm _ _).1 he).1 hres
        | eventFlush =>
          rw [catStep, eventFlush, Cat.events, (tableFlush_spec catCmp hinv.store tblEvents).2.1] at he
          cases he
        | eventUpdateConfig a cc =>
          rcases eventUpdate_cases p g hinv a cc with ⟨x, hh⟩ | ⟨e', i, hh, _⟩
          · rw [catStep, hh] at he; exact h1 e he hres
          · rw [catStep, hh] at he; exact h1 e he hres
        | defaultUpdate cc =>
          rcases defaultUpdate_cases p s cc with ⟨x, hh⟩ | ⟨c', _, _, hh⟩
          · rw [catStep, hh] at he; exact h1 e he hres
          · rw [catStep, hh] at he; exact h1 e he hres
        | actionInsert a =>
          rcases actionInsert_cases hinv a with ⟨x, _, hh, _⟩ | ⟨e', _, _, _, _, _, _, _, _, _, hh⟩
          · rw [Cat.events, catStep, hh] at he; exact h1 e he hres
          · rw [Cat.events, catStep, hh _ (by decide)] at he; exact h1 e he hres
        | actionDelete a =>
          rcases actionDelete_cases hinv a with ⟨x, hh⟩ | ⟨e', hh, _, _, _, hm, _⟩
          · rw [catStep, hh] at he; exact h1 e he hres
          · rw [catStep, hh] at he; exact h1 e ((hm _ _).1 he).1 hres
        | actionFlush =>
          rw [catStep, actionFlush, Cat.events, (tableFlush_spec catCmp hinv.store tblActions).2.2.1 _ (by decide)] at he
          exact h1 e he hres
        | otherInsert t k =>
          rcases insert_cases hinv.store (t + 2) k with ⟨x, _, _, hh⟩ | ⟨e', _, _, _, _, _, _, hh⟩
          · rw [Cat.events, catStep, hh] at he; exact h1 e he hres
          · rw [Cat.events, catStep, hh _ (by simp [tblEvents])] at he; exact h1 e he hres
        | otherDelete t k =>
          rcases delete_cases hinv.store (t + 2) k with ⟨hh, _⟩ | ⟨e', hh, _, _, _, hm, _⟩
          · rw [Cat.events, catStep, hh] at he; exact h1 e he hres
          · rw [Cat.events, catStep, hh] at he; exact h1 e ((hm _ _).1 he).1 hres
      · intro e he hres
        cases o with
        | eventInsert a cc =>
          rcases eventInsert_cases p hinv a cc with ⟨x, _, hh, _⟩ | ⟨e', i, g1, g2, _, _, _, _, _, _, _, _, _, hh⟩
          · rw [Cat.actions, catStep, hh] at he; exact h2 e he hres
          · rw [Cat.actions, catStep, hh _ (by decide)] at he; exact h2 e he hres
        | eventDelete a =>
          rcases eventDelete_cases hinv a with ⟨x, hh⟩ | ⟨e', hh, _, _, _, hm, _⟩
          · rw [catStep, hh] at he; exact h2 e he hres
          · rw [catStep, hh] at he; exact h2 e ((hm _ _).1 he).1 hres
        | eventFlush =>
          rw [catStep, eventFlush, Cat.actions, (tableFlush_spec catCmp hinv.store tblEvents).2.2.1 _ (by decide)] at he
          exact h2 e he hres
        | eventUpdateConfig a cc =>
          rcases eventUpdate_cases p g hinv a cc with ⟨x, hh⟩ | ⟨e', i, hh, _⟩
          · rw [catStep, hh] at he; exact h2 e he hres
          · rw [catStep, hh] at he; exact h2 e he hres
        | defaultUpdate cc =>
          rcases defaultUpdate_cases p s cc with ⟨x, hh⟩ | ⟨c', _, _, hh⟩
          · rw [catStep, hh] at he; exact h2 e he hres
          · rw [catStep, hh] at he; exact h2 e he hres
        | actionInsert a =>
          rcases actionInsert_cases hinv a with ⟨x, _, hh, _⟩ | ⟨e', g1, g2, _, _, _, _, _, _, hm, _⟩
          · rw [Cat.actions, catStep, hh] at he; exact h2 e he hres
          · rcases (hm e).1 he with rfl | he
            · rw [g2] at hres
              rw [(C27_reserved_insert_refused p s a none hres).2] at g1
              cases g1
            · exact h2 e he hres
        | actionDelete a =>
          rcases actionDelete_cases hinv a with ⟨x, hh⟩ | ⟨e', hh, _, _, _, hm, _⟩
          · rw [catStep, hh] at he; exact h2 e he hres
          · rw [catStep, hh] at he; exact h2 e ((hm _ _).1 he).1 hres
        | actionFlush =>
          rw [catStep, actionFlush, Cat.actions, (tableFlush_spec catCmp hinv.store tblActions).2.1] at he
          cases he
        | otherInsert t k =>
          rcases insert_cases hinv.store (t + 2) k with ⟨x, _, _, hh⟩ | ⟨e', _, _, _, _, _, _, hh⟩
          · rw [Cat.actions, catStep, hh] at he; exact h2 e he hres
          · rw [Cat.actions, catStep, hh _ (by simp [tblActions])] at he; exact h2 e he hres
        | otherDelete t k =>
          rcases delete_cases hinv.store (t + 2) k with ⟨hh, _⟩ | ⟨e', hh, _, _, _, hm, _⟩
          · rw [Cat.actions, catStep, hh] at he; exact h2 e he hres
          · rw [Cat.actions, catStep, hh] at he; exact h2 e ((hm _ _).1 he).1 hres
  apply gen ops s0 hops hi.1
  · rw [hi.2]; intro e he; cases he
  · intro e he _; exact he

/-- C27 (refutation of the deletion side): a user can delete a built-in action — `action_delete`
does not look at the reserved prefix, and neither does `action_flush_all`. -/
theorem C27_builtin_action_deletable :
    HasAction initState trackPeer ∧ Reserved trackPeer ∧
    (actionDelete initState trackPeerArg).1 = .ok () ∧
    ¬ HasAction (actionDelete initState trackPeerArg).2 trackPeer ∧
    ¬ HasAction (actionFlush initState) trackPeer := by
  have hi := (catInit_inv initState_reachable).1
  have hm : (⟨1, 0, trackPeer⟩ : Ent (List Byte)) ∈ initState.actions := by
    simp [initState, Cat.actions, storeInsert_first]
  have hl : labelCheck trackPeerArg = .ok trackPeer := by decide
  refine ⟨⟨_, hm, rfl⟩, trackPeer_reserved, ?_⟩
  rcases actionDelete_cases hi trackPeerArg with ⟨x, hh⟩ | ⟨e, h1, h2, h3, h4, h5, h6⟩
  · unfold actionDelete at hh
    rw [hl] at hh
    simp only at hh
    rcases delete_cases hi.store tblActions trackPeer with ⟨_, h2⟩ | ⟨e, h1, _⟩
    · exact absurd rfl (h2 _ hm)
    · rw [h1] at hh; cases hh
  · refine ⟨by rw [h1], ?_, ?_⟩
    · rintro ⟨e', he', hk⟩
      rw [h1] at he'
      have := (h5 _ _).1 he'
      exact this.2 (key_unique hi.store this.1 h2 (by rw [hk, h3]; decide))
    · rintro ⟨e', he', _⟩
      rw [actionFlush, Cat.actions, (tableFlush_spec catCmp hi.store tblActions).2.1] at he'
      cases he'

/-! ## C43 -/

/-- The result of one call, as far as success goes. -/
def catSucceeded (p : Plat) (s : Cat) : CatOp → Bool
  | .eventInsert a c => (eventInsert p s a c).1.toOption.isSome
  | .eventDelete a => (eventDelete s a).1.toOption.isSome
  | .actionInsert a => (actionInsert s a).1.toOption.isSome
  | .actionDelete a => (actionDelete s a).1.toOption.isSome
  | _ => true

theorem hasEvent_congr {s s' : Cat} (h : s'.store.tables tblEvents = s.store.tables tblEvents) (k : List Byte) :
    HasEvent s' k ↔ HasEvent s k := by
  unfold HasEvent Cat.events; rw [h]

theorem hasAction_congr {s s' : Cat} (h : s'.store.tables tblActions = s.store.tables tblActions) (k : List Byte) :
    HasAction s' k ↔ HasAction s k := by
  unfold HasAction Cat.actions; rw [h]

/-- C43: after any history, each call changes the set of event labels exactly as specified: a
successful insertion adds its label, a successful deletion removes it, a flush empties the set, and
no other call — failed calls included — changes it. -/
theorem C43_event_labels_step (p : Plat) (g : CfgInt) (c : Option Cfg) (bs : List LabelArg) (s0 : Cat)
    (h0 : catInit p c bs = .ok s0) (ops : List CatOp) (hops : ∀ o ∈ ops, o.Ok) (op : CatOp) (k : List Byte) :
    HasEvent (catRun p g s0 (ops ++ [op])) k ↔
      eventsAfter (HasEvent (catRun p g s0 ops)) op (catSucceeded p (catRun p g s0 ops) op) k := by
  have hinv := catRun_inv p g (catInit_inv h0).1 ops hops
  have hrun : catRun p g s0 (ops ++ [op]) = catStep p g (catRun p g s0 ops) op := by simp [catRun]
  rw [hrun]
  generalize catRun p g s0 ops = s at hinv
  cases op with
  | eventInsert a cc =>
    rcases eventInsert_cases p hinv a cc with ⟨x, h1, hh, _⟩ | ⟨e', i, g1, g2, _, _, _, _, _, _, _, _, hm, _⟩
    · rw [hasEvent_congr (s := s) (by rw [catStep, hh])]
      simp [eventsAfter, catSucceeded, h1, Except.toOption]
    · simp only [eventsAfter, catSucceeded, g1, Except.toOption, Option.isSome_some, true_and, HasEvent, catStep]
      constructor
      · rintro ⟨e, he, rfl⟩
        rcases (hm e).1 he with rfl | he
        · exact Or.inr g2
        · exact Or.inl ⟨e, he, rfl⟩
      · rintro (⟨e, he, rfl⟩ | rfl)
        · exact ⟨e, (hm e).2 (Or.inr he), rfl⟩
        · exact ⟨e', (hm e').2 (Or.inl rfl), g2⟩
  | eventDelete a =>
    rcases eventDelete_cases hinv a with ⟨x, hh⟩ | ⟨e', hh, h2, h3, _, hm, _⟩
    · simp [eventsAfter, catSucceeded, hh, Except.toOption, catStep]
    · simp only [eventsAfter, catSucceeded, hh, Except.toOption, Option.isSome_some, true_and, HasEvent, catStep]
      constructor
      · rintro ⟨e, he, rfl⟩
        have := (hm _ _).1 he
        refine ⟨⟨e, this.1, rfl⟩, ?_⟩
        intro hk
        exact this.2 (key_unique hinv.store this.1 h2 (by rw [hk, h3]))
      · rintro ⟨⟨e, he, rfl⟩, hk⟩
        refine ⟨e, (hm _ _).2 ⟨he, ?_⟩, rfl⟩
        rintro rfl
        exact hk h3
  | eventFlush =>
    simp only [eventsAfter, iff_false]
    rintro ⟨e, he, _⟩
    rw [catStep, eventFlush, Cat.events, (tableFlush_spec catCmp hinv.store tblEvents).2.1] at he
    cases he
  | eventUpdateConfig a cc =>
    rcases eventUpdate_cases p g hinv a cc with ⟨x, hh⟩ | ⟨e', i, hh, _⟩
    · rw [catStep, hh]; exact Iff.rfl
    · rw [catStep, hh]; exact Iff.rfl
  | defaultUpdate cc =>
    rcases defaultUpdate_cases p s cc with ⟨x, hh⟩ | ⟨c', _, _, hh⟩
    · rw [catStep, hh]; exact Iff.rfl
    · rw [catStep, hh]; exact Iff.rfl
  | actionInsert a =>
    rcases actionInsert_cases hinv a with ⟨x, _, hh, _⟩ | ⟨e', _, _, _, _, _, _, _, _, _, hh⟩
    · exact hasEvent_congr (by rw [catStep, hh]) k
    · exact hasEvent_congr (by rw [catStep, hh _ (by decide)]) k
  | actionDelete a =>
    rcases actionDelete_cases hinv a with ⟨x, hh⟩ | ⟨e', hh, _, _, _, _, hm⟩
    · rw [catStep, hh]; exact Iff.rfl
    · rw [catStep, hh]; exact hasEvent_congr (s := s) (hm tblEvents (by decide)) k
  | actionFlush =>
    exact hasEvent_congr (by rw [catStep, actionFlush, (tableFlush_spec catCmp hinv.store tblActions).2.2.1 _ (by decide)]) k
  | otherInsert t k' =>
    rcases insert_cases hinv.store (t + 2) k' with ⟨x, _, _, hh⟩ | ⟨e', _, _, _, _, _, _, hh⟩
    · exact hasEvent_congr (by rw [catStep, hh]) k
    · exact hasEvent_congr (by rw [catStep, hh _ (by simp [tblEvents])]) k
  | otherDelete t k' =>
    rcases delete_cases hinv.store (t + 2) k' with ⟨hh, _⟩ | ⟨e', hh, _, _, _, _, hm⟩
    · rw [catStep, hh]; exact Iff.rfl
    · rw [catStep, hh]; exact hasEvent_congr (s := s) (hm tblEvents (by simp [tblEvents])) k

/-- C43: the same for actions. -/
theorem C43_action_labels_step (p : Plat) (g : CfgInt) (c : Option Cfg) (bs : List LabelArg) (s0 : Cat)
    (h0 : catInit p c bs = .ok s0) (ops : List CatOp) (hops : ∀ o ∈ ops, o.Ok) (op : CatOp) (k : List Byte) :
    HasAction (catRun p g s0 (ops ++ [op])) k ↔
      actionsAfter (HasAction (catRun p g s0 ops)) op (catSucceeded p (catRun p g s0 ops) op) k := by
  have hinv := catRun_inv p g (catInit_inv h0).1 ops hops
  have hrun : catRun p g s0 (ops ++ [op]) = catStep p g (catRun p g s0 ops) op := by simp [catRun]
  rw [hrun]
  generalize catRun p g s0 ops = s at hinv
  cases op with
  | eventInsert a cc =>
    rcases eventInsert_cases p hinv a cc with ⟨x, _, hh, _⟩ | ⟨e', i, g1, g2, _, _, _, _, _, _, _, _, _, hh⟩
    · exact hasAction_congr (by rw [catStep, hh]) k
    · exact hasAction_congr (by rw [catStep, hh _ (by decide)]) k
  | eventDelete a =>
    rcases eventDelete_cases hinv a with ⟨x, hh⟩ | ⟨e', hh, _, _, _, _, hm⟩
    · rw [catStep, hh]; exact Iff.rfl
    · rw [catStep, hh]; exact hasAction_congr (s := s) (hm tblActions (by decide)) k
  | eventFlush =>
    exact hasAction_congr (by rw [catStep, eventFlush, (tableFlush_spec catCmp hinv.store tblEvents).2.2.1 _ (by decide)]) k
  | eventUpdateConfig a cc =>
    rcases eventUpdate_cases p g hinv a cc with ⟨x, hh⟩ | ⟨e', i, hh, _⟩
    · rw [catStep, hh]; exact Iff.rfl
    · rw [catStep, hh]; exact Iff.rfl
  | defaultUpdate cc =>
    rcases defaultUpdate_cases p s cc with ⟨x, hh⟩ | ⟨c', _, _, hh⟩
    · rw [catStep, hh]; exact Iff.rfl
    · rw [catStep, hh]; exact Iff.rfl
  | actionInsert a =>
    rcases actionInsert_cases hinv a with ⟨x, h1, hh, _⟩ | ⟨e', g1, g2, _, _, _, _, _, _, hm, _⟩
    · rw [hasAction_congr (s := s) (by rw [catStep, hh])]
      simp [actionsAfter, catSucceeded, h1, Except.toOption]
    · simp only [actionsAfter, catSucceeded, g1, Except.toOption, Option.isSome_some, true_and, HasAction, catStep]
      constructor
      · rintro ⟨e, he, rfl⟩
        rcases (hm e).1 he with rfl | he
        · exact Or.inr g2
        · exact Or.inl ⟨e, he, rfl⟩
      · rintro (⟨e, he, rfl⟩ | rfl)
        · exact ⟨e, (hm e).2 (Or.inr he), rfl⟩
        · exact ⟨e', (hm e').2 (Or.inl rfl), g2⟩
  | actionDelete a =>
    rcases actionDelete_cases hinv a with ⟨x, hh⟩ | ⟨e', hh, h2, h3, _, hm, _⟩
    · simp [actionsAfter, catSucceeded, hh, Except.toOption, catStep]
    · simp only [actionsAfter, catSucceeded, hh, Except.toOption, Option.isSome_some, true_and, HasAction, catStep]
      constructor
      · rintro ⟨e, he, rfl⟩
        have := (hm _ _).1 he
        refine ⟨⟨e, this.1, rfl⟩, ?_⟩
        intro hk
        exact this.2 (key_unique hinv.store this.1 h2 (by rw [hk, h3]))
      · rintro ⟨⟨e, he, rfl⟩, hk⟩
        refine ⟨e, (hm _ _).2 ⟨he, ?_⟩, rfl⟩
        rintro rfl
        exact hk h3
  | actionFlush =>
    simp only [actionsAfter, iff_false]
    rintro ⟨e, he, _⟩
    rw [catStep, actionFlush, Cat.actions, (tableFlush_spec catCmp hinv.store tblActions).2.1] at he
    cases he
  | otherInsert t k' =>
    rcases insert_cases hinv.store (t + 2) k' with ⟨x, _, _, hh⟩ | ⟨e', _, _, _, _, _, _, hh⟩
    · exact hasAction_congr (by rw [catStep, hh]) k
    · exact hasAction_congr (by rw [catStep, hh _ (by simp [tblActions])]) k
  | otherDelete t k' =>
    rcases delete_cases hinv.store (t + 2) k' with ⟨hh, _⟩ | ⟨e', hh, _, _, _, _, hm⟩
    · rw [catStep, hh]; exact Iff.rfl
    · rw [catStep, hh]; exact hasAction_congr (s := s) (hm tblActions (by simp [tblActions])) k

/-- C43: after any history, an event is retrievable by a label exactly when an event with that label
exists (and the label argument is one the API accepts). -/
theorem C43_event_retrievable_iff (p : Plat) (g : CfgInt) (c : Option Cfg) (bs : List LabelArg) (s0 : Cat)
    (h0 : catInit p c bs = .ok s0) (ops : List CatOp) (hops : ∀ o ∈ ops, o.Ok) (a : LabelArg) :
    (∃ e, eventGet (catRun p g s0 ops) a = .ok e) ↔
      HasEvent (catRun p g s0 ops) a.text ∧ a.mem.isSome = true ∧ a.len ≠ 0 ∧ 0 < a.effLen ∧ a.effLen ≤ 32 := by
  have hinv := catRun_inv p g (catInit_inv h0).1 ops hops
  generalize catRun p g s0 ops = s at hinv
  constructor
  · rintro ⟨e, he⟩
    obtain ⟨h1, h2, h3⟩ := (eventGet_ok hinv a e).1 he
    obtain ⟨_, h4, h5, h6, m, hm⟩ := labelCheck_ok h1
    exact ⟨⟨e, h2, h3⟩, by rw [hm]; rfl, h6, by omega, h4⟩
  · rintro ⟨⟨e, h2, h3⟩, hm, hl, h4, h5⟩
    refine ⟨e, (eventGet_ok hinv a e).2 ⟨?_, h2, h3⟩⟩
    unfold labelCheck
    rw [if_neg (by cases ha : a.mem with
      | none => rw [ha] at hm; cases hm
      | some m => simp [hl]), if_neg (by simp [maxLabelBytes]; omega), if_neg (by simp; omega)]

/-- C43: labels over 32 bytes are refused by every entry point, with `STRING_ARG_TOO_LONG` (or
`NOT_PERMITTED` for reserved ones on insertion), and nothing changes. -/
theorem C43_long_label_refused (p : Plat) (g : CfgInt) (s : Cat) (a : LabelArg) (c : Option Cfg)
    (h : 32 < a.effLen) (hres : prefixCompare a.text = false) :
    eventInsert p s a c = (.error .stringArgTooLong, s) ∧
    actionInsert s a = (.error .stringArgTooLong, s) ∧
    eventDelete s a = (.error .stringArgTooLong, s) ∧
    actionDelete s a = (.error .stringArgTooLong, s) ∧
    eventGet s a = .error .stringArgTooLong ∧ actionGet s a = .error .stringArgTooLong ∧
    eventUpdateConfig p g s a c = (.error .stringArgTooLong, s) ∧
    eventGetConfig s a = .error .stringArgTooLong := by
  obtain ⟨m, hm⟩ : ∃ m, a.mem = some m := by
    cases hm : a.mem with
    | none => unfold LabelArg.effLen at h; rw [hm] at h; simp at h
    | some m => exact ⟨m, rfl⟩
  have hl : a.len ≠ 0 := by
    intro hl; unfold LabelArg.effLen at h; rw [hm] at h; simp [hl] at h
  have hc : labelCheck a = .error .stringArgTooLong := by
    unfold labelCheck
    rw [if_neg (by simp [hm, hl]), if_pos (by simpa [maxLabelBytes] using h)]
  have hb : labelIsBuiltin a = .ok false := by
    unfold labelIsBuiltin; rw [if_neg (by simp [hm, hl]), hres]
  have hg : eventGet s a = .error .stringArgTooLong := by unfold eventGet; rw [hc]
  refine ⟨?_, ?_, ?_, ?_, hg, ?_, ?_, ?_⟩
  · simp only [eventInsert, hb, eventInsert1, hc]
  · simp only [actionInsert, hb, actionInsert1, hc]
  · unfold eventDelete; rw [hg]
  · unfold actionDelete; rw [hc]
  · unfold actionGet; rw [hc]
  · unfold eventUpdateConfig; rw [hg]
  · unfold eventGetConfig; rw [hg]

example : 32 < (LabelArg.mk (some (List.replicate 40 0x61#8)) 33).effLen := by decide

/-- C43: no stored event or action ever has a label of more than 32 bytes, or an empty one. -/
theorem C43_stored_label_length (p : Plat) (g : CfgInt) (c : Option Cfg) (bs : List LabelArg) (s0 : Cat)
    (h0 : catInit p c bs = .ok s0) (ops : List CatOp) (hops : ∀ o ∈ ops, o.Ok) :
    ∀ e ∈ (catRun p g s0 ops).events, 0 < e.key.length ∧ e.key.length ≤ 32 := by
  have hinit := (catInit_inv h0)
  have key : ∀ (n : Nat) (ops : List CatOp), ops.length = n → (∀ o ∈ ops, o.Ok) →
      ∀ k, HasEvent (catRun p g s0 ops) k → k.length ≤ 32 := by
    intro n
    induction n with
    | zero =>
      intro ops hn _ k ⟨e, he, _⟩
      rw [List.length_eq_zero_iff.1 hn] at he
      rw [show catRun p g s0 [] = s0 from rfl, hinit.2] at he; cases he
    | succ n ih' =>
      intro ops hn hops k hk
      obtain ⟨os, o, rfl⟩ : ∃ os o, ops = os ++ [o] := by
        have hne : ops ≠ [] := by intro hc; rw [hc] at hn; cases hn
        exact ⟨ops.dropLast, ops.getLast hne, (List.dropLast_concat_getLast hne).symm⟩
      have ih := ih' os (by simpa using hn)
      have hos : ∀ o ∈ os, o.Ok := fun o' h => hops o' (List.mem_append_left _ h)
      have := (C43_event_labels_step p g c bs s0 h0 os hos o k).1 hk
      have hinv := catRun_inv p g hinit.1 os hos
      cases o with
      | eventInsert a cc =>
        rcases this with h | ⟨h1, rfl⟩
        · exact ih hos k h
        · rcases eventInsert_cases p hinv a cc with ⟨x, h2, _⟩ | ⟨e', i, _, _, hl, _⟩
          · simp [catSucceeded, h2, Except.toOption] at h1
          · obtain ⟨_, h2, _, _, m, hm⟩ := labelCheck_ok hl
            unfold LabelArg.effLen at h2
            unfold LabelArg.text
            rw [hm] at h2 ⊢
            simp only at h2 ⊢
            split
            · rename_i hneg; rw [if_pos hneg] at h2; exact h2
            · rename_i hneg; rw [if_neg hneg] at h2; rw [List.length_take]; omega
      | eventDelete a => exact ih hos k this.1
      | eventFlush => exact absurd this id
      | eventUpdateConfig a cc => exact ih hos k this
      | defaultUpdate cc => exact ih hos k this
      | actionInsert a => exact ih hos k this
      | actionDelete a => exact ih hos k this
      | actionFlush => exact ih hos k this
      | otherInsert t k' => exact ih hos k this
      | otherDelete t k' => exact ih hos k this
  intro e he
  have hne := (catRun_inv p g hinit.1 ops hops).evsNonempty e he
  exact ⟨List.length_pos_iff.2 hne, key _ ops rfl hops e.key ⟨e, he, rfl⟩⟩

/-! ## C41 -/

/-- C41: `eventconfig_check` accepts only consistent configurations. -/
theorem C41_accepted_consistent (p : Plat) (c : Cfg) (h : cfgCheck p c = .ok ()) : ConfigConsistent c :=
  cfgCheck_ok h

/-- C41: and it refuses every inconsistent one with `INVALID_ARG`. -/
theorem C41_inconsistent_refused (p : Plat) (c : Cfg) (h : ¬ ConfigConsistent c) :
    cfgCheck p c = .error .invalidArg := by
  cases hc : cfgCheck p c with
  | ok u => exact absurd (cfgCheck_ok hc) h
  | error x =>
    unfold cfgCheck at hc
    split at hc; · exact hc.symm
    rename_i h1
    split at hc; · exact hc.symm
    rename_i h2
    split at hc; · exact hc.symm
    rename_i h3
    split at hc; · exact hc.symm
    rename_i h4
    exact absurd ⟨fun i _ => and_zero_bits _ _ h1 i, fun i _ => and_zero_bits _ _ h2 i,
      fun i _ => and_zero_bits _ _ h3 i, by omega⟩ h

/-- A non-trivial accepted configuration on a platform where padding is needed. -/
def demoCfg : Cfg :=
  { privSize := 64, privAlign := 16, maxConn := 3, derogThreshold := 7, boxDuration := 1000000,
    flagsAdd := RF.GREENLISTED, flagsClear := RF.PENALTYBOXED, resAdd := AR.STOP }
theorem demoCfg_accepted : cfgCheck demoPlat demoCfg = .ok () := by decide
example : ¬ ConfigConsistent { flagsAdd := RF.GREENLISTED, flagsClear := RF.GREENLISTED } := by
  intro h; exact h.rule_flags 21 (by decide) (by decide)

/-- C41: after any history of calls, the default configuration and the configuration of every event
are consistent. -/
theorem C41_stored_consistent (p : Plat) (g : CfgInt) (c : Option Cfg) (bs : List LabelArg) (s0 : Cat)
    (h0 : catInit p c bs = .ok s0) (ops : List CatOp) (hops : ∀ o ∈ ops, o.Ok) :
    ConfigConsistent (defaultGet (catRun p g s0 ops)) ∧
    (∀ a r, eventGetConfig (catRun p g s0 ops) a = .ok r → ConfigConsistent r) := by
  have hinv := catRun_inv p g (catInit_inv h0).1 ops hops
  generalize catRun p g s0 ops = s at hinv
  have hget : ∀ i : CfgInt, CfgIntOk i → ConfigConsistent (cfgGet i) := fun i hi => ⟨hi.1, hi.2, hi.3, hi.4⟩
  refine ⟨hget _ hinv.dflt, ?_⟩
  intro a r hr
  unfold eventGetConfig at hr
  cases hg : eventGet s a with
  | error x => rw [hg] at hr; cases hr
  | ok e =>
    rw [hg] at hr
    simp only at hr
    have hm := ((eventGet_ok hinv a e).1 hg).2.1
    cases hc : s.evCfg e.id with
    | none => rw [hc] at hr; cases hr; exact hget _ hinv.dflt
    | some i => rw [hc] at hr; cases hr; exact hget _ (hinv.evs e hm i hc)

theorem slop_lt (p : Plat) (c : Cfg) (h : 0 < c.privAlign) : p.slop c < c.privAlign := Nat.mod_lt _ h

/-- What is loaded is what is read back. -/
theorem cfgGet_pad (p : Plat) (c : Cfg) (h : c.privSize < 18446744073709551616) (h2 : c.privAlign < 18446744073709551616) :
    cfgGet (cfgPad p c) = c := by
  unfold cfgPad
  split
  · rename_i hc
    simp only [Bool.and_eq_true, decide_eq_true_eq] at hc
    have hlt := slop_lt p c hc.1
    simp only [cfgGet]
    have : ((c.privSize + (c.privAlign - p.slop c)) % sizeModulus + (sizeModulus - (c.privAlign - p.slop c))) % sizeModulus = c.privSize := by
      rw [Nat.mod_add_mod]
      have : c.privSize + (c.privAlign - p.slop c) + (sizeModulus - (c.privAlign - p.slop c)) = c.privSize + sizeModulus := by
        unfold sizeModulus; omega
      rw [this, Nat.add_mod_right, Nat.mod_eq_of_lt (by unfold sizeModulus; exact h)]
    rw [this]
  · simp only [cfgGet, Nat.sub_zero, Nat.add_mod_right]
    rw [Nat.mod_eq_of_lt (by unfold sizeModulus; exact h)]

/-- C41: reading an event's configuration back right after setting it — by creation or by update —
returns exactly what was set, private-data size and alignment included, whatever padding was added
internally. -/
theorem C41_event_config_read_back (p : Plat) (g : CfgInt) (c0 : Option Cfg) (bs : List LabelArg) (s0 : Cat)
    (h0 : catInit p c0 bs = .ok s0) (ops : List CatOp) (hops : ∀ o ∈ ops, o.Ok) (a : LabelArg) (c : Cfg)
    (hs : c.privSize < 18446744073709551616) (ha : c.privAlign < 18446744073709551616) :
    ((eventUpdateConfig p g (catRun p g s0 ops) a (some c)).1 = .ok () →
      eventGetConfig (eventUpdateConfig p g (catRun p g s0 ops) a (some c)).2 a = .ok c) ∧
    (a.Readable → (∃ id, (eventInsert p (catRun p g s0 ops) a (some c)).1 = .ok id) →
      eventGetConfig (eventInsert p (catRun p g s0 ops) a (some c)).2 a = .ok c) := by
  have hinv := catRun_inv p g (catInit_inv h0).1 ops hops
  generalize catRun p g s0 ops = s at hinv
  constructor
  · intro h
    rcases eventUpdate_cases p g hinv a (some c) with ⟨x, h1⟩ | ⟨e, i, h1, h2, h3, h3', h4⟩
    · rw [h1] at h; cases h
    · rw [h1]
      obtain ⟨rfl, _⟩ := cfgLoad_ok h4
      have hg : eventGet (s.setCfg e.id (some (cfgPad p c))) a = .ok e := h3'
      have hc : (s.setCfg e.id (some (cfgPad p c))).evCfg e.id = some (cfgPad p c) := by simp [Cat.setCfg]
      simp only [eventGetConfig, hg, hc, cfgGet_pad p c hs ha]
  · rintro hr ⟨id, h⟩
    have hinv' := catStep_inv p g hinv (.eventInsert a (some c)) hr
    rcases eventInsert_cases p hinv a (some c) with ⟨x, h1, _⟩ | ⟨e, i, h1, h2, h3, h4, h5, h6, h7, h8, h9, h10, h11, h12⟩
    · rw [h1] at h; cases h
    · have hg : eventGet (eventInsert p s a (some c)).2 a = .ok e :=
        (eventGet_ok hinv' a e).2 ⟨h3, (h11 e).2 (Or.inl rfl), h2⟩
      simp only [eventGetConfig, hg, h7, if_true]
      rcases newEventCfg_ok h5 with ⟨hc, _⟩ | ⟨c', hc, hi, _⟩
      · cases hc
      · cases hc; subst hi; simp only [cfgGet_pad p c hs ha]

/-- C41: an update changes the configuration of no other event; and a failed update changes nothing
at all. -/
theorem C41_update_frame (p : Plat) (g : CfgInt) (c0 : Option Cfg) (bs : List LabelArg) (s0 : Cat)
    (h0 : catInit p c0 bs = .ok s0) (ops : List CatOp) (hops : ∀ o ∈ ops, o.Ok) (a b : LabelArg) (c : Option Cfg) :
    (b.text ≠ a.text →
      eventGetConfig (eventUpdateConfig p g (catRun p g s0 ops) a c).2 b = eventGetConfig (catRun p g s0 ops) b) ∧
    (∀ x, (eventUpdateConfig p g (catRun p g s0 ops) a c).1 = .error x →
      (eventUpdateConfig p g (catRun p g s0 ops) a c).2 = catRun p g s0 ops) := by
  have hinv := catRun_inv p g (catInit_inv h0).1 ops hops
  generalize catRun p g s0 ops = s at hinv
  rcases eventUpdate_cases p g hinv a c with ⟨x, h1⟩ | ⟨e, i, h1, h2, h3, h3', h4⟩
  · rw [h1]; exact ⟨fun _ => rfl, fun _ _ => rfl⟩
  · rw [h1]
    refine ⟨fun hne => ?_, fun x hx => by cases hx⟩
    have hg : eventGet (s.setCfg e.id (some i)) b = eventGet s b := rfl
    unfold eventGetConfig
    rw [hg]
    cases hb : eventGet s b with
    | error x => rfl
    | ok e' =>
      simp only
      have hb' := (eventGet_ok hinv b e').1 hb
      have hid : e'.id ≠ e.id := by
        intro hid
        have : e' = e := hinv.store.id_inj catCmp ((hinv.store.mem _ _).1 hb'.2.1).1 ((hinv.store.mem _ _).1 h2).1 hid
        subst this
        exact hne (by rw [← hb'.2.2, h3])
      have : (s.setCfg e.id (some i)).evCfg e'.id = s.evCfg e'.id := by simp [Cat.setCfg, hid]
      rw [this]
      rfl

/-- C41: a default-configuration update is read back exactly, except that the private-data size and
alignment are not updatable and stay as they were; and an event without a configuration of its own
reports the default one. -/
theorem C41_default_read_back (p : Plat) (s : Cat) (c : Cfg) (h : (defaultUpdate p s (some c)).1 = .ok ()) :
    SamePolicy (defaultGet (defaultUpdate p s (some c)).2) c ∧
    (defaultGet (defaultUpdate p s (some c)).2).privSize = (defaultGet s).privSize ∧
    (defaultGet (defaultUpdate p s (some c)).2).privAlign = (defaultGet s).privAlign := by
  rcases defaultUpdate_cases p s (some c) with ⟨x, h1⟩ | ⟨c', hc, h2, h1⟩
  · rw [h1] at h; cases h
  · cases hc
    rw [h1]
    simp [defaultGet, cfgGet, cfgCopy, SamePolicy]

theorem C41_default_update_failed (p : Plat) (s : Cat) (c : Option Cfg) (x : Err)
    (h : (defaultUpdate p s c).1 = .error x) : (defaultUpdate p s c).2 = s := by
  rcases defaultUpdate_cases p s c with ⟨x, h1⟩ | ⟨c', hc, h2, h1⟩
  · rw [h1]
  · rw [h1] at h; cases h

theorem C41_default_inherited (s : Cat) (a : LabelArg) (e : Ent (List Byte)) (h : eventGet s a = .ok e)
    (hn : s.evCfg e.id = none) : eventGetConfig s a = .ok (defaultGet s) := by
  unfold eventGetConfig; rw [h]; simp only [hn, defaultGet]

/-- C41: the padding the library adds aligns the private data: with an accepted alignment the padded
offset is a multiple of it. -/
theorem C41_padding_aligns (p : Plat) (c : Cfg) (h : 0 < c.privAlign) :
    (p.dataOffset + (cfgPad p c).padding) % c.privAlign = 0 := by
  unfold cfgPad
  split
  · simp only
    have hlt := slop_lt p c h
    have hd := Nat.div_add_mod p.dataOffset c.privAlign
    have hs : p.slop c = p.dataOffset % c.privAlign := rfl
    have : p.dataOffset + (c.privAlign - p.slop c) = c.privAlign * (p.dataOffset / c.privAlign + 1) := by
      rw [Nat.mul_add, Nat.mul_one]
      omega
    rw [this]
    exact Nat.mul_mod_right _ _
  · rename_i hc
    simp only [Bool.and_eq_true, decide_eq_true_eq, not_and, Nat.not_lt, Nat.le_zero_eq] at hc
    exact hc h

/-- C41 (finding): the size check is done in wrapping arithmetic, so an absurd size is accepted and
stored as a small one. -/
theorem C41_size_check_wraps :
    cfgCheck demoPlat { privSize := 18446744073709551612, privAlign := 16 } = .ok () ∧
    (cfgPad demoPlat { privSize := 18446744073709551612, privAlign := 16 }).config.privSize = 4 := by decide

/-- C41 (finding): `eventconfig_init` copies the internal default configuration including the padding
already added, so initialising a configuration from the context and loading it again pads twice;
`defaultconfig_get` does not have this defect. -/
theorem C41_init_pads_twice :
    cfgInit (cfgPad demoPlat demoCfg) ≠ demoCfg ∧ cfgGet (cfgPad demoPlat demoCfg) = demoCfg := by decide

/-- C41 (finding): updating the configuration of an event that has none with a NULL configuration
reports success and leaves the event with whatever the fresh allocation contained — here a
configuration that adds and clears the same flag.  This is why `CatOp.Ok` excludes NULL updates. -/
theorem C41_null_update_uninitialised (p : Plat) (g : CfgInt) (s : Cat) (a : LabelArg) (e : Ent (List Byte))
    (h : eventGet s a = .ok e) (hn : s.evCfg e.id = none) :
    (eventUpdateConfig p g s a none).1 = .ok () ∧
    eventGetConfig (eventUpdateConfig p g s a none).2 a = .ok (cfgGet g) := by
  have : eventUpdateConfig p g s a none = (.ok (), s.setCfg e.id (some g)) := by
    simp only [eventUpdateConfig, h, hn, cfgLoad, updateBase, Option.getD]
  rw [this]
  refine ⟨rfl, ?_⟩
  have hg : eventGet (s.setCfg e.id (some g)) a = .ok e := h
  have hc : (s.setCfg e.id (some g)).evCfg e.id = some g := by simp [Cat.setCfg]
  simp only [eventGetConfig, hg, hc]

/-- The hypotheses are met: insertion of event "in" with `demoCfg` into the empty catalogue
succeeds. -/
theorem C41_demo_insert : (eventInsert demoPlat {} inArg (some demoCfg)).1 = .ok 1 := by
  have hb : labelIsBuiltin inArg = .ok false := by decide
  have hl : labelCheck inArg = .ok [0x69#8, 0x6e#8] := by decide
  have hn : newEventCfg demoPlat (some demoCfg) = .ok (some (cfgPad demoPlat demoCfg)) := by decide
  simp only [eventInsert, hb, eventInsert1, hl, hn, eventInsertTail]
  rw [storeInsert_first]

end WS.Props
