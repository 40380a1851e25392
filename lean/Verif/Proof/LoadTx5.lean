import Verif.Proof.LoadTx4
/-
Load transaction proofs, part 5: handlers run by a flush and by the commit.
-/
namespace WS.LT
open WS WS.Conf WS.Sax WS.Time WS.ConfNum WS.Spec.LT

/-! ### Loading -/

theorem inhibit_bit (c : Cx) : IBit (inhibit c).global.flags := by
  show (c.config.config.cfgFlags ||| EF.INHIBIT_ACTIONS).getLsbD 2 = true
  rw [BitVec.getLsbD_or]
  simp [EF.INHIBIT_ACTIONS, bit]

/-- Everything a load on a draft preserves. -/
theorem draft_keeps (H : Host) (tail : Tail) (f : LoadFlags) (json : Option Config) (old : List Byte → Prop) (w : World) (cs : List (List Byte))
    (he : Evs (REv old) (Draft f w).cx) :
    IW old (Draft f w) (loaded H tail f json (Draft f w).cx.config (Draft f w) cs).user.1 := by
  have hi := inhibit_bit (clone f.how w.cx)
  unfold loaded load
  refine (parse_user (P := KeepsI (IW old (Draft f w))) _ _ (fun u e v q h => loader_inh H.env (fun a c hc h => libCall_inh H c hc h) tail u e v q h) _ cs ?_).1
  refine KeepsI.ok ⟨rfl, hi, rfl, rfl, rfl, rfl, he⟩ ⟨?_, ?_, ?_⟩
  · exact hi
  · intro h; cases h
  · intro h; cases h

theorem draft_inh (H : Host) (tail : Tail) (f : LoadFlags) (json : Option Config) (w : World) (cs : List (List Byte)) :
    IW (fun _ => True) (Draft f w) (loaded H tail f json (Draft f w).cx.config (Draft f w) cs).user.1 :=
  draft_keeps H tail f json _ w cs ⟨fun _ _ => .inl trivial, fun _ _ _ _ => .inl trivial, fun _ _ => .inl trivial⟩

/-! ### Flushes -/

theorem flush_eq_flushTable (g : EventConfig) (A : RuleActs) (T : RouteTable) (a : Flags) :
    ((flush g A T a).1, (flush g A T a).2.1) = flushTable g A T a := by
  have key : ∀ (l : List Route) (T : RouteTable) (a : Flags) (rs : List Ran),
      let x := l.foldl (fun (x : RouteTable × Flags × List Ran) r =>
        let ares := x.2.1 &&& ~~~AR.STOP
        let d := delete0 g A x.1 r ares false
        (d.1, d.2.1, x.2.2 ++ deleteRuns g A r ares)) (T, a, rs)
      (x.1, x.2.1) = l.foldl (fun (x : RouteTable × Flags) r =>
        let d := delete0 g A x.1 r (x.2 &&& ~~~AR.STOP) false
        (d.1, d.2.1)) (T, a) := by
    intro l
    induction l with
    | nil => intro T a rs; rfl
    | cons r l ih => intro T a rs; exact ih _ _ _
  exact key T.ents T a []

theorem runs_called (A : RuleActs) (t : ActionType) (l : List Nat) : ∀ (r : Route) (a : Flags),
    ((runActions A.env t l r a).called = [] ↔ l.any (fun i => !A.disabled i) = false) ∧
    ∃ rest, l.filter (fun i => !A.disabled i) = (runActions A.env t l r a).called ++ rest := by
  induction l with
  | nil => intro r a; exact ⟨by simp [runActions], [], rfl⟩
  | cons i l ih =>
    intro r a
    unfold runActions
    by_cases hd : A.disabled i = true
    · have hd' : A.env.disabled r i = true := hd
      rw [if_pos hd']
      have := ih r a
      simp only [List.any_cons, hd, Bool.not_true, Bool.false_or]
      refine ⟨this.1, ?_⟩
      obtain ⟨rest, h⟩ := this.2
      exact ⟨rest, by rw [List.filter_cons_of_neg (by simp [hd])]; exact h⟩
    · have hd' : ¬ A.env.disabled r i = true := hd
      have hd2 : A.disabled i = false := by simpa using hd
      rw [if_neg hd']
      simp only [List.any_cons, hd2, Bool.not_false, Bool.true_or]
      have hfil : (i :: l).filter (fun i => !A.disabled i) = i :: l.filter (fun i => !A.disabled i) :=
        List.filter_cons_of_pos (by simp [hd2])
      split
      · exact ⟨by simp, _, hfil⟩
      · split
        · exact ⟨by simp, _, hfil⟩
        · refine ⟨by simp, ?_⟩
          obtain ⟨rest, h⟩ := (ih (A.env.handler t i (A.env.enter r i) a).1 (A.env.handler t i (A.env.enter r i) a).2.1).2
          exact ⟨rest, by rw [hfil, h]; rfl⟩

theorem muted_inhibited (g : EventConfig) (r : Route) (e : Event) (he : r.event = some e) : inhibited g e = (inhibits g || Muted r) := by
  have hb : ∀ f : Flags, f.hasAll EF.INHIBIT_ACTIONS = f.getLsbD 2 := by
    intro f
    have := has_inhibit f
    unfold IBit at this
    cases h1 : f.hasAll EF.INHIBIT_ACTIONS <;> cases h2 : f.getLsbD 2 <;> simp_all
  unfold inhibited Muted inhibits
  rw [he]
  simp only [hb]
  cases e.config <;> rfl

theorem all_bit (f : Flags) (k : Nat) (hk : k < 32) : f.hasAll (bit k) = f.getLsbD k := by
  unfold Flags.hasAll
  rw [Bool.eq_iff_iff, beq_iff_eq]
  constructor
  · intro h
    have := congrArg (fun x => x.getLsbD k) h
    simpa [bit, hk] using this
  · intro h
    apply BitVec.eq_of_getLsbD_eq
    intro i hi
    rw [BitVec.getLsbD_and]
    by_cases e : i = k
    · subst e; simp [h]
    · have : (bit k).getLsbD i = false := by simp [bit]; omega
      rw [this]; simp

/-- The flag that says the handlers of this type have been called. -/
def calledBit : ActionType → Nat
  | .insert => 16
  | _ => 17

theorem dispatch_runs (A : RuleActs) (g : EventConfig) (e : Event) (t : ActionType) (ht : t = .insert ∨ t = .delete) (r : Route) (a : Flags)
    (ha : a.has AR.STOP = false) :
    ((r.flags.getLsbD (calledBit t) || inhibited g e) = true → (listDispatch A.env g e t r a).called = []) ∧
    ((r.flags.getLsbD (calledBit t) || inhibited g e) = false → ∃ r2, (listDispatch A.env g e t r a).called = (runActions A.env t (e.actions t) r2 a).called) := by
  have h16 : r.flags.hasAll RF.INSERT_ACTIONS_CALLED = r.flags.getLsbD 16 := all_bit r.flags 16 (by decide)
  have h17 : r.flags.hasAll RF.DELETE_ACTIONS_CALLED = r.flags.getLsbD 17 := all_bit r.flags 17 (by decide)
  have hr : A.env.rule r = r := rfl
  unfold listDispatch
  rw [ha]
  simp only [Bool.false_eq_true, if_false]
  rcases ht with rfl | rfl
  · simp only [hr, h16, calledBit]
    cases r.flags.getLsbD 16 <;> cases inhibited g e <;> simp
    exact ⟨_, rfl⟩
  · simp only [hr, h17, calledBit]
    cases r.flags.getLsbD 17 <;> cases inhibited g e <;> simp
    exact ⟨_, rfl⟩

/-- Rules whose handlers of this type are to be run. -/
def dueOf (A : RuleActs) (g : EventConfig) (t : ActionType) (r : Route) : Bool :=
  HasAction A t r && !inhibits g && !Muted r && !r.flags.getLsbD (calledBit t)

theorem note_due (A : RuleActs) (g : EventConfig) (t : ActionType) (ht : t = .insert ∨ t = .delete) (r r' : Route) (a : Flags) (ha : a.has AR.STOP = false)
    (called : List Nat) (hf : r'.flags.getLsbD (calledBit t) = r.flags.getLsbD (calledBit t))
    (hc : called = match r.event with
      | some e => if (e.actions t).length > 0 then (listDispatch A.env g e t r' a).called else []
      | none => []) :
    (dueOf A g t r = false → called = []) ∧ (dueOf A g t r = true → called ≠ [] ∧ note t r.id called = [⟨t, r.id, called⟩] ∧ RunOf A t r ⟨t, r.id, called⟩) := by
  unfold dueOf HasAction
  cases hev : r.event with
  | none => rw [hev] at hc; exact ⟨fun _ => hc, fun h => by simp at h⟩
  | some e =>
    rw [hev] at hc
    simp only at hc ⊢
    by_cases hlen : (e.actions t).length > 0
    · rw [if_pos hlen] at hc
      have hd := dispatch_runs A g e t ht r' a ha
      rw [hf, muted_inhibited g r e hev] at hd
      cases hx : (r.flags.getLsbD (calledBit t) || (inhibits g || Muted r))
      · obtain ⟨r2, h2⟩ := hd.2 hx
        rw [h2] at hc
        simp only [Bool.or_eq_false_iff] at hx
        simp only [hx.1, hx.2.1, hx.2.2, Bool.not_false, Bool.and_true]
        have hr := runs_called A t (e.actions t) r2 a
        refine ⟨fun h => hc.trans (hr.1.2 h), fun h => ?_⟩
        have hne : called ≠ [] := by
          intro q
          rw [hc] at q
          rw [hr.1.1 q] at h; cases h
        obtain ⟨rest, h3⟩ := hr.2
        exact ⟨hne, by unfold note; rw [if_neg hne], rfl, rfl, hne, e, rest, hev, by rw [hc]; exact h3⟩
      · refine ⟨fun _ => hc.trans (hd.1 hx), fun h => ?_⟩
        simp only [Bool.or_eq_true] at hx
        simp only [Bool.and_eq_true, Bool.not_eq_true'] at h
        rcases hx with hx | hx | hx <;> simp_all
    · rw [if_neg hlen] at hc
      refine ⟨fun _ => hc, fun h => ?_⟩
      have : e.actions t = [] := List.length_eq_zero_iff.1 (by omega)
      rw [this] at h
      simp at h

theorem deleteRuns_due (g : EventConfig) (A : RuleActs) (r : Route) (a : Flags) (ha : a.has AR.STOP = false) :
    (DeleteDue A g r = false → deleteRuns g A r a = []) ∧ (DeleteDue A g r = true → ∃ x, deleteRuns g A r a = [x] ∧ RunOf A .delete r x) := by
  have h := note_due A g .delete (.inr rfl) r { r with flags := r.flags &&& ~~~RF.IN_TABLE } a ha
    (deleteActions g A { r with flags := r.flags &&& ~~~RF.IN_TABLE } a).called
    (by
      show (r.flags &&& ~~~RF.IN_TABLE).getLsbD 17 = r.flags.getLsbD 17
      rw [BitVec.getLsbD_and]
      have : (~~~RF.IN_TABLE : Flags).getLsbD 17 = true := by decide
      rw [this, Bool.and_true])
    (by
      unfold deleteActions
      simp only
      cases r.event with
      | none => rfl
      | some e =>
        simp only
        have : e.actions .delete = e.deleteActions := rfl
        rw [this]
        split <;> rfl)
  refine ⟨fun hd => ?_, fun hd => ⟨_, (h.2 hd).2⟩⟩
  unfold deleteRuns
  rw [h.1 hd]; rfl

theorem stop_cleared (a : Flags) : (a &&& ~~~AR.STOP).has AR.STOP = false := by
  unfold Flags.has
  rw [BitVec.and_assoc]
  have : (~~~AR.STOP &&& AR.STOP : Flags) = 0 := by decide
  rw [this]; simp

theorem flush_runs (g : EventConfig) (A : RuleActs) (T : RouteTable) (a : Flags) : RunsOf A .delete (DeleteDue A g) T.ents (flush g A T a).2.2 := by
  have key : ∀ (l : List Route) (T : RouteTable) (a : Flags) (rs : List Ran), ∃ new,
      (l.foldl (fun (x : RouteTable × Flags × List Ran) r =>
        let ares := x.2.1 &&& ~~~AR.STOP
        let d := delete0 g A x.1 r ares false
        (d.1, d.2.1, x.2.2 ++ deleteRuns g A r ares)) (T, a, rs)).2.2 = rs ++ new ∧ RunsOf A .delete (DeleteDue A g) l new := by
    intro l
    induction l with
    | nil => intro T a rs; exact ⟨[], by simp, .nil⟩
    | cons r l ih =>
      intro T a rs
      have hd := deleteRuns_due g A r (a &&& ~~~AR.STOP) (stop_cleared a)
      obtain ⟨new, h1, h2⟩ := ih (delete0 g A T r (a &&& ~~~AR.STOP) false).1 (delete0 g A T r (a &&& ~~~AR.STOP) false).2.1 (rs ++ deleteRuns g A r (a &&& ~~~AR.STOP))
      cases hdue : DeleteDue A g r
      · exact ⟨new, by rw [List.foldl_cons]; refine h1.trans ?_; rw [hd.1 hdue, List.append_nil], .skip hdue h2⟩
      · obtain ⟨x, hx, hr⟩ := hd.2 hdue
        exact ⟨x :: new, by rw [List.foldl_cons]; refine h1.trans ?_; rw [hx, List.append_assoc]; rfl, .run hdue hr h2⟩
  obtain ⟨new, h1, h2⟩ := key T.ents T a []
  have : (flush g A T a).2.2 = [] ++ new := h1
  rw [this]; exact h2

theorem flush_empty (g : EventConfig) (A : RuleActs) (T : RouteTable) (a : Flags) : (flush g A T a).1.ents = [] := by
  have hd : ∀ (T : RouteTable) (r : Route) (a : Flags), (delete0 g A T r a false).1 = T.removeRule r := by
    intro T r a; unfold delete0; rw [if_neg (by simp)]
  have key : ∀ (l : List Route) (x : RouteTable × Flags × List Ran), (∀ y ∈ x.1.ents, y.id ∈ l.map (·.id)) →
      (l.foldl (fun (x : RouteTable × Flags × List Ran) r =>
        let ares := x.2.1 &&& ~~~AR.STOP
        let d := delete0 g A x.1 r ares false
        (d.1, d.2.1, x.2.2 ++ deleteRuns g A r ares)) x).1.ents = [] := by
    intro l
    induction l with
    | nil =>
      intro x h
      rw [List.foldl_nil]
      cases hx : x.1.ents with
      | nil => rfl
      | cons y ys => exact absurd (h y (by rw [hx]; simp)) (by simp)
    | cons r l ih =>
      intro x h
      rw [List.foldl_cons]
      apply ih
      intro y hy
      simp only [hd] at hy
      have hy : y ∈ x.1.ents.filter (fun z => z.id != r.id) := hy
      rw [List.mem_filter] at hy
      have := h y hy.1
      rw [List.map_cons, List.mem_cons] at this
      rcases this with h1 | h1
      · rw [h1] at hy; simp at hy
      · exact h1
  exact key T.ents (T, a, []) (fun y hy => List.mem_map.2 ⟨y, hy, rfl⟩)

theorem none_due {A : RuleActs} {t : ActionType} {due : Route → Bool} {l : List Route} {xs : List Ran} (h : RunsOf A t due l xs)
    (hn : ∀ r ∈ l, due r = false) : xs = [] := by
  induction h with
  | nil => rfl
  | skip h1 h2 ih => exact ih (fun r hr => hn r (by simp [hr]))
  | run h1 h2 h3 ih => exact absurd (hn _ (List.mem_cons_self)) (by rw [h1]; decide)

theorem listed {A : RuleActs} {t : ActionType} {due : Route → Bool} {l : List Route} {xs : List Ran} (h : RunsOf A t due l xs) :
    xs.map (fun x => (x.type, x.rule)) = (l.filter due).map (fun r => (t, r.id)) := by
  induction h with
  | nil => rfl
  | skip h1 h2 ih => rw [List.filter_cons_of_neg (by rw [h1]; decide)]; exact ih
  | run h1 h2 h3 ih => rw [List.filter_cons_of_pos h1, List.map_cons, List.map_cons, ih, h2.1, h2.2.1]

theorem flush_inh {g : EventConfig} (h : IBit g.flags) (A : RuleActs) (T : RouteTable) (a : Flags) : (flush g A T a).2.2 = [] := by
  refine none_due (flush_runs g A T a) ?_
  intro r _
  unfold DeleteDue inhibits
  have : g.flags.getLsbD 2 = true := h
  rw [this]; simp

theorem contextFree_inh (A : RuleActs) {w : World} (h : IBit w.cx.global.flags) : (contextFree A w).ran = w.ran := by
  unfold contextFree flushRules
  simp only
  rw [flush_inh h, List.append_nil]

/-! ### The bulk run of insert handlers -/

theorem insert_called (g : EventConfig) (A : RuleActs) (r : Route) (a : Flags) (ha : a.has AR.STOP = false) :
    (dueOf A g .insert r = false → (insertActions g A r a).called = []) ∧
    (dueOf A g .insert r = true → note .insert r.id (insertActions g A r a).called = [⟨.insert, r.id, (insertActions g A r a).called⟩] ∧
      RunOf A .insert r ⟨.insert, r.id, (insertActions g A r a).called⟩) := by
  have h := note_due A g .insert (.inl rfl) r r a ha (insertActions g A r a).called rfl
    (by
      unfold insertActions
      cases r.event with
      | none => rfl
      | some e =>
        simp only
        have : e.actions .insert = e.insertActions := rfl
        rw [this]
        split <;> rfl)
  exact ⟨h.1, fun q => (h.2 q).2⟩

theorem insert_stopped (g : EventConfig) (A : RuleActs) (r : Route) (a : Flags) (ha : a.has AR.STOP = true) :
    (insertActions g A r a).called = [] ∧ ((insertActions g A r a).err = some .alreadyStopped ∨
      (insertActions g A r a).err = none ∧ dueOf A g .insert r = false) := by
  unfold insertActions dueOf HasAction
  cases r.event with
  | none => exact ⟨rfl, .inr ⟨rfl, by simp⟩⟩
  | some e =>
    simp only
    split
    · unfold listDispatch; rw [if_pos ha]; exact ⟨rfl, .inl rfl⟩
    · rename_i hl
      have h1 : e.actions .insert = [] := List.length_eq_zero_iff.1 (by show e.insertActions.length = 0; omega)
      exact ⟨rfl, .inr ⟨rfl, by rw [h1]; rfl⟩⟩

theorem bulk_runs (g : EventConfig) (A : RuleActs) (l : List Route) : ∀ (a : Flags), ∃ n,
    RunsOf A .insert (dueOf A g .insert) (l.take n) ((bulkInsertLoop g A l a).2.2.2.flatMap fun x => note .insert x.1 x.2) ∧
    ((bulkInsertLoop g A l a).2.2.1 = none → l.take n = l) := by
  induction l with
  | nil => intro a; exact ⟨0, .nil, fun _ => rfl⟩
  | cons r l ih =>
    intro a
    unfold bulkInsertLoop
    simp only
    obtain ⟨n, h1, h2⟩ := ih (insertActions g A r a).ares
    have go : ∀ (err : Option Err), (dueOf A g .insert r = false ∧ (insertActions g A r a).called = [] ∨ dueOf A g .insert r = true ∧
          note .insert r.id (insertActions g A r a).called = [⟨.insert, r.id, (insertActions g A r a).called⟩] ∧
          RunOf A .insert r ⟨.insert, r.id, (insertActions g A r a).called⟩) →
        RunsOf A .insert (dueOf A g .insert) ((r :: l).take (n + 1))
          (((r.id, (insertActions g A r a).called) :: (bulkInsertLoop g A l (insertActions g A r a).ares).2.2.2).flatMap fun x => note .insert x.1 x.2) := by
      intro _ h
      rw [List.flatMap_cons, List.take_succ_cons]
      rcases h with ⟨h, hc⟩ | ⟨h, hc, hr⟩
      · have : note .insert r.id (insertActions g A r a).called = [] := by rw [hc]; rfl
        rw [this]; exact .skip h h1
      · rw [hc]; exact .run h hr h1
    have hcase : (a.has AR.STOP = true → (insertActions g A r a).err ≠ some .alreadyStopped) → (dueOf A g .insert r = false ∧ (insertActions g A r a).called = [] ∨ dueOf A g .insert r = true ∧
          note .insert r.id (insertActions g A r a).called = [⟨.insert, r.id, (insertActions g A r a).called⟩] ∧
          RunOf A .insert r ⟨.insert, r.id, (insertActions g A r a).called⟩) := by
      intro hne
      cases hs : a.has AR.STOP
      · have := insert_called g A r a hs
        cases hd : dueOf A g .insert r
        · exact .inl ⟨rfl, this.1 hd⟩
        · exact .inr ⟨rfl, this.2 hd⟩
      · have := insert_stopped g A r a hs
        rcases this.2 with h | h
        · exact absurd h (hne hs)
        · exact .inl ⟨h.2, this.1⟩
    split
    · rename_i e he
      split
      · rename_i hal
        refine ⟨n + 1, go none (hcase (fun _ => by rw [he, hal]; decide)), fun h => ?_⟩
        rw [List.take_succ_cons, h2 h]
      · -- the run ends with this error
        by_cases hst : a.has AR.STOP = true
        · refine ⟨0, ?_, fun h => by cases h⟩
          have hc := (insert_stopped g A r a hst).1
          simp only [List.flatMap_cons, List.flatMap_nil, hc]
          exact .nil
        · refine ⟨1, ?_, fun h => by cases h⟩
          simp only [List.flatMap_cons, List.flatMap_nil, List.append_nil, List.take_succ_cons, List.take_zero]
          rcases hcase (fun h => absurd h hst) with ⟨h, hc⟩ | ⟨h, hc, hr⟩
          · have : note .insert r.id (insertActions g A r a).called = [] := by rw [hc]; rfl
            rw [this]; exact .skip h .nil
          · rw [hc]; exact .run h hr .nil
    · rename_i he
      refine ⟨n + 1, go none (hcase (fun _ => by rw [he]; decide)), fun h => ?_⟩
      rw [List.take_succ_cons, h2 h]

end WS.LT
