import Verif.Props.Delete
/-
State of the rule table over histories: C02 for the rule table, C11, C43 (highest priority), C48
(bitmask families), C26 (insert and delete actions run once), C28 (flag updates), C23 (default
policy).
-/
namespace WS.Props
open WS Spec

/-! ## C02, C04, C11 for rule tables -/

/-- C02 for rules: in every table that calls can produce, the rules are strictly increasing, no two
have the same key, IDs are non-zero and distinct. -/
theorem C02_rule_table (g : EventConfig) (b : Bool) (T : RouteTable) (h : Reach g b T) :
    T.ents.Pairwise (fun x y => routeKeyCmp x y = .lt) ∧ T.ents.Pairwise (fun x y => ¬ SameKey x y) ∧
    (T.ents.map (·.id)).Nodup ∧ (∀ r ∈ T.ents, r.id ≠ 0) := by
  have hc := h.inv.1.core
  refine ⟨hc.sorted.sorted, ?_, hc.ids, hc.nonzero⟩
  refine (List.Pairwise.imp_of_mem ?_ hc.sorted.sorted)
  intro x y hx hy hlt hs
  have := (C01_eq_iff x y (hc.sorted.wf x hx) (hc.sorted.wf y hy)).2 hs
  rw [this] at hlt; cases hlt

/-- C11 over histories: an exact lookup returns a rule iff a rule with that key is in the table. -/
theorem C11_exact_iff_reach (g : EventConfig) (b : Bool) (T : RouteTable) (h : Reach g b T) (t r : Route) (ht : t.WF)
    (ares : Option Flags) (fuel : Nat) (inx : Flags) :
    lookup T t true ares fuel = some (.ok (r, inx)) ↔ r ∈ T.ents ∧ SameKey r t ∧ inx = 0 :=
  C11_exact_iff T t r ares fuel inx h.inv.1.core.sorted ht

/-- C10 over histories, in the form that needs no hypotheses about the table: fully specified query,
prefix rule with the same family. -/
theorem C10_full_query_reach_partial (g : EventConfig) (b : Bool) (T : RouteTable) (hT : Reach g b T) (t r : Route) (ares : Option Flags)
    (fuel : Nat) (res : Except Err (Route × Flags)) (ht : t.WF) (hfs : FullySpecified t)
    (hr : r ∈ T.ents) (hmask : r.flags.getLsbD 12 = false ∧ r.flags.getLsbD 13 = false)
    (hc : Candidate ares r t) (hm : RuleMatches CidrMatch r (AnyEvent t))
    (h1 : r.remote.bits % 4 = 0) (h2 : r.loc.bits % 4 = 0) (hp1 : PadZero r.remote) (hp2 : PadZero r.loc)
    (hb1 : r.remote.bits ≤ t.remote.bits) (hb2 : r.loc.bits ≤ t.loc.bits)
    (hf : r.family = t.family) (hne : ¬ FieldsEqual r t)
    (h : lookup T t false ares fuel = some res) :
    ∃ b inx, res = .ok (b, inx) ∧ priority b ≤ priority r :=
  C10_full_query_partial T t r ares fuel res hT.inv.1.core.sorted
    (fun x hx => by rw [← effPriority_eq]; exact hT.inv.1.core.hpLe x hx) ht hfs hr hmask hc hm h1 h2
    (hT.inv.1.core.wildZero r hr) hp1 hp2 hb1 hb2 hf hne h

/-- Insertion into a table, as a function (IDs as given). -/
def ins (T : RouteTable) (r : Route) (id : Nat) : RouteTable :=
  match insert1 {} {} T r (.ok 1) (.ok id) 0 with
  | some x => x.T
  | none => T

/-- A table built by three insertions. -/
def tblLoopR : RouteTable := ins (ins (ins {} (ruleAll 0 0) 2) (ruleUnspec 0) 1) (ruleSsh 0 0) 3

theorem reach_ins {b : Bool} {T : RouteTable} (h : Reach {} b T) (r : Route) (id : Nat) (hw : r.WF) (h0 : id ≠ 0) (hid : ∀ x ∈ T.ents, x.id ≠ id)
    (ha : ∀ x, insert1 {} {} T r (.ok 1) (.ok id) 0 = some x → x.actionsFailed = false) : Reach {} b (ins T r id) := by
  unfold ins
  cases hx : insert1 {} {} T r (.ok 1) (.ok id) 0 with
  | none => exact h
  | some x => exact Reach.step h (Step.insert {} r _ _ 0 x keeps_default hw (fun i hi => by cases hi; exact ⟨h0, hid⟩) hx (ha x hx))

/-- C10: the divergence of the lookup (`C10_diverges`) is reachable: three insertions through the API and
an unmatched packet. -/
theorem C10_diverges_reachable : Reach {} false tblLoopR ∧ ∀ fuel, lookup tblLoopR pktOther false (some 0) fuel = none := by
  refine ⟨?_, ?_⟩
  · unfold tblLoopR
    refine reach_ins (reach_ins (reach_ins (Reach.init 0 0 none none 0) _ 2 (by decide) (by decide) (fun _ h => by cases h) ?_) _ 1 (by decide) (by decide) (by decide) ?_)
      _ 3 (by decide) (by decide) (by decide) ?_
    · intro x hx
      have : (insert1 {} {} {} (ruleAll 0 0) (.ok 1) (.ok 2) 0).map (·.actionsFailed) = some false := by decide
      rw [hx] at this; simpa using this
    · intro x hx
      have : (insert1 {} {} (ins {} (ruleAll 0 0) 2) (ruleUnspec 0) (.ok 1) (.ok 1) 0).map (·.actionsFailed) = some false := by decide
      rw [hx] at this; simpa using this
    · intro x hx
      have : (insert1 {} {} (ins (ins {} (ruleAll 0 0) 2) (ruleUnspec 0) 1) (ruleSsh 0 0) (.ok 1) (.ok 3) 0).map (·.actionsFailed) = some false := by decide
      rw [hx] at this; simpa using this
  · let best := scanVisit tblLoopR (inexactTarget pktOther) (some 0) true false true none (tblLoopR.ents.getD 1 {})
    have loop : ∀ fuel, scan tblLoopR (inexactTarget pktOther) (some 0) true false (some 1) fuel (some 0) true best.1 = none := by
      intro fuel
      induction fuel with
      | zero => rfl
      | succ n ih =>
        have : scan tblLoopR (inexactTarget pktOther) (some 0) true false (some 1) (n + 1) (some 0) true best.1 =
            scan tblLoopR (inexactTarget pktOther) (some 0) true false (some 1) n (some 0) true best.1 := rfl
        rw [this]; exact ih
    intro fuel
    match fuel with
    | 0 => rfl
    | 1 => rfl
    | n + 2 =>
      have h1 : lookup tblLoopR pktOther false (some 0) (n + 2) =
          (match scan tblLoopR (inexactTarget pktOther) (some 0) true false (some 1) n (some 0) true best.1 with
          | none => none
          | some none => some (.error .itemNotFound)
          | some (some r) => some (.ok r)) := rfl
      rw [h1, loop n]

/-! ## C43 — highest priority -/

/-- C43: the recorded highest priority (numerically lowest) is a lower bound of the priorities of the
table's rules, and it is the priority of some rule unless it is the lowest possible one, 65535. -/
theorem C43_highest_priority (g : EventConfig) (b : Bool) (T : RouteTable) (h : Reach g b T) :
    (∀ r ∈ T.ents, T.highestPriority ≤ priority r) ∧
    (T.highestPriority = 65535 ∨ ∃ r ∈ T.ents, priority r = T.highestPriority) := by
  have hc := h.inv.1.core
  refine ⟨fun r hr => by rw [← effPriority_eq]; exact hc.hpLe r hr, ?_⟩
  rcases hc.hpEx with h1 | ⟨r, hr, e⟩
  · exact Or.inl h1
  · exact Or.inr ⟨r, hr, by rw [← effPriority_eq]; exact e⟩

example : tableAB.highestPriority = 0 ∧ (deleteById {} {} (deleteById {} {} tableAB 1 0).1 2 0).1.highestPriority = 65535 := by decide

/-! ## C48 — bitmask families -/

theorem bmCount_pos {l : List Route} {af : Nat} : 0 < bmCount l af ↔ ∃ r ∈ l, UsesBitmask r ∧ r.family = af := by
  unfold bmCount
  rw [List.countP_pos_iff]
  constructor
  · rintro ⟨r, hr, h⟩
    simp only [Bool.and_eq_true, beq_iff_eq, decide_eq_true_eq, hasBitmask_iff, Bool.or_eq_true] at h
    exact ⟨r, hr, h.1, h.2⟩
  · rintro ⟨r, hr, h1, h2⟩
    refine ⟨r, hr, ?_⟩
    simp only [Bool.and_eq_true, beq_iff_eq, decide_eq_true_eq, hasBitmask_iff, Bool.or_eq_true]
    exact ⟨h1, h2⟩

/-- C48: a family is treated as bitmask-matching exactly while a rule of that family with a bitmask
address is in the table. -/
theorem C48_bitmask_families (g : EventConfig) (b : Bool) (T : RouteTable) (h : Reach g b T) (af : Nat) :
    isBitmaskMatching af T.bitmaskAfs = true ↔ ∃ r ∈ T.ents, UsesBitmask r ∧ r.family = af := by
  have hc := h.inv.1.core
  rw [← bmCount_pos]
  unfold isBitmaskMatching
  rw [List.any_eq_true]
  constructor
  · rintro ⟨⟨a, n⟩, hm, he⟩
    have : a = af := by simpa using he
    subst this
    have := hc.afsCount a n hm
    omega
  · intro hp
    obtain ⟨p, hp, e⟩ := List.mem_map.1 (hc.afsMem af hp)
    exact ⟨p, hp, by simpa using e⟩

/-- C48: and the stored reference count is the number of such rules. -/
theorem C48_refcount (g : EventConfig) (b : Bool) (T : RouteTable) (h : Reach g b T) (af n : Nat) (hm : (af, n) ∈ T.bitmaskAfs) :
    n = (T.ents.filter (fun r => (r.flags.getLsbD 12 || r.flags.getLsbD 13) && r.family == af)).length := by
  rw [(h.inv.1.core.afsCount af n hm).1]
  unfold bmCount
  rw [List.countP_eq_length_filter]
  congr 1
  apply List.filter_congr
  intro x _
  rw [hasBitmask_iff]

/-- A bitmask rule comes and goes. -/
example : ∃ res, insert1 {} {} {} { family := 5, remote := { bits := 16, addr := [1, 1] }, flags := bit 10 ||| bit 12 } (.ok 5) (.ok 9) 0 = some res ∧
    isBitmaskMatching 5 res.T.bitmaskAfs = true ∧ isBitmaskMatching 5 (deleteById {} {} res.T 9 0).1.bitmaskAfs = false :=
  ⟨_, rfl, by decide, by decide⟩

/-! ## C26 — insert and delete actions -/

/-- What can happen to a rule object: an action list of its event is dispatched on it, or it is changed
in some other way. -/
inductive LifeOp where
  | run (ty : ActionType) (ares : Flags)
  | change (f : Route → Route)

/-- The dispatches on a rule over its lifetime: type and actions called. -/
def lifetime (g : EventConfig) (A : RuleActs) (e : Event) : List LifeOp → Route → List (ActionType × List Nat)
  | [], _ => []
  | .change f :: rest, r => lifetime g A e rest (f r)
  | .run ty a :: rest, r =>
    (ty, (listDispatch A.env g e ty r a).called) :: lifetime g A e rest (listDispatch A.env g e ty r a).st

/-- Flag bit `k` of the rule is left alone by handlers and other changes. -/
structure KeepsBit (k : Nat) (A : RuleActs) (ops : List LifeOp) : Prop where
  handlers : ∀ ty i r a, (A.handler ty i r a).1.flags.getLsbD k = r.flags.getLsbD k
  changes : ∀ f, LifeOp.change f ∈ ops → ∀ r, (f r).flags.getLsbD k = r.flags.getLsbD k

/-- Number of dispatches of the given type that called anything. -/
def callsOf (ty : ActionType) (h : List (ActionType × List Nat)) : Nat :=
  (h.filter (fun p => decide (p.1 = ty) && !p.2.isEmpty)).length

theorem runActions_bit {A : RuleActs} {k : Nat} (hA : ∀ ty i r a, (A.handler ty i r a).1.flags.getLsbD k = r.flags.getLsbD k)
    (ty : ActionType) (l : List Nat) (r : Route) (a : Flags) :
    (runActions A.env ty l r a).st.flags.getLsbD k = r.flags.getLsbD k := by
  induction l generalizing r a with
  | nil => rfl
  | cons i rest ih =>
    have hen : A.env.enter r i = r := by
      unfold ActEnv.enter; split <;> rfl
    have hh : (A.env.handler ty i (A.env.enter r i) a).1.flags.getLsbD k = r.flags.getLsbD k := by rw [hen]; exact hA ty i r a
    unfold runActions
    split
    · exact ih r a
    · simp only
      split
      · exact hh
      · split
        · exact hh
        · simp only; rw [ih]; exact hh

theorem hasAll_bit (f : Flags) (k : Nat) (hk : k < 32) : f.hasAll (bit k) = f.getLsbD k := by
  unfold Flags.hasAll bit
  rw [BitVec.and_twoPow]
  cases h : f.getLsbD k
  · simp only [Bool.false_eq_true, if_false]
    have : ¬ (0#32 = BitVec.twoPow 32 k) := by
      intro hc
      have := congrArg (fun b => BitVec.getLsbD b k) hc
      simp [hk] at this
    simpa using this
  · simp

/-- One dispatch: if the mark is set it does nothing; afterwards the mark is set, if the type is the
mark's. -/
theorem dispatch_mark {A : RuleActs} {g : EventConfig} {e : Event} (ty : ActionType) (k : Nat) (hty : (ty = .insert ∧ k = 16) ∨ (ty = .delete ∧ k = 17))
    (hA : ∀ ty i r a, (A.handler ty i r a).1.flags.getLsbD k = r.flags.getLsbD k) (ty' : ActionType) (r : Route) (a : Flags) :
    (r.flags.getLsbD k = true → (listDispatch A.env g e ty' r a).st.flags.getLsbD k = true) ∧
    (ty' = ty → (listDispatch A.env g e ty' r a).called ≠ [] →
      r.flags.getLsbD k = false ∧ (listDispatch A.env g e ty' r a).st.flags.getLsbD k = true) := by
  have hrun : ∀ r' : Route, (if inhibited g e then ({ called := [], st := r', ares := a, err := none } : RunRes Route)
      else runActions A.env ty' (e.actions ty') r' a).st.flags.getLsbD k = r'.flags.getLsbD k := by
    intro r'; split
    · rfl
    · exact runActions_bit hA _ _ _ _
  have eR : ∀ x : Route, A.env.rule x = x := fun _ => rfl
  have eS : ∀ x y : Route, A.env.setRule x y = y := fun _ _ => rfl
  unfold listDispatch
  by_cases hs : a.has AR.STOP = true
  · rw [if_pos hs]; exact ⟨fun h => h, fun _ h => absurd rfl h⟩
  rw [if_neg hs]
  have h16 : ∀ f : Flags, f.hasAll RF.INSERT_ACTIONS_CALLED = f.getLsbD 16 := fun f => hasAll_bit f 16 (by decide)
  have h17 : ∀ f : Flags, f.hasAll RF.DELETE_ACTIONS_CALLED = f.getLsbD 17 := fun f => hasAll_bit f 17 (by decide)
  cases ty' with
  | insert =>
    simp only [eR, eS, h16]
    by_cases hf : r.flags.getLsbD 16 = true
    · rw [if_pos hf]; exact ⟨fun h => h, fun _ h => absurd rfl h⟩
    · rw [if_neg hf, hrun]
      refine ⟨fun h => ?_, fun ht _ => ?_⟩
      · simp only [BitVec.getLsbD_or, h, Bool.true_or]
      · subst ht
        rcases hty with ⟨_, rfl⟩ | ⟨h, _⟩
        · exact ⟨by simpa using hf, by simp [RF.INSERT_ACTIONS_CALLED, bit]⟩
        · cases h
  | delete =>
    simp only [eR, eS, h17]
    by_cases hf : r.flags.getLsbD 17 = true
    · rw [if_pos hf]; exact ⟨fun h => h, fun _ h => absurd rfl h⟩
    · rw [if_neg hf, hrun]
      refine ⟨fun h => ?_, fun ht _ => ?_⟩
      · simp only [BitVec.getLsbD_or, h, Bool.true_or]
      · subst ht
        rcases hty with ⟨h, _⟩ | ⟨_, rfl⟩
        · cases h
        · exact ⟨by simpa using hf, by simp [RF.DELETE_ACTIONS_CALLED, bit]⟩
  | post | match_ | update | decision =>
    simp only [hrun]
    refine ⟨fun h => h, fun ht _ => ?_⟩
    subst ht
    rcases hty with ⟨h, _⟩ | ⟨h, _⟩ <;> cases h

theorem lifetime_once {g : EventConfig} {A : RuleActs} {e : Event} (ty : ActionType) (k : Nat)
    (hty : (ty = .insert ∧ k = 16) ∨ (ty = .delete ∧ k = 17)) (ops : List LifeOp) (hk : KeepsBit k A ops) (r : Route) :
    callsOf ty (lifetime g A e ops r) ≤ 1 ∧ (r.flags.getLsbD k = true → callsOf ty (lifetime g A e ops r) = 0) := by
  induction ops generalizing r with
  | nil => exact ⟨Nat.zero_le _, fun _ => rfl⟩
  | cons op rest ih =>
    have hk' : KeepsBit k A rest := ⟨hk.handlers, fun f hf => hk.changes f (List.mem_cons_of_mem _ hf)⟩
    cases op with
    | change f =>
      have := ih hk' (f r)
      rw [hk.changes f (List.mem_cons_self ..) r] at this
      exact this
    | run ty' a =>
      obtain ⟨d1, d2⟩ := dispatch_mark (g := g) (e := e) ty k hty hk.handlers ty' r a
      obtain ⟨i1, i2⟩ := ih hk' (listDispatch A.env g e ty' r a).st
      have hcount : callsOf ty (lifetime g A e (.run ty' a :: rest) r) =
          (if ty' = ty ∧ (listDispatch A.env g e ty' r a).called ≠ [] then 1 else 0) +
            callsOf ty (lifetime g A e rest (listDispatch A.env g e ty' r a).st) := by
        unfold callsOf
        simp only [lifetime]
        by_cases hc : ty' = ty ∧ (listDispatch A.env g e ty' r a).called ≠ []
        · rw [if_pos hc, List.filter_cons_of_pos (by simpa [List.isEmpty_iff] using hc)]
          simp; omega
        · rw [if_neg hc, List.filter_cons_of_neg (by simpa [List.isEmpty_iff] using hc)]
          simp
      rw [hcount]
      by_cases hc : ty' = ty ∧ (listDispatch A.env g e ty' r a).called ≠ []
      · rw [if_pos hc]
        obtain ⟨e1, e2⟩ := d2 hc.1 hc.2
        rw [i2 e2]
        exact ⟨Nat.le_refl _, fun h => by rw [e1] at h; cases h⟩
      · rw [if_neg hc]
        refine ⟨by omega, fun h => ?_⟩
        rw [i2 (d1 h)]

/-- C26: over any lifetime of a rule — any sequence of dispatches of its event's lists on it, with any
other changes in between — at most one dispatch calls insert actions, provided nothing else touches
the library's mark for that (flag bit 16).
Missing from the full claim: the API lets callers clear the mark, `C26_mark_clearable`. -/
theorem C26_insert_once_partial (g : EventConfig) (A : RuleActs) (e : Event) (ops : List LifeOp) (hk : KeepsBit 16 A ops) (r : Route) :
    callsOf .insert (lifetime g A e ops r) ≤ 1 := (lifetime_once .insert 16 (Or.inl ⟨rfl, rfl⟩) ops hk r).1

/-- C26: the same for delete actions (flag bit 17). -/
theorem C26_delete_once_partial (g : EventConfig) (A : RuleActs) (e : Event) (ops : List LifeOp) (hk : KeepsBit 17 A ops) (r : Route) :
    callsOf .delete (lifetime g A e ops r) ≤ 1 := (lifetime_once .delete 17 (Or.inr ⟨rfl, rfl⟩) ops hk r).1

/-- An event with an insert and a delete action. -/
def eventID : Event := { label := [0x61], insertActions := [7], deleteActions := [9] }

example : lifetime {} {} eventID [.run .insert 0, .run .delete 0, .run .insert 0, .run .delete 0] ruleA =
    [(.insert, [7]), (.delete, [9]), (.insert, []), (.delete, [])] := by decide
example : KeepsBit 16 {} [.run .insert 0, .change (fun r => { r with flags := r.flags ||| bit 20 })] :=
  ⟨fun _ _ _ _ => rfl, fun f hf r => by
    simp only [List.mem_cons, reduceCtorEq, LifeOp.change.injEq, List.not_mem_nil, or_false, false_or] at hf
    subst hf
    simp [bit]⟩

/-- C26 does not hold unconditionally: the flag update API accepts clearing the mark, and the insert
actions then run a second time on the same rule. -/
theorem C26_mark_clearable : ∃ (r r1 : Route) (x : Route × Flags × Flags × Flags),
    (insertActions {} {} r 0).called = [7] ∧ r1 = (insertActions {} {} r 0).st ∧
    updateFlags r1 0 (bit 16) (.ok 0) 0 = .ok x ∧ (insertActions {} {} x.1 0).called = [7] :=
  ⟨{ ruleA with event := some eventID, flags := bit 10 ||| bit 14 }, _, _, by decide, rfl, rfl, by decide⟩

/-- ... and clearing all marks for a bulk run is an API of its own. -/
theorem C26_bulk_reruns : ∃ (T : RouteTable), (∀ r ∈ T.ents, r.flags.getLsbD 16 = true) ∧
    (bulkInsertActions {} {} T 0).2.2.2 = [(1, [])] ∧
    (bulkInsertActions {} {} (bulkClearInsertStatus T) 0).2.2.2 = [(1, [7])] :=
  ⟨{ ents := [{ ruleA with id := 1, event := some eventID, flags := bit 10 ||| bit 14 ||| bit 16 }] }, by decide, by decide, by decide⟩

/-- The delete actions run whether or not the insert actions did: here the event has only delete
actions. -/
theorem C26_delete_without_insert : ∃ r : Route, r.flags.getLsbD 16 = false ∧ (deleteActions {} {} r 0).called = [9] :=
  ⟨{ ruleA with event := some { eventID with insertActions := [] } }, by decide, by decide⟩

/-! ## C28 — flag updates -/

theorem hasMask_false {f m : Flags} : f.has m = false ↔ ∀ k, k < 32 → m.getLsbD k = true → f.getLsbD k = false := by
  unfold Flags.has
  constructor
  · intro h k hk hm
    have h0 : f &&& m = 0#32 := by simpa using h
    have := congrArg (fun b => BitVec.getLsbD b k) h0
    simp only [BitVec.getLsbD_and, hm, Bool.and_true, BitVec.getLsbD_zero] at this
    exact this
  · intro h
    have : f &&& m = 0#32 := by
      apply BitVec.eq_of_getLsbD_eq
      intro k hk
      rw [BitVec.getLsbD_and]
      cases hm : m.getLsbD k
      · simp
      · rw [h k hk hm]; simp
    rw [this]; decide

/-- Which updates are allowed: not both penalty box and green list (bits 20, 21) at once, not the marks
for "in table" and "pending deletion" (bits 14, 15), and for a rule in a table no key flag
(bits 0-13). -/
structure UpdateOK (r : Route) (set clear : Flags) : Prop where
  notBoth : ¬ (set.getLsbD 20 = true ∧ set.getLsbD 21 = true)
  inTable : set.getLsbD 14 = false ∧ clear.getLsbD 14 = false
  pending : set.getLsbD 15 = false ∧ clear.getLsbD 15 = false
  key : r.flags.getLsbD 14 = true → ∀ k, k < 14 → set.getLsbD k = false ∧ clear.getLsbD k = false

theorem updateFlags_ok_iff (r : Route) (set clear : Flags) (now : Except Err Int) (ares : Flags) :
    (UpdateOK r set clear → ∃ x, updateFlags r set clear now ares = .ok x) ∧
    (¬ UpdateOK r set clear → updateFlags r set clear now ares = .error .invalidArg ∨ updateFlags r set clear now ares = .error .notPermitted) := by
  have hb : ((set &&& (RF.PENALTYBOXED ||| RF.GREENLISTED)) = (RF.PENALTYBOXED ||| RF.GREENLISTED)) ↔
      (set.getLsbD 20 = true ∧ set.getLsbD 21 = true) := by
    constructor
    · intro h
      have h1 := congrArg (fun b => BitVec.getLsbD b 20) h
      have h2 := congrArg (fun b => BitVec.getLsbD b 21) h
      have m20 : (RF.PENALTYBOXED ||| RF.GREENLISTED).getLsbD 20 = true := by decide
      have m21 : (RF.PENALTYBOXED ||| RF.GREENLISTED).getLsbD 21 = true := by decide
      simp only [BitVec.getLsbD_and, m20, m21, Bool.and_true] at h1 h2
      exact ⟨h1, h2⟩
    · rintro ⟨h1, h2⟩
      apply BitVec.eq_of_getLsbD_eq
      intro k hk
      rw [BitVec.getLsbD_and]
      have hm : (RF.PENALTYBOXED ||| RF.GREENLISTED).getLsbD k = decide (k = 20 ∨ k = 21) := by
        have : ∀ k : Fin 32, (RF.PENALTYBOXED ||| RF.GREENLISTED).getLsbD k.val = decide (k.val = 20 ∨ k.val = 21) := by decide
        exact this ⟨k, hk⟩
      rw [hm]
      by_cases h : k = 20 ∨ k = 21
      · rcases h with rfl | rfl
        · rw [h1]; rfl
        · rw [h2]; rfl
      · simp [h]
  have hin : (set ||| clear).has (RF.PENDING_DELETE ||| RF.IN_TABLE) = false ↔
      (set.getLsbD 14 = false ∧ clear.getLsbD 14 = false) ∧ (set.getLsbD 15 = false ∧ clear.getLsbD 15 = false) := by
    rw [has_or]
    rw [show RF.PENDING_DELETE = bit 15 from rfl, show RF.IN_TABLE = bit 14 from rfl, Flags.has_bit _ _ (by decide), Flags.has_bit _ _ (by decide)]
    simp only [BitVec.getLsbD_or, Bool.or_eq_false_iff]
    constructor
    · rintro ⟨h1, h2⟩; exact ⟨h2, h1⟩
    · rintro ⟨h1, h2⟩; exact ⟨h2, h1⟩
  have hrin : r.flags.has RF.IN_TABLE = r.flags.getLsbD 14 := Flags.has_bit _ _ (by decide)
  have hkey : (set ||| clear).has RF.IMMUTABLE_FLAGS = false ↔ ∀ k, k < 14 → set.getLsbD k = false ∧ clear.getLsbD k = false := by
    rw [hasMask_false]
    have hm : ∀ k, k < 32 → RF.IMMUTABLE_FLAGS.getLsbD k = decide (k < 14) := by
      intro k hk
      have : ∀ k : Fin 32, RF.IMMUTABLE_FLAGS.getLsbD k.val = decide (k.val < 14) := by decide
      exact this ⟨k, hk⟩
    constructor
    · intro h k hk
      have := h k (by omega) (by rw [hm k (by omega)]; simpa using hk)
      rw [BitVec.getLsbD_or, Bool.or_eq_false_iff] at this
      exact this
    · intro h k hk hmk
      rw [hm k hk] at hmk
      have := h k (by simpa using hmk)
      rw [BitVec.getLsbD_or, this.1, this.2]; rfl
  unfold updateFlags
  by_cases c1 : set.getLsbD 20 = true ∧ set.getLsbD 21 = true
  · rw [if_pos (hb.2 c1)]
    exact ⟨fun h => absurd c1 h.notBoth, fun _ => Or.inl rfl⟩
  rw [if_neg (fun h => c1 (hb.1 h))]
  by_cases c2 : (set ||| clear).has (RF.PENDING_DELETE ||| RF.IN_TABLE) = true
  · rw [if_pos c2]
    refine ⟨fun h => ?_, fun _ => Or.inr rfl⟩
    rw [hin.2 ⟨h.inTable, h.pending⟩] at c2; cases c2
  rw [if_neg c2]
  have c2' := hin.1 (by simpa using c2)
  by_cases c3 : r.flags.has RF.IN_TABLE = true ∧ (set ||| clear).has RF.IMMUTABLE_FLAGS = true
  · rw [if_pos c3]
    refine ⟨fun h => ?_, fun _ => Or.inr rfl⟩
    rw [hrin] at c3
    rw [hkey.2 (h.key c3.1)] at c3; cases c3.2
  · rw [if_neg c3]
    refine ⟨fun _ => ⟨_, rfl⟩, fun h => absurd ⟨c1, c2'.1, c2'.2, ?_⟩ h⟩
    intro h14
    apply hkey.1
    cases hx : (set ||| clear).has RF.IMMUTABLE_FLAGS
    · rfl
    · exact absurd ⟨by rw [hrin]; exact h14, hx⟩ c3

/-- C28: a flag update succeeds exactly when it is allowed; otherwise it reports `INVALID_ARG` or
`NOT_PERMITTED` (and yields no new rule). -/
theorem C28_update_iff (r : Route) (set clear : Flags) (now : Except Err Int) (ares : Flags) :
    ((∃ x, updateFlags r set clear now ares = .ok x) ↔ UpdateOK r set clear) ∧
    (¬ UpdateOK r set clear → updateFlags r set clear now ares = .error .invalidArg ∨ updateFlags r set clear now ares = .error .notPermitted) := by
  obtain ⟨h1, h2⟩ := updateFlags_ok_iff r set clear now ares
  refine ⟨⟨fun ⟨x, hx⟩ => Classical.byContradiction (fun hc => ?_), h1⟩, h2⟩
  rcases h2 hc with h | h <;> rw [hx] at h <;> cases h

/-- C28: the new flag word is `(old | set) & ~clear`, bit by bit, both words are reported, everything
else of the rule but the penalty-box time stays, and the update is reported in the results exactly
when a flag changed. -/
theorem C28_update_effect (r : Route) (set clear : Flags) (now : Except Err Int) (ares : Flags) (r' : Route) (ares' before after : Flags)
    (h : updateFlags r set clear now ares = .ok (r', ares', before, after)) :
    (∀ k, k < 32 → r'.flags.getLsbD k = ((r.flags.getLsbD k || set.getLsbD k) && !clear.getLsbD k)) ∧
    before = r.flags ∧ after = r'.flags ∧
    r' = { r with flags := r'.flags, data := { r.data with lastPenaltyboxTime := r'.data.lastPenaltyboxTime } } ∧
    (ares'.getLsbD 11 = (ares.getLsbD 11 || decide (r'.flags ≠ r.flags))) ∧
    (∀ k, k ≠ 11 → ares'.getLsbD k = ares.getLsbD k) := by
  unfold updateFlags at h
  split at h
  · cases h
  split at h
  · cases h
  split at h
  · cases h
  simp only [Except.ok.injEq, Prod.mk.injEq] at h
  obtain ⟨e1, e2, e3, e4⟩ := h
  subst e1
  refine ⟨?_, e3.symm, e4.symm, rfl, ?_, ?_⟩
  · intro k hk
    simp only [Flags.setClear, BitVec.getLsbD_and, BitVec.getLsbD_or, BitVec.getLsbD_not, hk, decide_true, Bool.true_and]
  · rw [← e2]
    by_cases hc : Flags.setClear r.flags set clear ≠ r.flags
    · simp only [hc, if_true, ne_eq, not_false_eq_true, decide_true, Bool.or_true]
      simp [AR.UPDATE, bit]
    · simp only [hc, if_false, decide_false, Bool.or_false]
  · intro k hk
    rw [← e2]
    split
    · have : ¬ 11 = k := fun h => hk h.symm
      simp [AR.UPDATE, bit, BitVec.getLsbD_twoPow, this]
    · rfl

/-- C28: the time a rule was put in the penalty box is recorded when the update puts it there. -/
theorem C28_box_time (r : Route) (set clear : Flags) (t : Int) (ares : Flags) (r' : Route) (ares' before after : Flags)
    (h : updateFlags r set clear (.ok t) ares = .ok (r', ares', before, after)) :
    r'.data.lastPenaltyboxTime = if r'.flags.getLsbD 20 = true ∧ r.flags.getLsbD 20 = false then t else r.data.lastPenaltyboxTime := by
  unfold updateFlags at h
  split at h
  · cases h
  split at h
  · cases h
  split at h
  · cases h
  simp only [Except.ok.injEq, Prod.mk.injEq] at h
  obtain ⟨e1, _, _, _⟩ := h
  subst e1
  have hb : ∀ f : Flags, f.has RF.PENALTYBOXED = f.getLsbD 20 := fun f => Flags.has_bit _ _ (by decide)
  simp only [hb]

/-- Non-vacuity: putting `ruleA` in the penalty box. -/
example : UpdateOK { ruleA with flags := bit 10 ||| bit 14 } (bit 20) 0 ∧
    (∃ x, updateFlags { ruleA with flags := bit 10 ||| bit 14 } (bit 20) 0 (.ok 77) 0 = .ok x ∧ x.1.data.lastPenaltyboxTime = 77) :=
  ⟨⟨by decide, by decide, by decide, by decide⟩, _, rfl, by decide⟩

/-- The claim that internal bits are protected fails for the marks "insert actions called" and "delete
actions called" (bits 16, 17), which the caller may change. -/
theorem C28_marks_not_protected (r : Route) (now : Except Err Int) (ares : Flags) :
    ∃ x, updateFlags r (bit 16) (bit 17) now ares = .ok x ∧ x.1.flags.getLsbD 16 = true ∧ x.1.flags.getLsbD 17 = false := by
  have hok : UpdateOK r (bit 16) (bit 17) := ⟨by decide, by decide, by decide, fun _ k hk => by
    have : ∀ k : Fin 14, (bit 16).getLsbD k.val = false ∧ (bit 17).getLsbD k.val = false := by decide
    exact this ⟨k, hk⟩⟩
  obtain ⟨⟨r', a', b', c'⟩, hx⟩ := (C28_update_iff r _ _ now ares).1.2 hok
  have := (C28_update_effect r _ _ now ares r' a' b' c' hx).1
  refine ⟨_, hx, ?_, ?_⟩
  · rw [this 16 (by decide)]
    have h1 : (bit 16).getLsbD 16 = true := by decide
    have h2 : (bit 17).getLsbD 16 = false := by decide
    rw [h1, h2]; simp
  · rw [this 17 (by decide)]
    have h2 : (bit 17).getLsbD 17 = true := by decide
    rw [h2]; simp

/-! ## C23 — setting the default policy -/

/-- C23: a default policy is accepted exactly when it has no bits other than accept (0), reject (1),
stop (6) and error (9); it is then what is stored, and the rest of the table is untouched. -/
theorem C23_default_policy_set (T : RouteTable) (p : Flags) :
    ((∀ k, k < 32 → p.getLsbD k = true → k = 0 ∨ k = 1 ∨ k = 6 ∨ k = 9) → defaultPolicySet T p = .ok { T with defaultPolicy := p }) ∧
    (¬ (∀ k, k < 32 → p.getLsbD k = true → k = 0 ∨ k = 1 ∨ k = 6 ∨ k = 9) → defaultPolicySet T p = .error .invalidArg) := by
  have hm : ∀ k, k < 32 → AR.DEFAULT_POLICY_MASK.getLsbD k = decide (k = 0 ∨ k = 1 ∨ k = 6 ∨ k = 9) := by
    intro k hk
    have : ∀ k : Fin 32, AR.DEFAULT_POLICY_MASK.getLsbD k.val = decide (k.val = 0 ∨ k.val = 1 ∨ k.val = 6 ∨ k.val = 9) := by decide
    exact this ⟨k, hk⟩
  have hz : p &&& ~~~AR.DEFAULT_POLICY_MASK = 0 ↔ ∀ k, k < 32 → p.getLsbD k = true → k = 0 ∨ k = 1 ∨ k = 6 ∨ k = 9 := by
    constructor
    · intro h k hk hp
      have := congrArg (fun b => BitVec.getLsbD b k) h
      simp only [BitVec.getLsbD_and, BitVec.getLsbD_not, hk, decide_true, Bool.true_and, hp, hm k hk] at this
      have h0 : (0 : Flags).getLsbD k = false := by simp
      rw [h0] at this
      have h2 : ¬ ¬ (k = 0 ∨ k = 1 ∨ k = 6 ∨ k = 9) := fun hc => by simp [hc] at this
      exact Classical.not_not.1 h2
    · intro h
      apply BitVec.eq_of_getLsbD_eq
      intro k hk
      have h0 : (0 : Flags).getLsbD k = false := by simp
      rw [h0]
      simp only [BitVec.getLsbD_and, BitVec.getLsbD_not, hk, decide_true, Bool.true_and, hm k hk]
      cases hp : p.getLsbD k
      · rfl
      · have := h k hk hp
        simp [this]
  unfold defaultPolicySet
  constructor
  · intro h; rw [if_neg (by simpa using hz.2 h)]
  · intro h; rw [if_pos (fun hc => h (hz.1 hc))]

end WS.Props
