import Verif.Props.RouteInit
/-
Properties C14 (failed insertion leaves the table unchanged) and C17 (bound on purgeable rules).
-/
namespace WS.Props
open WS Spec

theorem countP_removeOne {l : List Route} (hn : (l.map (·.id)).Nodup) {v : Route} (hv : v ∈ l) (hp : Purgeable v) :
    purgeableCount (l.filter (fun x => x.id != v.id)) + 1 = purgeableCount l := by
  have h := perm_filter_id l hn v hv
  unfold purgeableCount
  rw [(h.filter _).length_eq, List.filter_cons_of_pos (by simpa using hp)]
  simp

/-- The queue has as many entries as there are rules with an expiry. -/
theorem purgeList_length {T : RouteTable} (h : TableInv T) : T.purgeList.length = purgeableCount T.ents := by
  have hperm : T.purgeList.Perm ((T.ents.filter (fun r => decide (Purgeable r))).map (·.id)) := by
    rw [List.perm_ext_iff_of_nodup h.purge.nodup]
    · intro id
      rw [h.purge.mem, List.mem_map]
      constructor
      · rintro ⟨r, hr, h1, h2⟩
        exact ⟨r, List.mem_filter.2 ⟨hr, decide_eq_true h2⟩, h1⟩
      · rintro ⟨r, hr, h1⟩
        obtain ⟨h2, h3⟩ := List.mem_filter.1 hr
        exact ⟨r, h2, h1, of_decide_eq_true h3⟩
    · exact h.core.ids.sublist ((List.filter_sublist).map _)
  rw [hperm.length_eq, List.length_map]; rfl

/-- Everything an insertion can do: nothing, evict one rule, and then fail, revive or insert. -/
theorem insert1_cases {g : EventConfig} {A : RuleActs} {T : RouteTable} (h : TableInv T) {r0 : Route}
    {now : Except Err Int} {newId : Except Err Nat} (hid : FreshId T newId) {ares : Flags} {res : InsRes}
    (hi : insert1 g A T r0 now newId ares = some res) :
    (res.T = T ∧ ∃ e, res.res = .error e) ∨
    (∃ T1 t r, now = .ok t ∧ insertPrepare g t r0 ares = .ok r ∧ TableInv T1 ∧ FreshId T1 newId ∧ res = insertCommit g A T1 r newId ares ∧
      ((T1 = T ∧ ¬ (r.data.purgeAfter ≠ 0 ∧ T.maxPurgeableRoutes > 0 ∧ T.purgeList.length ≥ T.maxPurgeableRoutes)) ∨
       (∃ v, v ∈ T.ents ∧ T.purgeList.getLast? = some v.id ∧ T1 = T.removeRule v ∧
         (r.data.purgeAfter ≠ 0 ∧ T.maxPurgeableRoutes > 0 ∧ T.purgeList.length ≥ T.maxPurgeableRoutes)))) := by
  unfold insert1 at hi
  cases now with
  | error e =>
    simp only at hi
    split at hi
    · cases hi; exact Or.inl ⟨rfl, _, rfl⟩
    · cases hi; exact Or.inl ⟨rfl, _, rfl⟩
  | ok t =>
    simp only at hi
    cases hp : insertPrepare g t r0 ares with
    | error e => rw [hp] at hi; cases hi; exact Or.inl ⟨rfl, _, rfl⟩
    | ok r =>
      rw [hp] at hi
      simp only at hi
      rcases insertEvict_cases (g := g) (A := A) (now := t) h r with ⟨hn, e⟩ | ⟨hc, v, hv, hl, e⟩
      · rw [e] at hi
        cases hi
        exact Or.inr ⟨T, t, r, rfl, hp, h, hid, rfl, Or.inl ⟨rfl, hn⟩⟩
      · rw [e] at hi
        cases hi
        refine Or.inr ⟨T.removeRule v, t, r, rfl, hp, h.removeRule hv, ?_, rfl, Or.inr ⟨v, hv, hl, rfl, hc⟩⟩
        exact fun i hi' => ⟨(hid i hi').1, fun x hx => (hid i hi').2 x ((removeRule_mem h.core.ids hv x).1 hx).1⟩

/-! ## C14 -/

/-- C14: an insertion that fails, for another reason than a failing insert action, leaves the whole
table as it was — or, when the table holds the maximum number of purgeable rules, with only the rule
that was next to expire gone.
Missing from the full claim: that eviction (`C14_evicts_before_failing`) and failing insert actions
(`C14_action_failure_breaks`). -/
theorem C14_failed_insert_partial (g : EventConfig) (b : Bool) (A : RuleActs) (hA : A.Keeps) (T : RouteTable) (hT : Reach g b T)
    (r0 : Route) (hwf : r0.WF) (now : Except Err Int) (newId : Except Err Nat) (hid : FreshId T newId) (ares : Flags) (res : InsRes)
    (hi : insert1 g A T r0 now newId ares = some res) (e : Err) (he : res.res = .error e) (hact : res.actionsFailed = false) :
    res.T = T ∨ (0 < T.maxPurgeableRoutes ∧ T.maxPurgeableRoutes ≤ purgeableCount T.ents ∧
      ∃ v ∈ T.ents, T.purgeList.getLast? = some v.id ∧ res.T.ents = T.ents.filter (fun x => x.id != v.id) ∧
        res.T.purgeList = T.purgeList.filter (fun x => x != v.id)) := by
  have h := hT.inv.1
  rcases insert1_cases h hid hi with ⟨h1, _⟩ | ⟨T1, t, r, _, hp, hT1, hid1, rfl, hcase⟩
  · exact Or.inl h1
  · have hrw := (insertPrepare_ok hp hwf).1
    rcases insertCommit_cases g A hA T1 hT1.core.sorted r hrw newId hid1 ares with
      ⟨h1, _, _, _⟩ | ⟨old, _, _, _, _, h5, _⟩ | ⟨_, _, _, _, _, _, _, _, h5, _, _, _⟩ | ⟨h5, _⟩
    · rcases hcase with ⟨hc, _⟩ | ⟨v, hv, hl, hc, hfull⟩
      · left; rw [h1, hc]
      · right
        refine ⟨hfull.2.1, by rw [← purgeList_length h]; exact hfull.2.2, v, hv, hl, ?_, ?_⟩
        · rw [h1, hc]; rfl
        · rw [h1, hc, removeRule_list h hv]; rfl
    · rw [h5] at he; cases he
    · rw [h5] at he; cases he
    · rw [h5] at hact; cases hact

/-- C14: without a limit on purgeable rules (or with room left) a failed insertion changes nothing at
all, unless an insert action failed. -/
theorem C14_failed_insert_unchanged_partial (g : EventConfig) (b : Bool) (A : RuleActs) (hA : A.Keeps) (T : RouteTable) (hT : Reach g b T)
    (r0 : Route) (hwf : r0.WF) (now : Except Err Int) (newId : Except Err Nat) (hid : FreshId T newId) (ares : Flags) (res : InsRes)
    (hi : insert1 g A T r0 now newId ares = some res) (e : Err) (he : res.res = .error e) (hact : res.actionsFailed = false)
    (hroom : T.maxPurgeableRoutes = 0 ∨ purgeableCount T.ents < T.maxPurgeableRoutes) : res.T = T := by
  rcases C14_failed_insert_partial g b A hA T hT r0 hwf now newId hid ares res hi e he hact with h | ⟨h1, h2, _⟩
  · exact h
  · omega

/-- An insertion of a rule without expiry whose key is in the table gets as far as finding that rule. -/
theorem insert_finds {g : EventConfig} {A : RuleActs} {T : RouteTable} (h : TableInv T)
    {r0 x : Route} (hwf : r0.WF) {t : Int} {id : Nat} {ares : Flags} {res : InsRes}
    (hi : insert1 g A T r0 (.ok t) (.ok id) ares = some res)
    (hx : x ∈ T.ents) (hk : SameKey x r0) (hin : r0.flags.getLsbD 14 = false)
    (hadd : (configOf g r0.event).routeFlagsToAdd = 0) (hclear : (configOf g r0.event).routeFlagsToClear = 0)
    (hidle : (configOf g r0.event).routeIdleTimeForPurge ≤ 0) (hpa : r0.data.purgeAfter = 0) :
    ∃ d : RouteMeta, d.purgeAfter = 0 ∧ res = insertCommit g A T { r0 with data := d } (.ok id) ares ∧
      routeSplice (enterTable { r0 with data := d } id) T.ents = none ∧
      T.ents.find? (fun y => routeKeyCmp y (enterTable { r0 with data := d } id) == .eq) = some x := by
  have hxw := h.core.sorted.wf x hx
  have hsens : Sensical r0.flags := by
    have := h.core.sens x hx
    unfold Sensical at *
    rw [← hk.keyFlags 0 (by omega), ← hk.keyFlags 1 (by omega), ← hk.keyFlags 2 (by omega), ← hk.keyFlags 3 (by omega),
      ← hk.keyFlags 4 (by omega), ← hk.keyFlags 5 (by omega)]
    exact this
  have hf : (r0.flags &&& ~~~(configOf g r0.event).routeFlagsToClear) ||| (configOf g r0.event).routeFlagsToAdd = r0.flags := by
    rw [hadd, hclear]
    have : ~~~(0 : Flags) = BitVec.allOnes 32 := by decide
    rw [this, BitVec.and_allOnes]; exact BitVec.or_zero
  have h14 : r0.flags.hasAll RF.IN_TABLE = false := by
    unfold Flags.hasAll RF.IN_TABLE bit
    rw [BitVec.and_twoPow, hin]; decide
  -- clamping changes nothing: the table's rule with the same key has zero wildcard fields
  have hz := h.core.wildZero x hx
  have hclamp : clampWildcards r0 = r0 := by
    have hm : ∀ l : List Byte, (∀ b ∈ l, b = 0) → l.map (fun _ => 0#8) = l := by
      intro l hl
      conv => rhs; rw [← List.map_id l]
      exact List.map_congr_left (fun b hb => (hl b hb).symm)
    have hb : ∀ k (hk' : k < 8), r0.flags.has (bit k) = x.flags.getLsbD k := fun k hk' => by
      rw [Flags.has_bit _ _ (by omega), hk.keyFlags k (by omega)]
    unfold clampWildcards RF.SA_FAMILY_WILDCARD RF.SA_REMOTE_ADDR_WILDCARD RF.SA_PROTO_WILDCARD RF.SA_LOCAL_PORT_WILDCARD
      RF.SA_LOCAL_ADDR_WILDCARD RF.SA_REMOTE_PORT_WILDCARD RF.REMOTE_INTERFACE_WILDCARD RF.LOCAL_INTERFACE_WILDCARD
    rw [hb 0 (by omega), hb 1 (by omega), hb 2 (by omega), hb 3 (by omega), hb 4 (by omega), hb 5 (by omega), hb 6 (by omega), hb 7 (by omega)]
    have e0 : (if x.flags.getLsbD 0 = true then 0 else r0.family) = r0.family := by
      split
      · rename_i hc; rw [← hk.family, hz.family hc]
      · rfl
    have e1 : (if x.flags.getLsbD 1 = true then r0.remote.addr.map (fun _ => 0#8) else r0.remote.addr) = r0.remote.addr := by
      split
      · rename_i hc; exact hm _ (fun b hb' => hz.remoteAddr hc b (by rw [hk.remoteAddr]; exact hb'))
      · rfl
    have e2 : (if x.flags.getLsbD 2 = true then 0 else r0.proto) = r0.proto := by
      split
      · rename_i hc; rw [← hk.proto, hz.proto hc]
      · rfl
    have e3 : (if x.flags.getLsbD 3 = true then 0 else r0.loc.port) = r0.loc.port := by
      split
      · rename_i hc; rw [← hk.localPort, hz.localPort hc]
      · rfl
    have e4 : (if x.flags.getLsbD 4 = true then r0.loc.addr.map (fun _ => 0#8) else r0.loc.addr) = r0.loc.addr := by
      split
      · rename_i hc; exact hm _ (fun b hb' => hz.localAddr hc b (by rw [hk.localAddr]; exact hb'))
      · rfl
    have e5 : (if x.flags.getLsbD 5 = true then 0 else r0.remote.port) = r0.remote.port := by
      split
      · rename_i hc; rw [← hk.remotePort, hz.remotePort hc]
      · rfl
    have e6 : (if x.flags.getLsbD 6 = true then 0 else r0.remote.iface) = r0.remote.iface := by
      split
      · rename_i hc; rw [← hk.remoteIface, hz.remoteIface hc]
      · rfl
    have e7 : (if x.flags.getLsbD 7 = true then 0 else r0.loc.iface) = r0.loc.iface := by
      split
      · rename_i hc; rw [← hk.localIface, hz.localIface hc]
      · rfl
    simp only [e0, e1, e2, e3, e4, e5, e6, e7]
  have hprep : ∃ d, insertPrepare g t r0 ares = .ok { r0 with data := d } ∧ d.purgeAfter = 0 := by
    unfold insertPrepare
    simp only [hf]
    rw [(flagsSensical_iff _).2 hsens, h14, hpa]
    simp only [Bool.not_true, Bool.false_eq_true, if_false, ne_eq, not_true_eq_false, false_and]
    have : ({ r0 with flags := r0.flags } : Route) = r0 := rfl
    rw [hclamp]
    refine ⟨_, rfl, ?_⟩
    simp only [hpa]
    have : ¬ (configOf g r0.event).routeIdleTimeForPurge > 0 := by omega
    simp [this]
  obtain ⟨d, hprep, hd⟩ := hprep
  unfold insert1 at hi
  simp only [hprep] at hi
  have hev : insertEvict g A t T { r0 with data := d } = some (T, .ok ()) := by
    unfold insertEvict; simp [hd]
  rw [hev] at hi
  simp only [Option.some.injEq] at hi
  -- the commit finds the rule
  have hentW : (enterTable { r0 with data := d } id).WF := hwf
  have hsk : SameKey x (enterTable { r0 with data := d } id) := by
    obtain ⟨a1, a2, a3, a4, a5, a6, a7, a8, a9, a10, a11, a12, a13⟩ := hk
    refine ⟨a1, a2, a3, a4, a5, a6, a7, a8, a9, a10, ?_, a12, a13⟩
    intro k hk'
    rw [a11 k hk']
    simp only [enterTable, BitVec.getLsbD_or, RF.IN_TABLE, bit, BitVec.getLsbD_twoPow]
    have : ¬ 14 = k := by omega
    simp [this]
  have hcmp : routeKeyCmp x (enterTable { r0 with data := d } id) = .eq := (C01_eq_iff _ _ hxw hentW).2 hsk
  have hsp : routeSplice (enterTable { r0 with data := d } id) T.ents = none :=
    (routeSplice_none h.core.sorted hentW).2 ⟨x, hx, hcmp⟩
  have hfind : ∃ y, T.ents.find? (fun y => routeKeyCmp y (enterTable { r0 with data := d } id) == .eq) = some y ∧ y = x := by
    cases hfd : T.ents.find? (fun y => routeKeyCmp y (enterTable { r0 with data := d } id) == .eq) with
    | none =>
      have := List.find?_eq_none.1 hfd x hx
      simp [hcmp] at this
    | some y =>
      refine ⟨y, rfl, ?_⟩
      have hym := List.mem_of_find?_eq_some hfd
      have hye : routeKeyCmp y (enterTable { r0 with data := d } id) = .eq := by simpa using List.find?_some hfd
      have hxy : routeKeyCmp x y = .eq := by
        have h1 := (C01_eq_iff y _ (h.core.sorted.wf y hym) hentW).1 hye
        refine (C01_eq_iff x y hxw (h.core.sorted.wf y hym)).2 ?_
        obtain ⟨a1, a2, a3, a4, a5, a6, a7, a8, a9, a10, a11, a12, a13⟩ := hsk
        obtain ⟨b1, b2, b3, b4, b5, b6, b7, b8, b9, b10, b11, b12, b13⟩ := h1
        exact ⟨a1.trans b1.symm, a2.trans b2.symm, a3.trans b3.symm, a4.trans b4.symm, a5.trans b5.symm, a6.trans b6.symm,
          a7.trans b7.symm, a8.trans b8.symm, a9.trans b9.symm, a10.trans b10.symm,
          fun k hk' => (a11 k hk').trans (b11 k hk').symm, a12.trans b12.symm, a13.trans b13.symm⟩
      -- strictly sorted: equal keys are the same position
      obtain ⟨i, hi', hxi⟩ := List.getElem_of_mem hx
      obtain ⟨j, hj', hyj⟩ := List.getElem_of_mem hym
      rcases Nat.lt_trichotomy i j with hij | hij | hij
      · have := List.pairwise_iff_getElem.1 h.core.sorted.sorted i j hi' hj' hij
        rw [hxi, hyj, hxy] at this; cases this
      · subst hij; rw [← hxi, ← hyj]
      · have := List.pairwise_iff_getElem.1 h.core.sorted.sorted j i hj' hi' hij
        rw [hxi, hyj] at this
        have h2 := C01_swap x y hxw (h.core.sorted.wf y hym)
        rw [hxy] at h2
        rw [h2] at this; cases this
  obtain ⟨y, hfd, rfl⟩ := hfind
  exact ⟨d, hd, hi.symm, hsp, hfd⟩

/-- C14: inserting a rule whose key is already in the table, and not pending deletion, is refused with
`ITEM_ALREADY_PRESENT` and changes nothing (rule without expiry, no flags added or cleared by the
configuration). -/
theorem C14_duplicate (g : EventConfig) (b : Bool) (A : RuleActs) (T : RouteTable) (hT : Reach g b T)
    (r0 x : Route) (hwf : r0.WF) (t : Int) (id : Nat) (ares : Flags) (res : InsRes)
    (hi : insert1 g A T r0 (.ok t) (.ok id) ares = some res)
    (hx : x ∈ T.ents) (hk : SameKey x r0) (hpend : ¬ Pending x) (hin : r0.flags.getLsbD 14 = false)
    (hadd : (configOf g r0.event).routeFlagsToAdd = 0) (hclear : (configOf g r0.event).routeFlagsToClear = 0)
    (hidle : (configOf g r0.event).routeIdleTimeForPurge ≤ 0) (hpa : r0.data.purgeAfter = 0) :
    res.T = T ∧ res.res = .error .itemAlreadyPresent := by
  obtain ⟨d, hd, rfl, hsp, hfd⟩ := insert_finds hT.inv.1 hwf hi hx hk hin hadd hclear hidle hpa
  have hnp : x.flags.has RF.PENDING_DELETE = false := by
    rw [has_pending]
    unfold Pending at hpend
    simpa using hpend
  unfold insertCommit
  simp only [hsp, hfd, hnp, Bool.false_eq_true, if_false]
  exact ⟨trivial, trivial⟩

/-! Concrete instances: a table with one rule, and a duplicate insertion. -/

def ruleA : Route := { family := 2, proto := 6, remote := { bits := 32, addr := [10, 0, 0, 1], port := 80 }, flags := bit 10 }
def ruleB : Route := { ruleA with remote := { bits := 32, addr := [10, 0, 0, 2], port := 80 }, data := { purgeAfter := 500 } }

/-- Table after inserting `ruleA` (ID 1) and then `ruleB` (ID 2, expires at 500) with room for one
purgeable rule. -/
def tableAB : RouteTable :=
  { ents := [{ ruleA with id := 1, flags := bit 10 ||| bit 14, data := { insertTime := 1 } },
             { ruleB with id := 2, flags := bit 10 ||| bit 14, data := { insertTime := 1, purgeAfter := 500 } }]
    purgeList := [2], maxPurgeableRoutes := 1, highestPriority := 0 }

theorem keeps_default : RuleActs.Keeps {} := fun _ _ _ _ => KeepsKey.refl _

theorem reach_tableAB : Reach {} false tableAB := by
  refine Reach.step (T := (insertCommit {} {} { maxPurgeableRoutes := 1 }
    { ruleA with data := { insertTime := 1 } } (.ok 1) 0).T) (Reach.step (Reach.init 1 0 none none 0) ?_) ?_
  · exact Step.insert {} ruleA (.ok 1) (.ok 1) 0 _ keeps_default (by decide)
      (fun i hi => by cases hi; exact ⟨by decide, fun r hr => by cases hr⟩) (by rfl) rfl
  · have : ∃ res, insert1 {} {} (insertCommit {} {} { maxPurgeableRoutes := 1 } { ruleA with data := { insertTime := 1 } } (.ok 1) 0).T
        ruleB (.ok 1) (.ok 2) 0 = some res ∧ res.T = tableAB ∧ res.actionsFailed = false := ⟨_, rfl, rfl, rfl⟩
    obtain ⟨res, h1, h2, h3⟩ := this
    rw [← h2]
    refine Step.insert {} ruleB (.ok 1) (.ok 2) 0 res keeps_default (by decide) ?_ h1 h3
    intro i hi
    injection hi with hi; subst hi
    refine ⟨by decide, ?_⟩
    decide

/-- Non-vacuity of `C14_duplicate` and `C14_failed_insert_partial`: inserting `ruleA` again. -/
example : ∃ res, insert1 {} {} tableAB ruleA (.ok 5) (.ok 3) 0 = some res ∧ res.res = .error .itemAlreadyPresent ∧
    res.actionsFailed = false ∧ res.T.ents = tableAB.ents := ⟨_, rfl, by decide, rfl, rfl⟩

/-- C14 is violated when the table holds the maximum number of purgeable rules: the stalest rule is
evicted before the duplicate is noticed, so that a refused insertion removes an unrelated, unexpired
rule. -/
theorem C14_evicts_before_failing : ∃ (T : RouteTable) (r0 : Route) (res : InsRes) (v : Route), Reach {} false T ∧
    insert1 {} {} T r0 (.ok 5) (.ok 3) 0 = some res ∧ res.res = .error .itemAlreadyPresent ∧
    v ∈ T.ents ∧ ¬ Expired 5 v ∧ v ∉ res.T.ents := by
  refine ⟨tableAB, { ruleA with data := { purgeAfter := 600 } }, _,
    { ruleB with id := 2, flags := bit 10 ||| bit 14, data := { insertTime := 1, purgeAfter := 500 } },
    reach_tableAB, rfl, by decide, by decide, by unfold Expired Purgeable; decide, by decide⟩

/-- An event with one insert action. -/
def eventI : Event := { label := [0x61], insertActions := [7] }
/-- Handlers that refuse. -/
def refuse : RuleActs := { handler := fun _ _ r a => (r, a, some .notPermitted) }

/-- C14 is violated when an insert action refuses the rule: the rule is taken out of the table again
but stays in the purge queue and in the highest-priority record, and since the caller frees the
rule, the next purge follows a dangling pointer (the model has no result for it). -/
theorem C14_action_failure_breaks : ∃ (r0 : Route) (res : InsRes), refuse.Keeps ∧ r0.WF ∧
    insert1 {} refuse {} r0 (.ok 5) (.ok 1) 0 = some res ∧ res.res = .error .notPermitted ∧
    res.T.ents = [] ∧ res.T.purgeList = [1] ∧ res.T.highestPriority = 0 ∧
    ∀ fuel, stalePurge {} {} .all 1000 fuel res.T 0 = none := by
  refine ⟨{ ruleB with event := some eventI }, _, fun _ _ _ _ => KeepsKey.refl _, by decide, rfl, by decide, by decide, by decide, by decide, ?_⟩
  intro fuel
  cases fuel <;> rfl

/-- C14 is violated on the rule object when the bitmask-family table (four entries) is full: the rule
is not in the table but keeps its `IN_TABLE` mark, so that a retry is refused as already present. -/
theorem C14_upref_failure_marks : ∃ (T : RouteTable) (r0 : Route) (res : InsRes),
    insert1 {} {} T r0 (.ok 5) (.ok 9) 0 = some res ∧ res.res = .error .bufferTooSmall ∧ res.T.ents = T.ents ∧
    res.rule.flags.getLsbD 14 = true ∧
    ∃ res2, insert1 {} {} T res.rule (.ok 6) (.ok 9) 0 = some res2 ∧ res2.res = .error .itemAlreadyPresent :=
  ⟨{ bitmaskAfs := [(1, 1), (2, 1), (3, 1), (4, 1)] },
   { family := 5, remote := { bits := 16, addr := [1, 1] }, flags := bit 10 ||| bit 12 }, _, rfl, by decide, rfl, by decide, _, rfl, by decide⟩

/-! ## C17 -/

theorem purgeableCount_perm {l l' : List Route} (h : l.Perm l') : purgeableCount l = purgeableCount l' := (h.filter _).length_eq

theorem setExpiry_length {T : RouteTable} (h : TableInv T) {r : Route} (hr : r ∈ T.ents) (t : Int) :
    (T.setExpiry r t).purgeList.length ≤ T.purgeList.length + 1 := by
  rw [setExpiry_list h hr]
  have h1 : (qWithout T r.id).length ≤ T.purgeList.length := List.length_filter_le _ _
  split
  · omega
  · rw [(purgeSplice_perm _ _ _ _).length_eq, List.length_cons]; omega

/-- A revived rule that gets no expiry does not lengthen the queue. -/
theorem setExpiry_length_zero {T : RouteTable} (h : TableInv T) {r : Route} (hr : r ∈ T.ents) :
    (T.setExpiry r 0).purgeList.length ≤ T.purgeList.length := by
  rw [setExpiry_list h hr, if_pos rfl]
  exact List.length_filter_le _ _

/-- C17: a successful insertion leaves no more purgeable rules than the configured maximum (when there
is one), or than there were before.
Missing from the full claim: tables that are over the limit already (`C17_over_limit_stays`). -/
theorem C17_bound_partial (g : EventConfig) (b : Bool) (A : RuleActs) (hA : A.Keeps) (T : RouteTable) (hT : Reach g b T)
    (r0 : Route) (hwf : r0.WF) (now : Except Err Int) (newId : Except Err Nat) (hid : FreshId T newId) (ares : Flags) (res : InsRes)
    (hi : insert1 g A T r0 now newId ares = some res) (x : InsOk) (hok : res.res = .ok x) (hmax : 0 < T.maxPurgeableRoutes) :
    purgeableCount res.T.ents ≤ max T.maxPurgeableRoutes (purgeableCount T.ents) := by
  have h := hT.inv.1
  have hres : res.actionsFailed = false → TableInv res.T := fun hf => (TableInv.insert1 hA h hwf hid hi hf).1
  have hlen := purgeList_length h
  rcases insert1_cases h hid hi with ⟨_, e, h1⟩ | ⟨T1, t, r, _, hp, hT1, hid1, rfl, hcase⟩
  · rw [h1] at hok; cases hok
  · have hrw := (insertPrepare_ok hp hwf).1
    have hl1 := purgeList_length hT1
    -- length of the queue in front of the commit
    have hbefore : T1.purgeList.length ≤ T.purgeList.length ∧
        (r.data.purgeAfter ≠ 0 → T1.purgeList.length + 1 ≤ max T.maxPurgeableRoutes T.purgeList.length) := by
      rcases hcase with ⟨rfl, hn⟩ | ⟨v, hv, hl, rfl, _⟩
      · refine ⟨Nat.le_refl _, fun hpa => ?_⟩
        have : ¬ (T1.purgeList.length ≥ T1.maxPurgeableRoutes) := fun hc => hn ⟨hpa, hmax, hc⟩
        omega
      · have hmem : v.id ∈ T.purgeList := List.mem_of_getLast? hl
        have hpv : Purgeable v := by
          obtain ⟨w, hw, he, hp'⟩ := (h.purge.mem v.id).1 hmem
          rw [id_inj h.core.ids hv hw he.symm]; exact hp'
        have := countP_removeOne h.core.ids hv hpv
        rw [hl1]
        have e : (T.removeRule v).ents = T.ents.filter (fun x => x.id != v.id) := rfl
        rw [e]
        omega
    rcases insertCommit_cases g A hA T1 hT1.core.sorted r hrw newId hid1 ares with
      ⟨_, ⟨e, h2⟩, _, _⟩ | ⟨old, hold, _, hpend, hf, h5, h6⟩ | ⟨id, ents, afs, st, hnid, hks, hsp, haf, h5, hf, _, h6⟩ | ⟨_, e, h2⟩
    · rw [h2] at hok; cases hok
    · have hres' := hres hf
      rw [← purgeList_length hres', h6]
      have hk : KeepsKey old { old with flags := old.flags &&& ~~~RF.PENDING_DELETE } :=
        keepsKey_andNot old _ (twoPow_low 15 (by decide))
      have hu := hT1.update hold hk
      have hm : ({ old with flags := old.flags &&& ~~~RF.PENDING_DELETE } : Route) ∈ (T1.update { old with flags := old.flags &&& ~~~RF.PENDING_DELETE }).ents :=
        (update_mem (r := old) (r' := { old with flags := old.flags &&& ~~~RF.PENDING_DELETE }) hold rfl _).2 (Or.inl rfl)
      by_cases hz : r.data.purgeAfter = 0
      · rw [hz]
        have := setExpiry_length_zero hu hm
        have e : (T1.update { old with flags := old.flags &&& ~~~RF.PENDING_DELETE }).purgeList = T1.purgeList := rfl
        rw [e] at this
        omega
      · have := setExpiry_length hu hm r.data.purgeAfter
        have e : (T1.update { old with flags := old.flags &&& ~~~RF.PENDING_DELETE }).purgeList = T1.purgeList := rfl
        rw [e] at this
        have := hbefore.2 hz
        omega
    · have hres' := hres hf
      rw [← purgeList_length hres', h6, insertedTable_list]
      have hpa : st.data.purgeAfter = r.data.purgeAfter := hks.purgeAfter
      rw [hpa]
      by_cases hz : r.data.purgeAfter = 0
      · simp only [hz, ne_eq, not_true_eq_false, if_false]; omega
      · simp only [ne_eq, hz, not_false_eq_true, if_true]
        rw [(purgeSplice_perm _ _ _ _).length_eq, List.length_cons]
        have := hbefore.2 hz
        omega
    · rw [h2] at hok; cases hok

/-- C17: if the maximum was respected before the insertion it is respected after it. -/
theorem C17_bound_kept_partial (g : EventConfig) (b : Bool) (A : RuleActs) (hA : A.Keeps) (T : RouteTable) (hT : Reach g b T)
    (r0 : Route) (hwf : r0.WF) (now : Except Err Int) (newId : Except Err Nat) (hid : FreshId T newId) (ares : Flags) (res : InsRes)
    (hi : insert1 g A T r0 now newId ares = some res) (x : InsOk) (hok : res.res = .ok x) (hmax : 0 < T.maxPurgeableRoutes)
    (hb : purgeableCount T.ents ≤ T.maxPurgeableRoutes) : purgeableCount res.T.ents ≤ T.maxPurgeableRoutes := by
  have := C17_bound_partial g b A hA T hT r0 hwf now newId hid ares res hi x hok hmax
  omega

/-- Non-vacuity: `ruleB` with another port goes into the full table, the old `ruleB` is evicted. -/
example : ∃ res, insert1 {} {} tableAB { ruleB with proto := 17 } (.ok 5) (.ok 3) 0 = some res ∧ res.res = .ok .inserted ∧
    purgeableCount tableAB.ents = 1 ∧ purgeableCount res.T.ents = 1 ∧ res.T.purgeList = [3] := ⟨_, rfl, by decide, by decide, by decide, by decide⟩

/-- The bound is not an invariant: giving a rule an expiry does not look at it. -/
theorem C17_expiry_set_exceeds : ∃ (T : RouteTable) (r : Route) (t : Int), Reach {} false T ∧ r ∈ T.ents ∧
    purgeableCount T.ents ≤ T.maxPurgeableRoutes ∧ 0 < T.maxPurgeableRoutes ∧
    T.maxPurgeableRoutes < purgeableCount (T.setExpiry r t).ents :=
  ⟨tableAB, { ruleA with id := 1, flags := bit 10 ||| bit 14, data := { insertTime := 1 } }, 700, reach_tableAB, by decide, by decide, by decide, by decide⟩

/-- The full claim fails when the limit is exceeded already (an expiry was set on a rule afterwards):
a successful insertion leaves the table over the limit. -/
theorem C17_over_limit_stays : ∃ (T : RouteTable) (r0 : Route) (res : InsRes), Reach {} false T ∧ r0.WF ∧
    insert1 {} {} T r0 (.ok 5) (.ok 3) 0 = some res ∧ res.res = .ok .inserted ∧ T.maxPurgeableRoutes = 1 ∧
    purgeableCount res.T.ents = 2 := by
  refine ⟨tableAB.setExpiry { ruleA with id := 1, flags := bit 10 ||| bit 14, data := { insertTime := 1 } } 700,
    { ruleB with proto := 17 }, _, Reach.step reach_tableAB (Step.setExpiry _ (by decide) 700), by decide, rfl, by decide, by decide, by decide⟩

end WS.Props
