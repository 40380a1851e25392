import Verif.Proof.Offender2
import Verif.Proof.Firewall2
/-
What dispatches leave of a rule table (C89).
-/
namespace WS.Ot
open WS WS.Spec WS.Spec.Off WS.Props WS.Lwip WS.Off WS.Fw

/-- The same rule: in all but counters, times, and the flags PENALTYBOXED (20) and DONT_COUNT_HITS (22); one that does not expire still does not. -/
structure SameRule (a b : Route) : Prop where
  id : b.id = a.id
  event : b.event = a.event
  family : b.family = a.family
  proto : b.proto = a.proto
  remote : b.remote = a.remote
  loc : b.loc = a.loc
  flags : ∀ k, k ≠ 20 → k ≠ 22 → b.flags.getLsbD k = a.flags.getLsbD k
  expiry : a.data.purgeAfter = 0 → b.data.purgeAfter = 0

theorem SameRule.refl (a : Route) : SameRule a a := ⟨rfl, rfl, rfl, rfl, rfl, rfl, fun _ _ _ => rfl, fun h => h⟩

theorem SameRule.trans {a b c : Route} (h : SameRule a b) (h' : SameRule b c) : SameRule a c :=
  ⟨h'.id.trans h.id, h'.event.trans h.event, h'.family.trans h.family, h'.proto.trans h.proto, h'.remote.trans h.remote, h'.loc.trans h.loc,
    fun k h1 h2 => (h'.flags k h1 h2).trans (h.flags k h1 h2), fun h0 => h'.expiry (h.expiry h0)⟩

theorem SameRule.core {a b : Route} (h : SameRule a b) : KeepsCore a b :=
  ⟨h.id, h.event, h.family, h.proto, h.remote, h.loc, fun k hk => h.flags k (by omega) (by omega)⟩

theorem same_data (r : Route) (d : RouteMeta) (h : r.data.purgeAfter = 0 → d.purgeAfter = 0) : SameRule r { r with data := d } :=
  ⟨rfl, rfl, rfl, rfl, rfl, rfl, fun _ _ _ => rfl, h⟩

/-- The table is in order, and the purge queue holds every rule that expires. -/
structure Kempt (T : RouteTable) : Prop where
  core : CoreInv T
  listed : ∀ r ∈ T.ents, r.data.purgeAfter ≠ 0 → r.id ∈ T.purgeList

/-- Time has passed for the table: rules are as they were or gone; those that do not expire are there. -/
structure Aged (T T' : RouteTable) : Prop where
  kempt : Kempt T'
  old : ∀ r' ∈ T'.ents, ∃ r ∈ T.ents, SameRule r r'
  stay : ∀ r ∈ T.ents, r.id ∉ T.purgeList → r.id ∉ T'.purgeList ∧ ∃ r' ∈ T'.ents, SameRule r r'
  queue : ∀ i ∈ T'.purgeList, i ∈ T.purgeList
  limits : T'.maxPurgeableRoutes = T.maxPurgeableRoutes ∧ T'.maxPurgeableIdleTime = T.maxPurgeableIdleTime

theorem Aged.refl {T : RouteTable} (h : Kempt T) : Aged T T :=
  ⟨h, fun r hr => ⟨r, hr, .refl r⟩, fun r hr hp => ⟨hp, r, hr, .refl r⟩, fun _ h => h, rfl, rfl⟩

theorem Aged.trans {A B C : RouteTable} (h : Aged A B) (h' : Aged B C) : Aged A C := by
  refine ⟨h'.kempt, fun r' hr' => ?_, fun r hr hp => ?_, fun i hi => h.queue i (h'.queue i hi), h'.limits.1.trans h.limits.1, h'.limits.2.trans h.limits.2⟩
  · obtain ⟨r1, h1, s1⟩ := h'.old r' hr'
    obtain ⟨r0, h0, s0⟩ := h.old r1 h1
    exact ⟨r0, h0, s0.trans s1⟩
  · obtain ⟨p1, r1, h1, s1⟩ := h.stay r hr hp
    obtain ⟨p2, r2, h2, s2⟩ := h'.stay r1 h1 (by rw [s1.id]; exact p1)
    exact ⟨by rw [s1.id] at p2; exact p2, r2, h2, s1.trans s2⟩

theorem aged_update {T : RouteTable} (h : Kempt T) {r r' : Route} (hr : r ∈ T.ents) (hs : SameRule r r') : Aged T (T.update r') := by
  refine ⟨⟨h.core.update hr hs.core, fun x hx h0 => ?_⟩, fun x hx => ?_, fun x hx hp => ⟨hp, ?_⟩, fun _ h => h, rfl, rfl⟩
  · show x.id ∈ T.purgeList
    rcases (update_mem hr hs.id x).1 hx with rfl | ⟨h1, _⟩
    · rw [hs.id]; exact h.listed r hr (fun hz => h0 (hs.expiry hz))
    · exact h.listed x h1 h0
  · rcases (update_mem hr hs.id x).1 hx with rfl | ⟨h1, _⟩
    · exact ⟨r, hr, hs⟩
    · exact ⟨x, h1, .refl x⟩
  · by_cases he : x.id = r.id
    · rw [id_inj h.core.ids hx hr he]
      exact ⟨r', (update_mem hr hs.id r').2 (.inl rfl), hs⟩
    · exact ⟨x, (update_mem hr hs.id x).2 (.inr ⟨hx, he⟩), .refl x⟩

theorem purgeSplice_sub (f : Nat → Int) (i : Nat) (t : Int) : ∀ (l : List Nat) (x : Nat), x ∈ purgeSplice f i t l → x = i ∨ x ∈ l := by
  intro l
  induction l with
  | nil => intro x hx; unfold purgeSplice at hx; exact .inl (List.mem_singleton.1 hx)
  | cons y l ih =>
    intro x hx
    unfold purgeSplice at hx
    split at hx
    · rcases List.mem_cons.1 hx with h | h
      · exact .inl h
      · exact .inr h
    · rcases List.mem_cons.1 hx with h | h
      · exact .inr (h ▸ List.mem_cons_self ..)
      · exact (ih x h).imp_right (List.mem_cons_of_mem _)

theorem mem_purgeSplice (f : Nat → Int) (i : Nat) (t : Int) : ∀ (l : List Nat) (x : Nat), x = i ∨ x ∈ l → x ∈ purgeSplice f i t l := by
  intro l
  induction l with
  | nil => intro x hx; unfold purgeSplice; rcases hx with rfl | h
           · exact List.mem_singleton.2 rfl
           · cases h
  | cons y l ih =>
    intro x hx
    unfold purgeSplice
    split
    · rcases hx with rfl | h
      · exact List.mem_cons_self ..
      · exact List.mem_cons_of_mem _ h
    · rcases hx with h | h
      · exact List.mem_cons_of_mem _ (ih x (.inl h))
      · rcases List.mem_cons.1 h with rfl | h
        · exact List.mem_cons_self ..
        · exact List.mem_cons_of_mem _ (ih x (.inr h))

theorem aged_hit {T : RouteTable} (h : Kempt T) {r : Route} (hr : r ∈ T.ents) (idle lastHit : Int) : Aged T (T.hitExpiry r idle lastHit) := by
  unfold RouteTable.hitExpiry
  simp only
  split
  · rename_i h0
    have hu := aged_update h hr (same_data r { r.data with purgeAfter := lastHit + idle + 60000000 } (fun hz => absurd hz h0.1))
    split
    · exact hu
    · refine ⟨⟨hu.kempt.core.congr rfl rfl rfl rfl, fun x hx hx0 => ?_⟩, hu.old, fun x hx hxp => ⟨fun hc => ?_, (hu.stay x hx hxp).2⟩, fun i hi => ?_, rfl, rfl⟩
      · refine mem_purgeSplice _ _ _ _ _ ?_
        by_cases he : x.id = r.id
        · exact .inl he
        · exact .inr (List.mem_filter.2 ⟨hu.kempt.listed x hx hx0, by simpa using he⟩)
      · rcases purgeSplice_sub _ _ _ _ _ hc with e | e
        · exact hxp (e ▸ h.listed r hr h0.1)
        · exact hxp (List.mem_filter.1 e).1
      · rcases purgeSplice_sub _ _ _ _ _ hi with e | e
        · exact e ▸ h.listed r hr h0.1
        · exact (List.mem_filter.1 e).1
  · exact .refl h

theorem core_remove {T : RouteTable} (h : CoreInv T) {r : Route} (hr : r ∈ T.ents) : CoreInv (T.removeRule r) := by
  let q := (T.ents.filter (fun x => x.data.purgeAfter ≠ 0)).map (·.id)
  have ht : TableInv { T with purgeList := q } := by
    refine ⟨h.congr rfl rfl rfl rfl, ?_, fun id => ?_⟩
    · exact List.Nodup.sublist (List.filter_sublist.map _) h.ids
    · show id ∈ q ↔ _
      constructor
      · intro hq
        obtain ⟨x, hx, e⟩ := List.mem_map.1 hq
        obtain ⟨h1, h2⟩ := List.mem_filter.1 hx
        exact ⟨x, h1, e, by simpa using h2⟩
      · rintro ⟨x, hx, e, h2⟩
        exact List.mem_map.2 ⟨x, List.mem_filter.2 ⟨hx, by simpa using h2⟩, e⟩
  exact (ht.removeRule (r := r) hr).core.congr rfl rfl rfl rfl

theorem aged_remove {T : RouteTable} (h : Kempt T) {r : Route} (hr : r ∈ T.ents) (hp : r.id ∈ T.purgeList) : Aged T (T.removeRule r) := by
  have hmem := removeRule_mem h.core.ids hr
  refine ⟨⟨core_remove h.core hr, fun x hx h0 => ?_⟩, fun x hx => ⟨x, ((hmem x).1 hx).1, .refl x⟩, fun x hx hxp => ⟨fun hc => ?_, x, (hmem x).2 ⟨hx, fun hc => hxp (hc ▸ hp)⟩, .refl x⟩, fun i hi => ?_, ?_⟩
  · obtain ⟨h1, h2⟩ := (hmem x).1 hx
    have hl := h.listed x h1 h0
    unfold RouteTable.removeRule
    simp only
    split
    · exact List.mem_filter.2 ⟨hl, by simpa using fun hc => h2 (id_inj h.core.ids h1 hr hc)⟩
    · exact hl
  · unfold RouteTable.removeRule at hc
    simp only at hc
    split at hc
    · exact hxp (List.mem_filter.1 hc).1
    · exact hxp hc
  · unfold RouteTable.removeRule at hi
    simp only at hi
    split at hi
    · exact (List.mem_filter.1 hi).1
    · exact hi
  · unfold RouteTable.removeRule
    simp only
    repeat' split
    all_goals simp

theorem aged_purgeLoop {g : EventConfig} {A : RuleActs} {mode : PurgeMode} {now : Int} : ∀ (fuel : Nat) (T : RouteTable) (ares : Flags) (n : Nat),
    Kempt T → ∀ x, purgeLoop g A mode now fuel T ares n = some x → Aged T x.1 := by
  intro fuel
  induction fuel with
  | zero => intro T ares n h x hx; cases hx
  | succ fuel ih =>
    intro T ares n h x hx
    unfold purgeLoop at hx
    cases hl : T.purgeList.getLast? with
    | none => rw [hl] at hx; cases hx; exact .refl h
    | some id =>
      rw [hl] at hx
      simp only at hx
      have hin : id ∈ T.purgeList := List.mem_of_getLast? hl
      cases hg : T.get? id with
      | none => rw [hg] at hx; cases hx
      | some r =>
        rw [hg] at hx
        simp only at hx
        obtain ⟨hr, hid⟩ := get?_some hg
        split at hx
        · cases hx; exact .refl h
        · split at hx
          · exact ih T ares n h x hx
          · rw [delete0_now] at hx
            have hd := aged_remove h hr (hid ▸ hin)
            split at hx
            · exact hd.trans (ih _ _ _ hd.kempt x hx)
            · cases hx; exact hd

theorem aged_purge {g : EventConfig} {A : RuleActs} {mode : PurgeMode} {now : Int} {fuel : Nat} {T : RouteTable} {ares : Flags} (h : Kempt T)
    {x : RouteTable × Flags × Except Err Unit} (hx : stalePurge g A mode now fuel T ares = some x) : Aged T x.1 := by
  unfold stalePurge at hx
  split at hx
  · cases hx; exact .refl h
  · split at hx
    · cases hx; exact .refl h
    · split at hx
      · cases hx
      · rename_i T' a' n hp
        cases hx
        exact aged_purgeLoop fuel T ares 0 h _ hp

/-! ### The verdict -/

theorem same_flags20 (r : Route) (s c : Flags) (hs : ∀ k, k ≠ 20 → s.getLsbD k = false) (hc : ∀ k, k ≠ 20 → c.getLsbD k = false) (now : Except Err Int) (a : Flags)
    {x : Route × Flags × Flags × Flags} (h : updateFlags r s c now a = .ok x) : SameRule r x.1 := by
  unfold updateFlags at h
  split at h
  · cases h
  · split at h
    · cases h
    · split at h
      · cases h
      · cases h
        refine ⟨rfl, rfl, rfl, rfl, rfl, rfl, fun k h20 _ => ?_, fun h => h⟩
        show (Flags.setClear r.flags s c).getLsbD k = _
        unfold Flags.setClear
        simp only [BitVec.getLsbD_and, BitVec.getLsbD_or, BitVec.getLsbD_not, hs k h20, hc k h20]
        by_cases hk : k < 32
        · simp [hk]
        · simp [hk, BitVec.getLsbD_of_ge _ _ (Nat.le_of_not_lt hk)]

theorem same_box (clk : Except Err Int) (s c : Flags) (hs : ∀ k, k ≠ 20 → s.getLsbD k = false) (hc : ∀ k, k ≠ 20 → c.getLsbD k = false) (r : Route) (cached a : Flags) :
    SameRule r (boxUpdate clk s c r cached a).1 := by
  unfold boxUpdate
  split
  · rename_i x h; exact same_flags20 r s c hs hc clk a h
  · exact .refl r

theorem zero_bits : ∀ k, k ≠ 20 → (0 : Flags).getLsbD k = false := fun _ _ => BitVec.getLsbD_zero
theorem box_bits : ∀ k, k ≠ 20 → RF.PENALTYBOXED.getLsbD k = false := by
  intro k hk
  show (bit 20).getLsbD k = false
  rw [bit_getLsbD 20 k (by decide)]
  simpa using Ne.symm hk

theorem same_unbox (c : EventConfig) (now : Int) (clk : Except Err Int) (r : Route) (cached a : Flags) : SameRule r (unbox c now clk r cached a).1 := by
  unfold unbox
  simp only
  have h1 : SameRule r (unboxCommendable c clk r cached a).1 := by
    unfold unboxCommendable
    split
    · exact same_box clk _ _ zero_bits box_bits r cached a
    · exact .refl r
  refine h1.trans ?_
  unfold unboxElapsed
  split
  · exact same_box clk _ _ zero_bits box_bits _ _ _
  · exact .refl _

theorem same_judge (c : EventConfig) (pol : Flags) (clk : Except Err Int) (r : Route) (cached a : Flags) : SameRule r (judge c pol clk r cached a).1 := by
  unfold judge
  split
  · exact .refl r
  · split
    · split
      · rename_i x h
        have := same_flags20 r _ _ box_bits zero_bits clk a h
        exact this.trans (same_data x.1 _ (fun h => h))
      · exact .refl r
    · split
      · exact .refl r
      · split <;> exact .refl r

theorem same_count (c : EventConfig) (cached : Flags) (r : Route) (a : Flags) : SameRule r (countHit c cached r a).1 := by
  unfold countHit
  have hd : (countDerogatory r.data a).purgeAfter = r.data.purgeAfter := by unfold countDerogatory; split <;> rfl
  split
  · exact .refl r
  · simp only
    split
    · exact same_data r _ (fun h => hd.trans h)
    · rename_i d2 h2
      refine same_data r _ (fun h => ?_)
      have e2 : d2.purgeAfter = (countDerogatory r.data a).purgeAfter := by
        unfold countConnection at h2
        split at h2
        · cases h2; rfl
        · split at h2
          · split at h2
            · cases h2
            · simp only at h2
              split at h2
              · cases h2
              · cases h2; rfl
          · split at h2 <;> cases h2 <;> rfl
      have e3 : (countCommendable c d2 a).purgeAfter = d2.purgeAfter := by unfold countCommendable; split <;> rfl
      rw [e3, e2, hd, h]

theorem same_decide (c : EventConfig) (pol : Flags) (now : Int) (clk : Except Err Int) (cached : Flags) (r : Route) (a : Flags) :
    SameRule r (decideRule c pol now clk cached r a).1 := by
  unfold decideRule
  simp only
  have h1 := same_count c cached r a
  split
  · exact h1
  · exact h1.trans ((same_unbox c now clk _ cached _).trans (same_judge c pol clk _ _ _))

theorem same_hit (r : Route) : SameRule r (incrementHitcount r) := by
  unfold incrementHitcount
  repeat' split
  all_goals first
    | exact .refl r
    | exact ⟨rfl, rfl, rfl, rfl, rfl, rfl, fun _ _ _ => rfl, fun h => h⟩
    | (refine ⟨rfl, rfl, rfl, rfl, rfl, rfl, fun k h20 h22 => ?_, fun h => h⟩
       show (r.flags ||| bit 22).getLsbD k = _
       rw [getLsbD_or_bit _ _ _ (by decide)]
       simp [Ne.symm h22])

theorem same_stamp (clk : Except Err Int) (r : Route) : SameRule r (stampHit clk r) := by
  unfold stampHit
  split
  · exact same_data r _ (fun h => h)
  · exact .refl r

/-! ### Dispatches -/

variable {σ : Type}

theorem aged_put {w : World σ} (h : Kempt w.T) {ref : RuleRef} {r r' : Route} (hr : w.get ref = some r) (hs : SameRule r r') : Aged w.T (w.put ref r').T := by
  cases ref with
  | entry i => exact aged_update h (get?_some hr).1 hs
  | ephemeral => exact .refl h
  | fallthrough => exact .refl h

theorem aged_same {a b : World σ} (h : Kempt a.T) (hs : SameRules a b) : Aged a.T b.T := by
  rw [hs.1]; exact .refl h

theorem aged_arrive {E : DispEnv σ} {idle : Int} {ref : RuleRef} {w : World σ} {a : Flags} (hk : Kempt w.T) {x : World σ × Flags}
    (h : E.arrive idle ref w a = some x) : Aged w.T x.1.T := by
  unfold DispEnv.arrive at h
  cases hr : w.get ref with
  | none => rw [hr] at h; cases h
  | some r =>
    rw [hr] at h
    simp only at h
    have h1 := aged_put hk hr (same_stamp E.clock r)
    have hg := put_get hr (same_stamp E.clock r).id
    generalize w.put ref (stampHit E.clock r) = w1 at h h1 hg
    have h2 : Aged w1.T (E.refresh idle ref (stampHit E.clock r) w1).T := by
      unfold DispEnv.refresh
      split
      · split
        · exact aged_hit h1.kempt (get?_some hg).1 _ _
        · exact .refl h1.kempt
      · exact .refl h1.kempt
    have h12 := h1.trans h2
    generalize E.refresh idle ref (stampHit E.clock r) w1 = w2 at h h12
    cases hp : E.purge w2 with
    | none => rw [hp] at h; cases h
    | some w3 =>
      rw [hp] at h
      cases h
      refine h12.trans ?_
      unfold DispEnv.purge at hp
      split at hp
      · split at hp
        · cases hs : stalePurge E.g E.purgeActs .opportunistic _ 1 w2.T 0 with
          | none => rw [hs] at hp; cases hp
          | some y => rw [hs] at hp; cases hp; exact aged_purge h12.kempt hs
        · cases hp; exact .refl h12.kempt
      · cases hp; exact .refl h12.kempt

theorem aged_prelude {E : DispEnv σ} (hE : Observing E) {trigger : Option Event} {ref : RuleRef} {w : World σ} {a : Flags} (hk : Kempt w.T)
    {c : EventConfig} {v : Verge σ} (h : E.prelude trigger ref w a = some (c, v)) : Aged w.T v.w.T := by
  unfold DispEnv.prelude at h
  cases hr : w.get ref with
  | none => rw [hr] at h; cases h
  | some r =>
    rw [hr] at h
    simp only at h
    cases ha : E.arrive (configOf E.g (r.event.or w.T.defaultEvent)).routeIdleTimeForPurge ref w a with
    | none => rw [ha] at h; cases h
    | some y =>
      obtain ⟨w1, a1⟩ := y
      rw [ha] at h
      simp only at h
      have f1 := aged_arrive hk ha
      have hpost := runList_obs hE ref .post (by decide) (by decide) trigger w1 a1
      generalize E.runList trigger .post ref w1 a1 = po at h hpost
      obtain ⟨w2, a2, ran⟩ := po
      simp only at h hpost
      have f2 : Aged w.T w2.T := f1.trans (aged_same f1.kempt hpost.1)
      split at h
      · cases h
      · rename_i rc hrc
        generalize hsw : (!rc.flags.hasAll RF.IN_TABLE && w2.T.fallthroughRoute.isSome) = sw at h
        generalize hw3 : (if sw = true then ({ w2 with fall := incrementHitcount w2.fall } : World σ) else w2) = w3 at h
        have hc3 : w3.T = w2.T := by subst hw3; split <;> rfl
        generalize href : (if sw = true then RuleRef.fallthrough else ref) = ref2 at h
        generalize (if sw = true then w2.T.defaultEvent else r.event.or w.T.defaultEvent) = ev at h
        generalize (if sw = true then _ else _) = a4 at h
        have hm := runList_obs hE ref2 .match_ (by decide) (by decide) ev w3 a4
        generalize E.runList ev .match_ ref2 w3 a4 = m at h hm
        obtain ⟨w4, a5, ran2⟩ := m
        simp only at h hm
        have f4 : Aged w.T w4.T := by rw [hm.1.1, hc3]; exact f2
        split at h
        · split at h
          · cases h
          · cases h; exact f4
        · cases h; exact f4

theorem aged_dispatch0 {E : DispEnv σ} (hE : Observing E) {trigger : Option Event} {target : Route} {ref : RuleRef} {w : World σ} {a : Flags} (hk : Kempt w.T)
    {x : World σ × Flags × Except Err Unit} (h : E.dispatch0 trigger target ref w a = some x) : Aged w.T x.1.T := by
  unfold DispEnv.dispatch0 at h
  split at h
  · cases h; exact .refl hk
  · cases hp : E.prelude trigger ref w a with
    | none => rw [hp] at h; cases h
    | some y =>
      obtain ⟨c, v⟩ := y
      rw [hp] at h
      simp only at h
      have f1 := aged_prelude hE hk hp
      cases hg : v.w.get v.ref with
      | none => rw [hg] at h; cases h
      | some r =>
        rw [hg] at h
        cases h
        have hc := conclude_obs hE v.event v.ref
          (v.w.put v.ref (decideRule c v.w.T.defaultPolicy (clockNow E.clock) E.boxClock v.cached r v.ares).1)
          (decideRule c v.w.T.defaultPolicy (clockNow E.clock) E.boxClock v.cached r v.ares).2
        have fput := aged_put f1.kempt hg (same_decide c v.w.T.defaultPolicy (clockNow E.clock) E.boxClock v.cached r v.ares)
        show Aged w.T (E.conclude v.event v.ref _ _).1.T
        rw [hc.1.1]
        exact f1.trans fput

/-- A call of a dispatch function ages the table. -/
theorem aged_run {q : Ask σ} (hE : Observing q.env) {w w1 : World σ} {rep : Reply} (hk : Kempt w.T) (h : q.run w = some (w1, rep)) : Aged w.T w1.T := by
  cases q with
  | traffic E resolve remote loc flags label a fuel =>
    unfold Ask.run at h
    simp only at h
    cases hd : E.dispatch1 resolve w remote loc flags label a fuel with
    | none => rw [hd] at h; cases h
    | some d =>
      rw [hd] at h
      simp only [Option.map_some, Option.some.injEq, Prod.mk.injEq] at h
      obtain ⟨hw, _⟩ := h
      subst hw
      unfold DispEnv.dispatch1 at hd
      split at hd
      · cases hd; exact .refl hk
      · split at hd
        · cases hd; exact .refl hk
        · rename_i t ht
          split at hd
          · cases hd
          · rename_i r inx hl
            simp only at hd
            have hr := (lookup_sound w.T (some a) t fuel r inx hl).1
            have h1 := aged_update hk hr (same_hit r)
            split at hd
            · cases hd
            · rename_i w2 a2 res hd0
              split at hd
              · cases hd
              · cases hd
                exact h1.trans (aged_dispatch0 (w := { w with T := w.T.update (incrementHitcount r) }) hE h1.kempt hd0)
          · simp only at hd
            split at hd
            · split at hd
              · cases hd
              · rename_i w2 a2 res hd0
                cases hd
                have hk' : Kempt ({ w with eph := { inexactTarget t with event := (inexactTarget t).event.or w.T.defaultEvent } } : World σ).T := hk
                exact aged_dispatch0 hE hk' hd0
            · cases hd; exact .refl hk
  | rule E resolve id label a =>
    unfold Ask.run at h
    simp only at h
    cases hd : E.dispatchById resolve w id label a with
    | none => rw [hd] at h; cases h
    | some x =>
      obtain ⟨w2, a2, res⟩ := x
      rw [hd] at h
      simp only [Option.map_some, Option.some.injEq, Prod.mk.injEq] at h
      obtain ⟨hw, _⟩ := h
      subst hw
      unfold DispEnv.dispatchById at hd
      simp only at hd
      split at hd
      · cases hd; exact .refl hk
      · split at hd
        · cases hd; exact .refl hk
        · exact aged_dispatch0 hE hk hd

/-- A history ages the table. -/
theorem aged_runs {g : EventConfig} {h : List (Visit σ)} : ∀ {w w' : World σ}, Kempt w.T → Fair g h → Runs w h w' → Aged w.T w'.T := by
  induction h with
  | nil => intro w w' hk _ hr; cases hr; exact .refl hk
  | cons v h ih =>
    rintro w w' hk hF ⟨_, w1, h1, h2⟩
    have a1 := aged_run (hF v (List.mem_cons_self ..)).1 hk h1
    exact a1.trans (ih a1.kempt (fun u hu => hF u (List.mem_cons_of_mem _ hu)) h2)

end WS.Ot
