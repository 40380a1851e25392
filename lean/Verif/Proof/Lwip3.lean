import Verif.Proof.Lwip2
/-
Proofs about the lwIP packet filter, continued: connection counts under dispatches with observing handlers.
-/
namespace WS.Lwip
open WS WS.Spec WS.Spec.Lwip WS.Props

theorem dispatch1_found_ret {σ : Type} {E : DispEnv σ} {resolve : List Byte → Except Err Event} {w : World σ} {remote loc : SockAddr} {f a : Flags}
    {fuel : Nat} {d : DispRes σ} {t r : Route} {inx : Flags} (ht : routeInit none remote loc f = .ok t)
    (hb : t.flags.has (RF.REMOTE_ADDR_BITMASK ||| RF.LOCAL_ADDR_BITMASK) = false)
    (hl : lookup w.T t false (some a) fuel = some (.ok (r, inx)))
    (h : E.dispatch1 resolve w remote loc f none a fuel = some d) : d.ret = .ok .ok := by
  unfold DispEnv.dispatch1 at h
  have htrig : triggerOf resolve f none = .ok none := rfl
  simp only [htrig, ht, hl] at h
  split at h
  · cases h
  · rename_i w2 a2 res hd
    split at h
    · cases h
    · cases h
      have := dispatch0_ret hb hd
      simp only at this
      subst this
      rfl

/-- The connection count after the verdict. -/
theorem decideRule_conn (c : EventConfig) (pol : Flags) (now : Int) (clk : Except Err Int) (r : Route) (a : Flags) :
    (decideRule c pol now clk r.flags r a).1.data.connectionCount =
      if OverLimit c r a then r.data.connectionCount else connectionsNow r a := by
  obtain ⟨k1, k2, k3⟩ := countHit_spec c r a
  by_cases hl : OverLimit c r a
  · rw [if_pos hl, ((decideRule_spec c pol now clk r a).1 hl).1]
  · rw [if_neg hl]
    have hcd : (countHit c r.flags r a).1 = counted c r a := by
      rw [k3]; unfold counted; simp only [if_neg hl]
    have hdd : (decideRule c pol now clk r.flags r a).1 =
        (judge c pol clk (unbox c now clk (counted c r a) (counted c r a).flags a).1
          (unbox c now clk (counted c r a) (counted c r a).flags a).2.1 (unbox c now clk (counted c r a) (counted c r a).flags a).2.2).1 := by
      unfold decideRule
      simp only [k1, decide_eq_false hl, Bool.false_eq_true, if_false, k2, if_neg hl, hcd]
      rfl
    rw [hdd, unbox_spec]
    split
    · simp only
      rw [judge_spec]
      repeat' split
      all_goals rfl
    · simp only
      rw [judge_spec]
      repeat' split
      all_goals rfl

theorem decideRule_flag (c : EventConfig) (pol : Flags) (now : Int) (clk : Except Err Int) (r : Route) (a : Flags) (k : Nat) (hk : k ≠ 20) :
    (decideRule c pol now clk r.flags r a).1.flags.getLsbD k = r.flags.getLsbD k := by
  have hk' : ¬ 20 = k := fun h => hk h.symm
  obtain ⟨d1, d2, d3, d4⟩ := decideRule_spec c pol now clk r a
  by_cases h1 : OverLimit c r a
  · rw [(d1 h1).1]
  · by_cases h2 : BoxHeld c now r a
    · rw [(d2 h1 h2).1]; rfl
    · by_cases h3 : ReachesThreshold c r a
      · rw [(d3 h1 h2 h3).1 k]; simp [hk']
      · rw [(d4 h1 h2 h3).2.1 k]; simp [hk']

/-! ### What is left alone -/

/-- Only this rule may have changed; others may be gone.  No rule has been added. -/
def Frame {σ : Type} (ref : RuleRef) (w w' : World σ) : Prop :=
  (∀ id, ref ≠ .entry id → w'.T.get? id = none ∨ w'.T.get? id = w.T.get? id) ∧
  (w'.T.ents.map (·.id)).Sublist (w.T.ents.map (·.id))

theorem Frame.refl {σ : Type} (ref : RuleRef) (w : World σ) : Frame ref w w := ⟨fun _ _ => .inr rfl, List.Sublist.refl _⟩

theorem Frame.trans {σ : Type} {ref : RuleRef} {a b c : World σ} (h : Frame ref a b) (h' : Frame ref b c) : Frame ref a c :=
  ⟨fun id hid => by
    rcases h'.1 id hid with e | e
    · exact .inl e
    · rw [e]; exact h.1 id hid, h'.2.trans h.2⟩

theorem Frame.of_sameT {σ : Type} {ref : RuleRef} {a b : World σ} (h : b.T = a.T) : Frame ref a b := by
  refine ⟨fun id _ => .inr (by rw [h]), by rw [h]; exact List.Sublist.refl _⟩

theorem update_ids (T : RouteTable) (r : Route) : (T.update r).ents.map (·.id) = T.ents.map (·.id) := by
  show (T.ents.map (fun x => if x.id = r.id then r else x)).map (·.id) = _
  rw [List.map_map]
  apply List.map_congr_left
  intro x _
  show (if x.id = r.id then r else x).id = x.id
  split
  · rename_i h; exact h.symm
  · rfl

theorem update_get_other (T : RouteTable) (r : Route) (id : Nat) (h : id ≠ r.id) : (T.update r).get? id = T.get? id := by
  show (T.ents.map (fun x => if x.id = r.id then r else x)).find? (fun x => x.id == id) = _
  rw [find?_map_id T.ents (fun x => if x.id = r.id then r else x) (by intro x _; split <;> simp_all) id]
  show (T.get? id).map _ = _
  cases hg : T.get? id with
  | none => rfl
  | some x =>
    have := (get?_some hg).2
    simp only [Option.map_some]
    rw [if_neg (by rw [this]; exact h)]

theorem put_frame {σ : Type} (w : World σ) (ref : RuleRef) (r : Route) (h : ∀ id, ref = .entry id → r.id = id) : Frame ref w (w.put ref r) := by
  cases ref with
  | entry i =>
    refine ⟨fun id hid => .inr ?_, ?_⟩
    · exact update_get_other w.T r id (fun hc => hid (by rw [hc, h i rfl]))
    · show ((w.T.update r).ents.map (·.id)).Sublist _
      rw [update_ids]; exact List.Sublist.refl _
  | ephemeral => exact Frame.of_sameT rfl
  | fallthrough => exact Frame.of_sameT rfl

theorem refresh_frame {σ : Type} (E : DispEnv σ) (idle : Int) (ref : RuleRef) (r : Route) (w : World σ)
    (h : ∀ id, ref = .entry id → r.id = id) : Frame ref w (E.refresh idle ref r w) := by
  unfold DispEnv.refresh
  cases ref with
  | entry i =>
    simp only
    split
    · unfold RouteTable.hitExpiry
      simp only
      split
      · have hput := put_frame w (.entry i) { r with data := { r.data with purgeAfter := r.data.lastHitTime + idle + 60000000 } } h
        split
        · exact hput
        · exact hput
      · exact Frame.of_sameT rfl
    · exact Frame.of_sameT rfl
  | ephemeral => exact Frame.of_sameT rfl
  | fallthrough => exact Frame.of_sameT rfl

theorem purge_frame {σ : Type} {E : DispEnv σ} {w w' : World σ} (h : E.purge w = some w') (ref : RuleRef) : Frame ref w w' := by
  unfold DispEnv.purge at h
  split at h
  · split at h
    · rename_i t _ _
      cases hp : stalePurge E.g E.purgeActs .opportunistic t 1 w.T 0 with
      | none => rw [hp] at h; cases h
      | some x =>
        rw [hp] at h
        cases h
        have hinv := stalePurge_inv (fun T : RouteTable => (∀ id, T.get? id = none ∨ T.get? id = w.T.get? id) ∧ (T.ents.map (fun x : Route => x.id)).Sublist (w.T.ents.map (fun x : Route => x.id)))
          (fun T y hT _ => ⟨fun id => by
            rw [get?_removeRule]
            split
            · exact .inl rfl
            · exact hT.1 id, ((List.filter_sublist (l := T.ents) (p := fun x : Route => x.id != y.id)).map (fun x : Route => x.id)).trans hT.2⟩)
          (T := w.T) ⟨fun id => .inr rfl, List.Sublist.refl _⟩ hp
        exact ⟨fun id _ => hinv.1 id, hinv.2⟩
    · cases h; exact Frame.refl _ _
  · cases h; exact Frame.refl _ _

theorem arrive_frame {σ : Type} {E : DispEnv σ} {idle : Int} {ref : RuleRef} {w : World σ} {a : Flags} {x : World σ × Flags}
    (h : E.arrive idle ref w a = some x) : Frame ref w x.1 := by
  unfold DispEnv.arrive at h
  cases hr : w.get ref with
  | none => rw [hr] at h; cases h
  | some r =>
    rw [hr] at h
    simp only at h
    have hid : ∀ id, ref = .entry id → (stampHit E.clock r).id = id := by
      intro id he
      rw [(stampHit_touched E.clock r).2]
      subst he
      exact (get?_some hr).2
    cases hp : E.purge (E.refresh idle ref (stampHit E.clock r) (w.put ref (stampHit E.clock r))) with
    | none => rw [hp] at h; cases h
    | some w2 =>
      rw [hp] at h
      cases h
      exact ((put_frame w ref _ hid).trans (refresh_frame E idle ref _ _ hid)).trans (purge_frame hp ref)

theorem prelude_frame {σ : Type} {E : DispEnv σ} (hE : Observing E) {trigger : Option Event} {ref : RuleRef} {w : World σ} {a : Flags}
    {c : EventConfig} {v : Verge σ} (h : E.prelude trigger ref w a = some (c, v)) : Frame ref w v.w ∧ (v.ref = ref ∨ v.ref = .fallthrough) := by
  unfold DispEnv.prelude at h
  cases hr : w.get ref with
  | none => rw [hr] at h; cases h
  | some r =>
    rw [hr] at h
    simp only at h
    cases ha : E.arrive (configOf E.g (r.event.or w.T.defaultEvent)).routeIdleTimeForPurge ref w a with
    | none => rw [ha] at h; cases h
    | some y =>
      obtain ⟨w1, a1⟩ := y
      rw [ha] at h
      simp only at h
      have f1 := arrive_frame ha
      have hpost := runList_obs hE ref .post (by decide) (by decide) trigger w1 a1
      generalize E.runList trigger .post ref w1 a1 = po at h hpost
      obtain ⟨w2, a2, ran⟩ := po
      simp only at h hpost
      have f2 : Frame ref w w2 := f1.trans (Frame.of_sameT hpost.1.1)
      split at h
      · cases h
      · rename_i rc hrc
        generalize hsw : (!rc.flags.hasAll RF.IN_TABLE && w2.T.fallthroughRoute.isSome) = sw at h
        generalize hw3 : (if sw = true then ({ w2 with fall := incrementHitcount w2.fall } : World σ) else w2) = w3 at h
        have hT3 : w3.T = w2.T := by subst hw3; split <;> rfl
        generalize href : (if sw = true then RuleRef.fallthrough else ref) = ref2 at h
        generalize (if sw = true then w2.T.defaultEvent else r.event.or w.T.defaultEvent) = ev at h
        generalize (if sw = true then _ else _) = a4 at h
        have hm := runList_obs hE ref2 .match_ (by decide) (by decide) ev w3 a4
        generalize E.runList ev .match_ ref2 w3 a4 = m at h hm
        obtain ⟨w4, a5, ran2⟩ := m
        simp only at h hm
        have f4 : Frame ref w w4 := f2.trans (Frame.of_sameT (hm.1.1.trans hT3))
        have hrf : ref2 = ref ∨ ref2 = .fallthrough := by subst href; split; exact .inr rfl; exact .inl rfl
        split at h
        · split at h
          · cases h
          · cases h; exact ⟨f4, hrf⟩
        · cases h; exact ⟨f4, hrf⟩

theorem dispatch0_frame {σ : Type} {E : DispEnv σ} (hE : Observing E) {trigger : Option Event} {target : Route} {ref : RuleRef} {w : World σ}
    {a : Flags} {x : World σ × Flags × Except Err Unit} (h : E.dispatch0 trigger target ref w a = some x) : Frame ref w x.1 := by
  unfold DispEnv.dispatch0 at h
  split at h
  · cases h; exact Frame.refl _ _
  · cases hp : E.prelude trigger ref w a with
    | none => rw [hp] at h; cases h
    | some y =>
      obtain ⟨c, v⟩ := y
      rw [hp] at h
      simp only at h
      obtain ⟨f1, hrf⟩ := prelude_frame hE hp
      cases hg : v.w.get v.ref with
      | none => rw [hg] at h; cases h
      | some r =>
        rw [hg] at h
        cases h
        have hc := conclude_obs hE v.event v.ref
          (v.w.put v.ref (decideRule c v.w.T.defaultPolicy (clockNow E.clock) E.boxClock v.cached r v.ares).1)
          (decideRule c v.w.T.defaultPolicy (clockNow E.clock) E.boxClock v.cached r v.ares).2
        have fput : Frame ref v.w (v.w.put v.ref (decideRule c v.w.T.defaultPolicy (clockNow E.clock) E.boxClock v.cached r v.ares).1) := by
          rcases hrf with e | e
          · rw [e]
            refine put_frame _ _ _ (fun id he => ?_)
            rw [decideRule_id]
            rw [e, he] at hg
            exact (get?_some hg).2
          · rw [e]; exact Frame.of_sameT rfl
        exact (f1.trans fput).trans (Frame.of_sameT hc.1.1)

/-- A dispatch by addresses: no rule is added; a rule not found by the lookup is as before or gone. -/
theorem dispatch1_frame {σ : Type} {E : DispEnv σ} (hE : Observing E) {resolve : List Byte → Except Err Event} {w : World σ} {remote loc : SockAddr}
    {f a : Flags} {label : Option (List Byte)} {fuel : Nat} {d : DispRes σ} (h : E.dispatch1 resolve w remote loc f label a fuel = some d) :
    (d.w.T.ents.map (·.id)).Sublist (w.T.ents.map (·.id)) ∧
    ∀ id, (∀ trig t r inx, triggerOf resolve f label = .ok trig → routeInit trig remote loc f = .ok t →
        lookup w.T t false (some a) fuel = some (.ok (r, inx)) → r.id ≠ id) →
      d.w.T.get? id = none ∨ d.w.T.get? id = w.T.get? id := by
  unfold DispEnv.dispatch1 at h
  split at h
  · cases h; exact ⟨List.Sublist.refl _, fun _ _ => .inr rfl⟩
  · rename_i trig htrig
    split at h
    · cases h; exact ⟨List.Sublist.refl _, fun _ _ => .inr rfl⟩
    · rename_i t ht
      split at h
      · cases h
      · rename_i r inx hl
        simp only at h
        split at h
        · cases h
        · rename_i w2 a2 res hd
          split at h
          · cases h
          · cases h
            have f1 : Frame (.entry r.id) w ({ w with T := w.T.update (incrementHitcount r) }) :=
              put_frame w (.entry r.id) (incrementHitcount r) (fun id he => by cases he; exact (hitAlike_inc r).1)
            have f2 := f1.trans (dispatch0_frame hE hd)
            refine ⟨f2.2, fun id hid => f2.1 id (fun he => ?_)⟩
            cases he
            exact hid trig t r inx htrig ht hl rfl
      · simp only at h
        split at h
        · split at h
          · cases h
          · rename_i w2 a2 res hd
            cases h
            have f2 := dispatch0_frame hE hd
            exact ⟨f2.2, fun id hid => f2.1 id (fun he => by cases he)⟩
        · cases h; exact ⟨List.Sublist.refl _, fun _ _ => .inr rfl⟩

/-- The rule found: its connection count and flags afterwards. -/
theorem dispatch1_conn {σ : Type} {E : DispEnv σ} (hE : Observing E) {resolve : List Byte → Except Err Event} {w : World σ} {remote loc : SockAddr}
    {f a : Flags} {fuel : Nat} {d : DispRes σ} {t r : Route} {inx : Flags} (hin : (w.T.ents.map (·.id)).Nodup) (hr : r ∈ w.T.ents)
    (h14 : r.flags.getLsbD 14 = true) (ht : routeInit none remote loc f = .ok t)
    (hb : t.flags.has (RF.REMOTE_ADDR_BITMASK ||| RF.LOCAL_ADDR_BITMASK) = false)
    (hl : lookup w.T t false (some a) fuel = some (.ok (r, inx)))
    (h : E.dispatch1 resolve w remote loc f none a fuel = some d) :
    ∃ r', d.w.T.get? r.id = some r' ∧
      (r'.data.connectionCount = if OverLimit (configFor E w r) r (starting (configFor E w r) E.clock (reported a)) then r.data.connectionCount
        else connectionsNow r (starting (configFor E w r) E.clock (reported a))) ∧
      ∀ k, k ≠ 20 → k ≠ 22 → r'.flags.getLsbD k = r.flags.getLsbD k := by
  obtain ⟨w1, r1, a1, hg, hal, hset, ha, hd⟩ := dispatch1_found hin hr rfl ht hl (dispatch1_found_ret ht hb hl h) h
  have hi1 : r1.flags.getLsbD 14 = true ∨ w1.T.fallthroughRoute = none := .inl (by rw [hal.2.2.1 14 (by decide)]; exact h14)
  obtain ⟨r2, a2, ht2, hs2, hg2, _⟩ := dispatch0_full hE hg hi1 hd
  have hc : configFor E w1 r1 = configFor E w r := configFor_alike hal hset
  refine ⟨_, hg2, ?_, fun k hk hk2 => ?_⟩
  · rw [decideRule_conn]
    have hcc : configOf E.g (r1.event.or w1.T.defaultEvent) = configFor E w r := hc
    rw [hcc]
    rw [hc] at hs2
    have hs : AlikeRes (starting (configFor E w r) E.clock a1) (starting (configFor E w r) E.clock (reported a)) :=
      AlikeRes.starting (fun k hk _ => ha k hk) _ E.clock
    have hov : OverLimit (configFor E w r) r2 a2 ↔ OverLimit (configFor E w r) r (starting (configFor E w r) E.clock (reported a)) :=
      (overLimit_congr ht2 hs2).trans (overLimit_alike hal hs)
    have hcn : connectionsNow r2 a2 = connectionsNow r (starting (configFor E w r) E.clock (reported a)) := by
      have e23 : r2.flags.getLsbD 23 = r.flags.getLsbD 23 := by rw [ht2]; exact hal.2.2.1 23 (by decide)
      have ecc : r2.data.connectionCount = r.data.connectionCount := by rw [ht2]; show r1.data.connectionCount = _; rw [hal.2.2.2]
      have ec : Charged a2 ↔ Charged (starting (configFor E w r) E.clock (reported a)) := (charged_congr hs2).trans (charged_alike hs)
      have e2 := (hs2 2 (by decide) (by decide)).trans (hs 2 (by decide) (by decide))
      have e3 := (hs2 3 (by decide) (by decide)).trans (hs 3 (by decide) (by decide))
      unfold connectionsNow
      rw [e23, ecc, e2, e3]
      by_cases hx : Charged (starting (configFor E w r) E.clock (reported a))
      · simp only [hx, ec.2 hx, true_and]
      · rw [if_neg (fun h => hx (ec.1 h.1)), if_neg (fun h => hx h.1)]
    have eco : r2.data.connectionCount = r.data.connectionCount := by rw [ht2]; show r1.data.connectionCount = _; rw [hal.2.2.2]
    by_cases ho : OverLimit (configFor E w r) r (starting (configFor E w r) E.clock (reported a))
    · rw [if_pos ho, if_pos (hov.2 ho), eco]
    · rw [if_neg ho, if_neg (fun h => ho (hov.1 h)), hcn]
  · rw [decideRule_flag _ _ _ _ _ _ _ hk, ht2]
    exact hal.2.2.1 k hk2

/-- The question determines flags and results. -/
theorem filter_question {σ : Type} (E : DispEnv σ) (resolve : List Byte → Except Err Event) (thr : Thr) {s : Sighting} {t : Route} {a : Flags}
    (w : World σ) (fuel : Nat) (hq : Question s t a) (hh : Has s.layer s.reason = true) (hp : Proper s) (hup : thr.up = true) :
    routeInit none (remoteOf s) (localOf s) t.flags = .ok t ∧
      t.flags.has (RF.REMOTE_ADDR_BITMASK ||| RF.LOCAL_ADDR_BITMASK) = false ∧
      filter E resolve true thr s.layer.ports (planOf s) w fuel =
        match E.dispatch1 resolve w (remoteOf s) (localOf s) t.flags none a fuel with
        | none => .stuck
        | some d => .ret d.w (if !thr.down then .mem else verdict s.layer.ports d.ret d.ares) := by
  obtain ⟨f, a', h1, h2, _, h4, h5, h6⟩ := filter_ask E resolve thr s w fuel hh hp hup
  have ef : t.flags = f := BitVec.eq_of_getLsbD_eq (fun k _ => by rw [Bool.eq_iff_iff, h1 k]; exact hq.2.1 k)
  have ea : a = a' := BitVec.eq_of_getLsbD_eq (fun k _ => by rw [Bool.eq_iff_iff, h2 k]; exact hq.2.2 k)
  subst ea
  rw [ef]
  refine ⟨?_, h5, h6⟩
  rw [h4, hq.1, ef]

theorem question_exists (s : Sighting) (hh : Has s.layer s.reason = true) (hp : Proper s) : ∃ t a, Question s t a := by
  obtain ⟨f, a, _, h2, h3, _⟩ := question_init s hh hp
  exact ⟨questionOf s f, a, rfl, h2, h3⟩

/-- A callback that returns after asking had a proper event. -/
theorem filter_ret_proper {σ : Type} {E : DispEnv σ} {resolve : List Byte → Except Err Event} {thr : Thr} {s : Sighting} {w w2 : World σ}
    {fuel : Nat} {e : ErrT} (hh : Has s.layer s.reason = true) (h : filter E resolve true thr s.layer.ports (planOf s) w fuel = .ret w2 e) : Proper s := by
  apply Classical.byContradiction
  intro hp
  rw [planOf_crash s hh hp] at h
  cases h

theorem bits_aux (g q s0 s1 s12 p p1 p12 o1 o12 : Bool) {P Q R : Prop} (hP : ¬ P) (hQ : ¬ Q) (hR : ¬ R)
    (e1 : g = true → o1 = (s1 || decide (0 = 1) || decide (11 = 1) && q || decide (12 = 1) && s1 && p) ∧
      o12 = (s12 || decide (0 = 12) || decide (11 = 12) && q || decide (12 = 12) && s1 && p))
    (e2 : g = false → s0 = true ∨ s1 = true → o1 = (s1 || decide (11 = 1) && q || decide (12 = 1) && s1 && p) ∧
      o12 = (s12 || decide (11 = 12) && q || decide (12 = 12) && s1 && p))
    (e3 : g = false → s0 = false → s1 = false →
      o1 = (s1 || decide (10 = 1) || p1 || decide (11 = 1) && q || decide (12 = 1) && p1 && p) ∧
      o12 = (s12 || decide (10 = 12) || p12 || decide (11 = 12) && q || decide (12 = 12) && p1 && p)) :
    (o1 = true ↔ P ∨ Q ∨ R ∨ s1 = true ∨ g = false ∧ s0 = false ∧ p1 = true) ∧
    (o12 = true ↔ (P ∨ Q ∨ R ∨ s1 = true ∨ g = false ∧ s0 = false ∧ p1 = true) ∧ p = true ∨ s12 = true ∨
      ¬ P ∧ ¬ Q ∧ ¬ R ∧ g = false ∧ s0 = false ∧ s1 = false ∧ p12 = true) := by
  simp only [hP, hQ, hR]
  cases g
  · by_cases h : s0 = true ∨ s1 = true
    · obtain ⟨a, b⟩ := e2 rfl h
      subst a; subst b
      clear e1 e2 e3
      rcases h with rfl | rfl <;> cases q <;> cases s12 <;> cases p <;> cases p1 <;> cases p12 <;> (first | cases s1 | cases s0) <;> decide
    · have h0 : s0 = false := by cases s0 <;> simp_all
      have h1 : s1 = false := by cases s1 <;> simp_all
      subst h0; subst h1
      obtain ⟨a, b⟩ := e3 rfl rfl rfl
      subst a; subst b
      clear e1 e2 e3 h
      cases q <;> cases s12 <;> cases p <;> cases p1 <;> cases p12 <;> decide
  · obtain ⟨a, b⟩ := e1 rfl
    subst a; subst b
    clear e1 e2 e3
    cases q <;> cases s0 <;> cases s1 <;> cases s12 <;> cases p <;> cases p1 <;> cases p12 <;> decide

/-- The two verdict bits of a dispatch decided by a rule. -/
theorem dispatch1_bits {σ : Type} {E : DispEnv σ} (hE : Observing E) {resolve : List Byte → Except Err Event} {w : World σ} {remote loc : SockAddr}
    {f a : Flags} {fuel : Nat} {d : DispRes σ} {t r : Route} {inx : Flags} (hin : (w.T.ents.map (·.id)).Nodup) (hr : r ∈ w.T.ents)
    (h14 : r.flags.getLsbD 14 = true) (ht : routeInit none remote loc f = .ok t)
    (hb : t.flags.has (RF.REMOTE_ADDR_BITMASK ||| RF.LOCAL_ADDR_BITMASK) = false)
    (hl : lookup w.T t false (some a) fuel = some (.ok (r, inx)))
    (h : E.dispatch1 resolve w remote loc f none a fuel = some d) :
    (d.ares.getLsbD 1 = true ↔ RuleRejects (configFor E w r) w.T.defaultPolicy (clockNow E.clock) r (starting (configFor E w r) E.clock (reported a))) ∧
    (d.ares.getLsbD 12 = true ↔ RuleResets (configFor E w r) w.T.defaultPolicy (clockNow E.clock) r (starting (configFor E w r) E.clock (reported a))) := by
  obtain ⟨w1, r1, a1, hg, hal, hset, ha, hd⟩ := dispatch1_found hin hr rfl ht hl (dispatch1_found_ret ht hb hl h) h
  have hi1 : r1.flags.getLsbD 14 = true ∨ w1.T.fallthroughRoute = none := .inl (by rw [hal.2.2.1 14 (by decide)]; exact h14)
  obtain ⟨r2, a2, ht2, hs2, hg2, hbits⟩ := dispatch0_full hE hg hi1 hd
  have hc : configFor E w1 r1 = configFor E w r := configFor_alike hal hset
  have hcc : configOf E.g (r1.event.or w1.T.defaultEvent) = configFor E w r := hc
  rw [hcc] at hbits
  rw [hset.1] at hbits
  rw [hc] at hs2
  have hs : AlikeRes (starting (configFor E w r) E.clock a1) (starting (configFor E w r) E.clock (reported a)) :=
    AlikeRes.starting (fun k hk _ => ha k hk) _ E.clock
  generalize starting (configFor E w r) E.clock (reported a) = st at hs ⊢
  have ho : OverLimit (configFor E w r) r2 a2 ↔ OverLimit (configFor E w r) r st := (overLimit_congr ht2 hs2).trans (overLimit_alike hal hs)
  have hx : BoxHeld (configFor E w r) (clockNow E.clock) r2 a2 ↔ BoxHeld (configFor E w r) (clockNow E.clock) r st :=
    (boxHeld_congr ht2 hs2).trans (boxHeld_alike hal hs)
  have hre : ReachesThreshold (configFor E w r) r2 a2 ↔ ReachesThreshold (configFor E w r) r st := (reaches_congr ht2 hs2).trans (reaches_alike hal hs)
  have eb : ∀ k, k ≠ 6 → k ≠ 11 → k < 32 → a2.getLsbD k = st.getLsbD k := fun k h1 h2 h3 => (hs2 k h1 h3).trans (hs k h2 h3)
  have b0 := eb 0 (by decide) (by decide) (by decide)
  have b1 := eb 1 (by decide) (by decide) (by decide)
  have b12 := eb 12 (by decide) (by decide) (by decide)
  have f21 : r2.flags.getLsbD 21 = r.flags.getLsbD 21 := by rw [ht2]; exact hal.2.2.1 21 (by decide)
  have f24 : r2.flags.getLsbD 24 = r.flags.getLsbD 24 := by rw [ht2]; exact hal.2.2.1 24 (by decide)
  rw [hbits 1 (by decide), hbits 12 (by decide)]
  generalize clockNow E.clock = now at *
  generalize configFor E w r = c at *
  obtain ⟨d1, d2, d3, d4⟩ := decideRule_spec c w.T.defaultPolicy now E.boxClock r2 a2
  unfold RuleResets RuleRejects
  by_cases h1 : OverLimit c r2 a2
  · rw [(d1 h1).2 1, (d1 h1).2 12, b12, f24]
    have h1' := ho.1 h1
    simp [h1']
    exact or_comm
  · have h1' : ¬ OverLimit c r st := fun h => h1 (ho.2 h)
    by_cases h2 : BoxHeld c now r2 a2
    · rw [(d2 h1 h2).2 1, (d2 h1 h2).2 12, b12, f24]
      have h2' := hx.1 h2
      simp [h2', h1']
      exact or_comm
    · have h2' : ¬ BoxHeld c now r st := fun h => h2 (hx.2 h)
      by_cases h3 : ReachesThreshold c r2 a2
      · have e := (d3 h1 h2 h3).2.2.2.2
        rw [e 1, e 12, b12, f24]
        have h3' := hre.1 h3
        simp [h3', h2', h1']
        exact or_comm
      · have h3' : ¬ ReachesThreshold c r st := fun h => h3 (hre.2 h)
        obtain ⟨_, _, e1, e2, e3⟩ := d4 h1 h2 h3
        rw [f21, f24] at e1 e2 e3
        rw [b0, b1] at e2 e3
        rw [b1] at e1
        have e1' : r.flags.getLsbD 21 = true → _ := fun h => And.intro (e1 h 1) (e1 h 12)
        have e2' : r.flags.getLsbD 21 = false → (st.getLsbD 0 = true ∨ st.getLsbD 1 = true) → _ := fun h h' => And.intro (e2 h h' 1) (e2 h h' 12)
        have e3' : r.flags.getLsbD 21 = false → st.getLsbD 0 = false → st.getLsbD 1 = false → _ := fun h h' h'' => And.intro (e3 h h' h'' 1) (e3 h h' h'' 12)
        rw [b1, b12] at e1' e2' e3'
        exact bits_aux _ _ _ _ _ _ _ _ _ _ h1' h2' h3' e1' e2' e3'

end WS.Lwip
