import Verif.Spec.Offender
import Verif.Proof.Lwip3
/-
Proofs about histories of dispatches (C87).
-/
namespace WS.Off
open WS WS.Spec WS.Spec.Off WS.Props WS.Lwip

variable {σ : Type}

/-! ### Settings of the table and the made-up rule's ID -/

/-- The settings of the table and the ID of the made-up rule are as before. -/
def Calm (w w' : World σ) : Prop := SameSettings w.T w'.T ∧ w'.eph.id = w.eph.id

theorem Calm.refl (w : World σ) : Calm w w := ⟨⟨rfl, rfl, rfl⟩, rfl⟩

theorem Calm.trans {a b c : World σ} (h : Calm a b) (h' : Calm b c) : Calm a c :=
  ⟨⟨h'.1.1.trans h.1.1, h'.1.2.1.trans h.1.2.1, h'.1.2.2.trans h.1.2.2⟩, h'.2.trans h.2⟩

theorem Calm.of_same {a b : World σ} (h : SameRules a b) : Calm a b := by
  obtain ⟨h1, h2, _⟩ := h
  refine ⟨?_, by rw [h2]⟩
  rw [h1]; exact ⟨rfl, rfl, rfl⟩

theorem put_calm (w : World σ) (ref : RuleRef) (r : Route) (h : ref = .ephemeral → r.id = w.eph.id) : Calm w (w.put ref r) := by
  cases ref with
  | entry i => exact ⟨⟨rfl, rfl, rfl⟩, rfl⟩
  | ephemeral => exact ⟨⟨rfl, rfl, rfl⟩, h rfl⟩
  | fallthrough => exact ⟨⟨rfl, rfl, rfl⟩, rfl⟩

theorem arrive_calm {E : DispEnv σ} {idle : Int} {ref : RuleRef} {w : World σ} {a : Flags} {x : World σ × Flags}
    (h : E.arrive idle ref w a = some x) : Calm w x.1 := by
  unfold DispEnv.arrive at h
  cases hr : w.get ref with
  | none => rw [hr] at h; cases h
  | some r =>
    rw [hr] at h
    simp only at h
    have hst := stampHit_touched E.clock r
    cases hp : E.purge (E.refresh idle ref (stampHit E.clock r) (w.put ref (stampHit E.clock r))) with
    | none => rw [hp] at h; cases h
    | some w2 =>
      rw [hp] at h
      cases h
      have h1 := put_calm w ref (stampHit E.clock r) (fun he => by subst he; cases hr; exact hst.2)
      have h2 := refresh_spec E idle ref (stampHit E.clock r) (w.put ref (stampHit E.clock r)) (put_get hr hst.2)
      have h3 := purge_spec hp
      exact (h1.trans ⟨h2.2.1, by rw [h2.2.2.2]⟩).trans ⟨h3.2.1, by rw [h3.2.2.2]⟩

theorem prelude_calm {E : DispEnv σ} (hE : Observing E) {trigger : Option Event} {ref : RuleRef} {w : World σ} {a : Flags}
    {c : EventConfig} {v : Verge σ} (h : E.prelude trigger ref w a = some (c, v)) : Calm w v.w ∧ (v.ref = ref ∨ v.ref = .fallthrough) := by
  refine ⟨?_, (prelude_frame hE h).2⟩
  unfold DispEnv.prelude at h
  cases hr : w.get ref with
  | none => rw [hr] at h; cases h
  | some r =>
    rw [hr] at h
    simp only at h
    cases ha : E.arrive (configOf E.g (r.event.or w.T.defaultEvent)).routeIdleTimeForPurge ref w a with
    | none => rw [ha] at h; cases h
    | some y =>
      obtain ⟨w1, a1⟩ := y
      rw [ha] at h
      simp only at h
      have f1 := arrive_calm ha
      have hpost := runList_obs hE ref .post (by decide) (by decide) trigger w1 a1
      generalize E.runList trigger .post ref w1 a1 = po at h hpost
      obtain ⟨w2, a2, ran⟩ := po
      simp only at h hpost
      have f2 : Calm w w2 := f1.trans (Calm.of_same hpost.1)
      split at h
      · cases h
      · rename_i rc hrc
        generalize hsw : (!rc.flags.hasAll RF.IN_TABLE && w2.T.fallthroughRoute.isSome) = sw at h
        generalize hw3 : (if sw = true then ({ w2 with fall := incrementHitcount w2.fall } : World σ) else w2) = w3 at h
        have hc3 : Calm w2 w3 := by subst hw3; split <;> exact ⟨⟨rfl, rfl, rfl⟩, rfl⟩
        generalize href : (if sw = true then RuleRef.fallthrough else ref) = ref2 at h
        generalize (if sw = true then w2.T.defaultEvent else r.event.or w.T.defaultEvent) = ev at h
        generalize (if sw = true then _ else _) = a4 at h
        have hm := runList_obs hE ref2 .match_ (by decide) (by decide) ev w3 a4
        generalize E.runList ev .match_ ref2 w3 a4 = m at h hm
        obtain ⟨w4, a5, ran2⟩ := m
        simp only at h hm
        have f4 : Calm w w4 := (f2.trans hc3).trans (Calm.of_same hm.1)
        split at h
        · split at h
          · cases h
          · cases h; exact f4
        · cases h; exact f4

theorem dispatch0_calm {E : DispEnv σ} (hE : Observing E) {trigger : Option Event} {target : Route} {ref : RuleRef} {w : World σ}
    {a : Flags} {x : World σ × Flags × Except Err Unit} (h : E.dispatch0 trigger target ref w a = some x) : Calm w x.1 := by
  unfold DispEnv.dispatch0 at h
  split at h
  · cases h; exact Calm.refl _
  · cases hp : E.prelude trigger ref w a with
    | none => rw [hp] at h; cases h
    | some y =>
      obtain ⟨c, v⟩ := y
      rw [hp] at h
      simp only at h
      obtain ⟨f1, hrf⟩ := prelude_calm hE hp
      cases hg : v.w.get v.ref with
      | none => rw [hg] at h; cases h
      | some r =>
        rw [hg] at h
        cases h
        have hc := conclude_obs hE v.event v.ref
          (v.w.put v.ref (decideRule c v.w.T.defaultPolicy (clockNow E.clock) E.boxClock v.cached r v.ares).1)
          (decideRule c v.w.T.defaultPolicy (clockNow E.clock) E.boxClock v.cached r v.ares).2
        have fput := put_calm v.w v.ref (decideRule c v.w.T.defaultPolicy (clockNow E.clock) E.boxClock v.cached r v.ares).1
          (fun he => by rw [decideRule_id]; rw [he] at hg; cases hg; rfl)
        exact (f1.trans fput).trans (Calm.of_same hc.1)

/-! ### One verdict -/

/-- The verdict on a rule, in the terms of the specification. -/
structure Judged (c : EventConfig) (pol : Flags) (now : Int) (clk : Except Err Int) (r : Route) (s : Flags) (r' : Route) (a' : Flags) : Prop where
  refused : OverLimit c r s → r'.flags.getLsbD 20 = r.flags.getLsbD 20 ∧ r'.data.lastPenaltyboxTime = r.data.lastPenaltyboxTime ∧ a'.getLsbD 1 = true
  held : ¬ OverLimit c r s → BoxHeld c now r s → r'.flags.getLsbD 20 = true ∧ r'.data.lastPenaltyboxTime = r.data.lastPenaltyboxTime ∧
    recordOf r' = (recordOf r).add c s ∧ a'.getLsbD 1 = true
  guilty : ¬ OverLimit c r s → ¬ BoxHeld c now r s → Guilty c ((recordOf r).add c s) → r'.flags.getLsbD 20 = true ∧
    recordOf r' = ⟨0, 0⟩ ∧ (∀ t, clk = .ok t → r'.data.lastPenaltyboxTime = t) ∧ a'.getLsbD 1 = true
  clean : ¬ OverLimit c r s → ¬ BoxHeld c now r s → ¬ Guilty c ((recordOf r).add c s) → r'.flags.getLsbD 20 = false ∧
    r'.data.lastPenaltyboxTime = r.data.lastPenaltyboxTime ∧ recordOf r' = (recordOf r).add c s ∧ (a'.getLsbD 1 = true ↔ PlainReject pol r s)
  refusedRecord : OverLimit c r s → recordOf r' = ⟨if s.getLsbD 4 = true then bump (recordOf r).bad else (recordOf r).bad, (recordOf r).good⟩
  connections : r'.data.connectionCount = if OverLimit c r s then r.data.connectionCount else connectionsNow r s

theorem add_eq (c : EventConfig) (r : Route) (s : Flags) : (recordOf r).add c s = ⟨derogatoryNow c r s, commendableNow r s⟩ := by
  unfold Tally.add recordOf derogatoryNow commendableNow
  by_cases h : Charged s
  · simp only [h, not_true, if_false, true_and]
  · simp only [h, not_false_eq_true, if_true, false_and, if_false]

theorem guilty_iff (c : EventConfig) (r : Route) (s : Flags) : Guilty c ((recordOf r).add c s) ↔ ReachesThreshold c r s := by
  rw [add_eq]; exact Iff.rfl

theorem decideRule_judged (c : EventConfig) (pol : Flags) (now : Int) (clk : Except Err Int) (r : Route) (a : Flags) :
    Judged c pol now clk r a (decideRule c pol now clk r.flags r a).1 (decideRule c pol now clk r.flags r a).2 := by
  obtain ⟨d1, d2, d3, d4⟩ := decideRule_spec c pol now clk r a
  refine ⟨fun h => ?_, fun h1 h2 => ?_, fun h1 h2 h3 => ?_, fun h1 h2 h3 => ?_, fun h => by rw [(d1 h).1]; rfl, decideRule_conn c pol now clk r a⟩
  · obtain ⟨e1, e2⟩ := d1 h
    rw [e1, e2 1]
    exact ⟨rfl, rfl, by simp⟩
  · obtain ⟨e1, e2⟩ := d2 h1 h2
    rw [e1, e2 1]
    exact ⟨h2.1, rfl, by rw [add_eq]; rfl, by simp⟩
  · obtain ⟨e1, e2, e3, e4, e5⟩ := d3 h1 h2 ((guilty_iff _ _ _).1 h3)
    refine ⟨by rw [e1]; simp, ?_, e4, by rw [e5]; simp⟩
    unfold recordOf; rw [e2, e3]
  · obtain ⟨e1, e2, e3, e4, e5⟩ := d4 h1 h2 (fun h => h3 ((guilty_iff _ _ _).2 h))
    refine ⟨by rw [e2]; simp, by rw [e1]; rfl, by rw [e1, add_eq]; rfl, ?_⟩
    unfold PlainReject
    cases h21 : r.flags.getLsbD 21 with
    | true => rw [e3 h21 1]; simp
    | false =>
      cases h0 : a.getLsbD 0 with
      | true => rw [e4 h21 (.inl h0) 1]; simp
      | false =>
        cases h1 : a.getLsbD 1 with
        | true => rw [e4 h21 (.inr h1) 1]; simp [h1]
        | false => rw [e5 h21 h0 h1 1]; simp only [h1]; simp

/-- The verdict depends on little. -/
theorem Judged.congr {c : EventConfig} {pol : Flags} {now : Int} {clk : Except Err Int} {r1 r r' : Route} {s1 s a1 a' : Flags}
    (hj : Judged c pol now clk r1 s1 r' a1) (hf : ∀ k, k ≠ 22 → r1.flags.getLsbD k = r.flags.getLsbD k)
    (hrec : recordOf r1 = recordOf r) (hcc : r1.data.connectionCount = r.data.connectionCount)
    (hpt : r1.data.lastPenaltyboxTime = r.data.lastPenaltyboxTime)
    (hs : ∀ k, k ≠ 6 → k ≠ 11 → k < 32 → s1.getLsbD k = s.getLsbD k) (ha : a'.getLsbD 1 = a1.getLsbD 1) :
    Judged c pol now clk r s r' a' := by
  have hch : Charged s1 ↔ Charged s := by unfold Charged; rw [hs 8 (by decide) (by decide) (by decide), hs 10 (by decide) (by decide) (by decide)]
  have hov : OverLimit c r1 s1 ↔ OverLimit c r s := by
    unfold OverLimit; rw [hch, hf 23 (by decide), hs 2 (by decide) (by decide) (by decide), hcc]
  have hbe : BoxElapsed c now r1 ↔ BoxElapsed c now r := by unfold BoxElapsed; rw [hpt]
  have hbh : BoxHeld c now r1 s1 ↔ BoxHeld c now r s := by
    unfold BoxHeld; rw [hf 20 (by decide), hbe, hs 5 (by decide) (by decide) (by decide)]
  have hadd : (recordOf r1).add c s1 = (recordOf r).add c s := by
    rw [hrec]; unfold Tally.add
    simp only [hch, hs 5 (by decide) (by decide) (by decide), hs 4 (by decide) (by decide) (by decide)]
  have hpl : PlainReject pol r1 s1 ↔ PlainReject pol r s := by
    unfold PlainReject
    rw [hs 1 (by decide) (by decide) (by decide), hf 21 (by decide), hs 0 (by decide) (by decide) (by decide)]
  obtain ⟨j1, j2, j3, j4, j5, j6⟩ := hj
  rw [hov, hrec, hs 4 (by decide) (by decide) (by decide)] at j5
  have hcn : connectionsNow r1 s1 = connectionsNow r s := by
    unfold connectionsNow
    simp only [hch, hf 23 (by decide), hs 2 (by decide) (by decide) (by decide), hs 3 (by decide) (by decide) (by decide), hcc]
  simp only [hov, hcc, hcn] at j6
  rw [hov, hf 20 (by decide), hpt, ← ha] at j1
  rw [hov, hbh, hpt, hadd, ← ha] at j2
  rw [hov, hbh, hadd, ← ha] at j3
  rw [hov, hbh, hpt, hadd, ← ha, hpl] at j4
  exact ⟨j1, j2, j3, j4, j5, j6⟩

theorem updateFlags_event {r : Route} {s c : Flags} {now : Except Err Int} {a : Flags} {x : Route × Flags × Flags × Flags}
    (h : updateFlags r s c now a = .ok x) : x.1.event = r.event := by
  unfold updateFlags at h
  split at h
  · cases h
  split at h
  · cases h
  split at h
  · cases h
  cases h
  rfl

theorem boxUpdate_event (clk : Except Err Int) (s c : Flags) (r : Route) (cached a : Flags) : (boxUpdate clk s c r cached a).1.event = r.event := by
  unfold boxUpdate
  cases h : updateFlags r s c clk a with
  | ok x => exact updateFlags_event h
  | error e => rfl

theorem decideRule_event (c : EventConfig) (pol : Flags) (now : Int) (clk : Except Err Int) (f : Flags) (r : Route) (a : Flags) :
    (decideRule c pol now clk f r a).1.event = r.event := by
  have h1 : (countHit c f r a).1.event = r.event := by
    unfold countHit
    split
    · rfl
    · simp only
      split <;> rfl
  have h2 : ∀ (r : Route) (f a : Flags), (unbox c now clk r f a).1.event = r.event := by
    intro r f a
    have e1 : (unboxCommendable c clk r f a).1.event = r.event := by
      unfold unboxCommendable
      split
      · exact boxUpdate_event _ _ _ _ _ _
      · rfl
    unfold unbox unboxElapsed
    simp only
    split
    · rw [boxUpdate_event]; exact e1
    · exact e1
  have h3 : ∀ (r : Route) (f a : Flags), (judge c pol clk r f a).1.event = r.event := by
    intro r f a
    unfold judge
    split
    · rfl
    split
    · cases h : updateFlags r RF.PENALTYBOXED 0 clk a with
      | ok x => exact updateFlags_event h
      | error e => rfl
    split
    · rfl
    split <;> rfl
  unfold decideRule
  simp only
  split
  · exact h1
  · rw [h3, h2]; exact h1

/-- A dispatch on a rule of the table. -/
theorem dispatch0_judged {E : DispEnv σ} (hE : Observing E) {trigger : Option Event} {target : Route} {id : Nat} {w : World σ} {a : Flags}
    {w' : World σ} {a' : Flags} {r : Route} (hr : w.T.get? id = some r) (h14 : r.flags.getLsbD 14 = true)
    (h : E.dispatch0 trigger target (.entry id) w a = some (w', a', .ok ())) :
    ∃ r', w'.T.get? id = some r' ∧ r'.event = r.event ∧ (∀ k, k ≠ 20 → r'.flags.getLsbD k = r.flags.getLsbD k) ∧
      Judged (configFor E w r) w.T.defaultPolicy (clockNow E.clock) E.boxClock r (starting (configFor E w r) E.clock a) r' a' := by
  obtain ⟨r1, a1, ht, hs, hw, ha⟩ := dispatch0_full hE (ref := .entry id) hr (.inl h14) h
  have hj := decideRule_judged (configOf E.g (r.event.or w.T.defaultEvent)) w.T.defaultPolicy (clockNow E.clock) E.boxClock r1 a1
  refine ⟨_, hw, ?_, fun k hk => ?_, hj.congr (fun k _ => by rw [ht]) (by rw [ht]; rfl) (by rw [ht]) (by rw [ht]) (fun k h6 _ h32 => hs k h6 h32)
    (ha 1 (by decide))⟩
  · rw [decideRule_event, ht]
  · rw [decideRule_flag _ _ _ _ _ _ _ hk, ht]

/-! ### One call -/

/-- A failing inner dispatch has done nothing. -/
theorem dispatch0_error {E : DispEnv σ} {trigger : Option Event} {target : Route} {ref : RuleRef} {w w' : World σ} {a a' : Flags} {e : Err}
    (h : E.dispatch0 trigger target ref w a = some (w', a', .error e)) : w' = w := by
  unfold DispEnv.dispatch0 at h
  split at h
  · cases h; rfl
  · split at h
    · cases h
    · split at h
      · cases h
      · cases h

theorem proper_of_frame {w w' : World σ} {ref : RuleRef} (hP : Proper w) (hf : Frame ref w w')
    (h : ∀ i r', ref = .entry i → w'.T.get? i = some r' → r'.flags.getLsbD 14 = true) : Proper w' := by
  refine ⟨hf.2.nodup hP.ids, fun r hr => ?_⟩
  have hn := hf.2.nodup hP.ids
  have hg := get?_mem hn hr
  by_cases he : ref = .entry r.id
  · exact h _ _ he hg
  · rcases hf.1 r.id he with e | e
    · rw [e] at hg; cases hg
    · rw [e] at hg; exact hP.inTable r (get?_some hg).1

theorem gone_of_frame {w w' : World σ} {ref : RuleRef} (hf : Frame ref w w') {X : Nat} (h : w.T.get? X = none) : w'.T.get? X = none := by
  cases hg : w'.T.get? X with
  | none => rfl
  | some r =>
    obtain ⟨hm, hid⟩ := get?_some hg
    have : X ∈ w.T.ents.map (·.id) := hf.2.subset (hid ▸ List.mem_map_of_mem hm)
    obtain ⟨y, hy, hyid⟩ := List.mem_map.1 this
    exact absurd hyid (get?_none h y hy)

/-- What one call does to the rule `X`. -/
structure Stepped (q : Ask σ) (w w1 : World σ) (rep : Reply) (X : Nat) : Prop where
  proper : Proper w1
  settings : SameSettings w.T w1.T
  gone : w.T.get? X = none → w1.T.get? X = none ∧ rep.about ≠ X
  other : ∀ r, w.T.get? X = some r → rep.about ≠ X → w1.T.get? X = none ∨ ∃ r', w1.T.get? X = some r' ∧ HitAlike r r'
  judged : ∀ r, w.T.get? X = some r → rep.about = X → ∃ r', w1.T.get? X = some r' ∧ r'.event = r.event ∧
    (∀ k, k ≠ 20 → k ≠ 22 → r'.flags.getLsbD k = r.flags.getLsbD k) ∧
    Judged (configFor q.env w r) w.T.defaultPolicy (clockNow q.env.clock) q.env.boxClock r (starting (configFor q.env w r) q.env.clock q.says) r' rep.ares

theorem Stepped.idle {q : Ask σ} {w : World σ} {rep : Reply} {X : Nat} (hP : Proper w) (hX : X ≠ 0) (h : rep.about = 0) : Stepped q w w rep X :=
  ⟨hP, ⟨rfl, rfl, rfl⟩, fun h' => ⟨h', fun hc => hX (hc.symm.trans h)⟩, fun r hr _ => .inr ⟨r, hr, rfl, rfl, fun _ _ => rfl, rfl⟩,
    fun r _ hc => absurd (hc.symm.trans h) hX⟩

theorem hitAlike_refl (r : Route) : HitAlike r r := ⟨rfl, rfl, fun _ _ => rfl, rfl⟩

theorem routeInit_id {ev : Option Event} {remote loc : SockAddr} {flags : Flags} {t : Route} (h : routeInit ev remote loc flags = .ok t) : t.id = 0 := by
  rcases routeInit_cases ev remote loc flags with ⟨_, e⟩ | ⟨_, _, e⟩ | ⟨_, _, e⟩
  · rw [e] at h; cases h; rfl
  · rw [e] at h; cases h
  · rw [e] at h; cases h

/-- A call on traffic for which the lookup found the rule `r0`. -/
theorem found_step {E : DispEnv σ} (hE : Observing E) {resolve : List Byte → Except Err Event} {remote loc : SockAddr} {flags : Flags}
    {label : Option (List Byte)} {a : Flags} {fuel : Nat} {w : World σ} (hP : Proper w) {X : Nat} (hX : X ≠ 0) {r0 : Route} (hr0 : r0 ∈ w.T.ents)
    {trig : Option Event} {t : Route} {w2 : World σ} {a2 : Flags} {res : Except Err Unit}
    (hd : E.dispatch0 trig t (.entry r0.id) { w with T := w.T.update (incrementHitcount r0) } (hitAres r0 (lookupAres a)) = some (w2, a2, res))
    {r2 : Route} (hg2 : w2.get (.entry r0.id) = some r2) {rep : Reply}
    (hok : ∀ u, res = .ok u → rep.ares = a2 ∧ rep.about = if r2.flags.hasAll RF.IN_TABLE then r2.id else 0)
    (herr : ∀ e, res = .error e → rep.about = 0) :
    Stepped (.traffic E resolve remote loc flags label a fuel) w w2 rep X := by
  have hg0 := get?_mem hP.ids hr0
  have hal := hitAlike_inc r0
  have hg1 : ({ w with T := w.T.update (incrementHitcount r0) } : World σ).T.get? r0.id = some (incrementHitcount r0) :=
    get?_update w.T r0 _ r0.id hg0 hal.1
  have f1 : Frame (.entry r0.id) w ({ w with T := w.T.update (incrementHitcount r0) }) :=
    put_frame w (.entry r0.id) (incrementHitcount r0) (fun id he => by cases he; exact hal.1)
  have h14 : (incrementHitcount r0).flags.getLsbD 14 = true := by rw [hal.2.2.1 14 (by decide)]; exact hP.inTable r0 hr0
  have f2 := f1.trans (dispatch0_frame hE hd)
  have c2 : SameSettings w.T w2.T := (dispatch0_calm hE hd).1
  have hid2 : r2.id = r0.id := (get?_some hg2).2
  cases res with
  | error e =>
    have hw := dispatch0_error hd
    subst hw
    have hr2 : r2 = incrementHitcount r0 := by
      have : some r2 = some (incrementHitcount r0) := hg2.symm.trans hg1
      cases this; rfl
    have h0 := herr e rfl
    refine ⟨proper_of_frame hP f2 (fun i r' he hg => ?_), c2, fun hn => ⟨gone_of_frame f2 hn, fun hc => hX (hc.symm.trans h0)⟩, fun r hr _ => ?_,
      fun r _ hc => absurd (hc.symm.trans h0) hX⟩
    · cases he; rw [hg1] at hg; cases hg; exact h14
    · by_cases he : X = r0.id
      · subst he
        rw [hg0] at hr; cases hr
        exact .inr ⟨_, hg1, hal⟩
      · rcases f2.1 X (fun hc => he (by cases hc; rfl)) with e | e
        · exact .inl e
        · rw [hr] at e; exact .inr ⟨r, e, hitAlike_refl r⟩
  | ok u =>
    obtain ⟨r', e1, e2, e3, e4⟩ := dispatch0_judged hE hg1 h14 hd
    have hr2 : r2 = r' := by
      have : some r2 = some r' := hg2.symm.trans e1
      cases this; rfl
    subst hr2
    have h14' : r2.flags.getLsbD 14 = true := by rw [e3 14 (by decide)]; exact h14
    have hall : r2.flags.hasAll RF.IN_TABLE = true := by
      rw [hasAll_of_bit (m := RF.IN_TABLE) (k := 14) rfl (by decide)]; exact h14'
    have hab : (if r2.flags.hasAll RF.IN_TABLE then r2.id else 0) = r0.id := by rw [hall, if_pos rfl, hid2]
    obtain ⟨hra, hrb⟩ := hok u rfl
    rw [hab] at hrb
    rw [← hra] at e4
    refine ⟨proper_of_frame hP f2 (fun i r' he hg => ?_), c2, fun hn => ⟨gone_of_frame f2 hn, fun hc => ?_⟩, fun r hr hne => ?_, fun r hr hc => ?_⟩
    · cases he
      have : some r' = some r2 := hg.symm.trans hg2
      cases this; exact h14'
    · rw [← hc, hrb, hg0] at hn; cases hn
    · rcases f2.1 X (fun hc => hne (by cases hc; exact hrb)) with e | e
      · exact .inl e
      · rw [hr] at e; exact .inr ⟨r, e, hitAlike_refl r⟩
    · have hx : r0.id = X := hrb.symm.trans hc
      subst hx
      rw [hg0] at hr; cases hr
      have hcf : configFor E ({ w with T := w.T.update (incrementHitcount r0) } : World σ) (incrementHitcount r0) = configFor E w r0 :=
        configFor_alike hal ⟨rfl, rfl, rfl⟩
      rw [hcf] at e4
      refine ⟨r2, e1, e2.trans hal.2.1, fun k h20 h22 => (e3 k h20).trans (hal.2.2.1 k h22), ?_⟩
      refine e4.congr hal.2.2.1 ?_ (by rw [hal.2.2.2]) (by rw [hal.2.2.2]) (fun k h6 h11 h32 => ?_) rfl
      · unfold recordOf; rw [hal.2.2.2]
      · show (starting _ _ _).getLsbD k = (starting _ _ _).getLsbD k
        have : AlikeRes (hitAres r0 (lookupAres a)) (reported a) := fun k hk _ => by rw [hitAres_bit _ _ _ hk, reported_eq]
        exact this.starting _ _ k h11 h32

theorem run_step {q : Ask σ} (hE : Observing q.env) {w w1 : World σ} {rep : Reply} (hP : Proper w) {X : Nat} (hX : X ≠ 0)
    (h : q.run w = some (w1, rep)) : Stepped q w w1 rep X := by
  cases q with
  | traffic E resolve remote loc flags label a fuel =>
    unfold Ask.run at h
    simp only at h
    cases hd : E.dispatch1 resolve w remote loc flags label a fuel with
    | none => rw [hd] at h; cases h
    | some d =>
      rw [hd] at h
      simp only [Option.map_some, Option.some.injEq, Prod.mk.injEq] at h
      obtain ⟨hw, hrep⟩ := h
      subst hw; subst hrep
      unfold DispEnv.dispatch1 at hd
      split at hd
      · cases hd; exact Stepped.idle hP hX rfl
      · rename_i trig htrig
        split at hd
        · cases hd; exact Stepped.idle hP hX rfl
        · rename_i t ht
          split at hd
          · cases hd
          · rename_i r inx hl
            simp only at hd
            split at hd
            · cases hd
            · rename_i w2 a2 res hd0
              split at hd
              · cases hd
              · rename_i r2 hg2
                cases hd
                refine found_step hE hP hX (lookup_sound w.T (some a) t fuel r inx hl).1 hd0 hg2 (fun u hu => ?_) (fun e he => ?_)
                · subst hu; exact ⟨rfl, rfl⟩
                · subst he; rfl
          · simp only at hd
            split at hd
            · split at hd
              · cases hd
              · rename_i w2 a2 res hd0
                cases hd
                have f2 := dispatch0_frame hE hd0
                have c2 := dispatch0_calm hE hd0
                have hid : w2.eph.id = 0 := by
                  rw [c2.2]
                  show t.id = 0
                  exact routeInit_id ht
                clear hd0
                generalize hrep : ({ ares := _, about := _ } : Reply) = rep
                have hab : rep.about = 0 := by
                  subst hrep
                  cases res with
                  | error e => rfl
                  | ok u => show (if _ then w2.eph.id else 0) = 0; rw [hid, ite_self]
                refine ⟨proper_of_frame (w := w) (ref := .ephemeral) hP f2 (fun i r' he _ => by cases he), c2.1, fun hn => ⟨gone_of_frame (w := w) (ref := .ephemeral) f2 hn, fun hc => hX (hc.symm.trans hab)⟩,
                  fun r hr _ => ?_, fun r _ hc => absurd (hc.symm.trans hab) hX⟩
                rcases f2.1 X (fun hc => by cases hc) with e | e
                · exact .inl e
                · exact .inr ⟨r, e.trans hr, hitAlike_refl r⟩
            · cases hd; exact Stepped.idle hP hX rfl
  | rule E resolve id label a =>
    unfold Ask.run at h
    simp only at h
    cases hd : E.dispatchById resolve w id label a with
    | none => rw [hd] at h; cases h
    | some x =>
      obtain ⟨w2, a2, res⟩ := x
      rw [hd] at h
      simp only [Option.map_some, Option.some.injEq, Prod.mk.injEq] at h
      obtain ⟨hw, hrep⟩ := h
      subst hw; subst hrep
      unfold DispEnv.dispatchById at hd
      simp only at hd
      split at hd
      · cases hd; exact Stepped.idle hP hX rfl
      · split at hd
        · cases hd; exact Stepped.idle hP hX rfl
        · rename_i r0 hg0
          have hm := get?_some hg0
          have f2 := dispatch0_frame hE hd
          have c2 := dispatch0_calm hE hd
          cases res with
          | error e => rw [dispatch0_error hd]; exact Stepped.idle hP hX rfl
          | ok u =>
            obtain ⟨r', e1, e2, e3, e4⟩ := dispatch0_judged hE hg0 (hP.inTable r0 hm.1) hd
            refine ⟨proper_of_frame hP f2 (fun i r'' he hg => ?_), c2.1, fun hn => ⟨gone_of_frame f2 hn, fun hc => ?_⟩, fun r hr hne => ?_, fun r hr hc => ?_⟩
            · cases he
              rw [e1] at hg; cases hg
              rw [e3 14 (by decide)]; exact hP.inTable r0 hm.1
            · simp only at hc; rw [← hc, hg0] at hn; cases hn
            · rcases f2.1 X (fun hc => hne (by cases hc; rfl)) with e | e
              · exact .inl e
              · exact .inr ⟨r, e.trans hr, hitAlike_refl r⟩
            · simp only at hc
              subst hc
              rw [hg0] at hr; cases hr
              exact ⟨r', e1, e2, fun k h20 _ => e3 k h20, e4⟩

end WS.Off
