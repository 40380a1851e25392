import Verif.Props.Dispatch
import Verif.Props.Lookup
/-
C20-C23 for the calls a user makes: dispatch by addresses and dispatch by rule ID, the paths without a
rule, and concrete dispatches.
-/
namespace WS.Props
open WS Spec

theorem reported_eq (a : Flags) : lookupAres a = reported a := by
  unfold lookupAres reported
  have hx : a.hasAll AR.EXCLUDE_REJECT_ROUTES = (a.getLsbD 4 && a.getLsbD 5) := by
    have e : ∀ k, k < 32 → AR.EXCLUDE_REJECT_ROUTES.getLsbD k = (decide (4 = k) || decide (5 = k)) := by
      intro k hk
      show (bit 4 ||| bit 5).getLsbD k = _
      rw [BitVec.getLsbD_or, bit_getLsbD _ _ (by decide), bit_getLsbD _ _ (by decide)]
    rw [Bool.eq_iff_iff]
    unfold Flags.hasAll
    rw [beq_iff_eq]
    constructor
    · intro h
      have h4 := congrArg (fun x => BitVec.getLsbD x 4) h
      have h5 := congrArg (fun x => BitVec.getLsbD x 5) h
      simp only [BitVec.getLsbD_and, e 4 (by decide), e 5 (by decide)] at h4 h5
      simp at h4 h5
      simp [h4, h5]
    · intro h
      simp only [Bool.and_eq_true] at h
      refine BitVec.eq_of_getLsbD_eq (fun k hk => ?_)
      rw [BitVec.getLsbD_and, e k hk]
      by_cases k4 : 4 = k
      · subst k4; simp [h.1]
      · by_cases k5 : 5 = k
        · subst k5; simp [h.2]
        · simp [k4, k5]
  rw [hx]
  by_cases h : a.getLsbD 4 = true ∧ a.getLsbD 5 = true
  · rw [if_pos (by simp only [Bool.and_eq_true]; exact h), if_pos h]; rfl
  · rw [if_neg (by simp only [Bool.and_eq_true]; exact h), if_neg h]

/-- Counting the hit changes nothing the verdict depends on. -/
def HitAlike (r r1 : Route) : Prop :=
  r1.id = r.id ∧ r1.event = r.event ∧ (∀ k, k ≠ 22 → r1.flags.getLsbD k = r.flags.getLsbD k) ∧
  r1.data = { r.data with hitcount := r1.data.hitcount }

/-- C19: a rule found by dispatch counts the hit (unless told not to); at the 32-bit maximum it
keeps its count and stops counting, so the count never wraps or leaves its range. -/
theorem C19_rule_hits (r : Route) (hr : r.data.hitcount ≤ 4294967295) :
    (incrementHitcount r).data.hitcount =
      (if r.flags.has RF.DONT_COUNT_HITS then r.data.hitcount else min (r.data.hitcount + 1) 4294967295) ∧
    ((incrementHitcount r).flags = r.flags ∨
      r.data.hitcount = 4294967295 ∧ (incrementHitcount r).flags = r.flags ||| RF.DONT_COUNT_HITS) := by
  unfold incrementHitcount
  split
  · exact ⟨rfl, .inl rfl⟩
  · split
    · refine ⟨?_, .inl rfl⟩
      simp only; omega
    · refine ⟨?_, .inr ⟨by omega, rfl⟩⟩
      simp only; omega

example : (incrementHitcount { data := { hitcount := 4294967295 } }).data.hitcount = 4294967295 := by decide


theorem hitAlike_inc (r : Route) : HitAlike r (incrementHitcount r) := by
  unfold incrementHitcount
  split
  · exact ⟨rfl, rfl, fun _ _ => rfl, rfl⟩
  split
  · exact ⟨rfl, rfl, fun _ _ => rfl, rfl⟩
  · refine ⟨rfl, rfl, fun k hk => ?_, rfl⟩
    show (r.flags ||| bit 22).getLsbD k = _
    rw [getLsbD_or_bit _ _ _ (by decide)]
    have : ¬ 22 = k := fun h => hk h.symm
    simp [this]

theorem hitAres_bit (r : Route) (a : Flags) (k : Nat) (hk : k ≠ 11) : (hitAres r a).getLsbD k = a.getLsbD k := by
  unfold hitAres
  split
  · rw [show AR.UPDATE = bit 11 from rfl, getLsbD_or_bit _ _ _ (by decide)]
    have : ¬ 11 = k := fun h => hk h.symm
    simp [this]
  · rfl

/-- What a dispatch by addresses does once the lookup has found a rule. -/
theorem dispatch1_found {σ : Type} {E : DispEnv σ} {resolve : List Byte → Except Err Event} {w : World σ} {remote loc : SockAddr}
    {flags : Flags} {label : Option (List Byte)} {a : Flags} {fuel : Nat} {res : DispRes σ} {r : Route} {inx : Flags}
    {trig : Option Event} {target : Route} (hin : (w.T.ents.map (·.id)).Nodup) (hr : r ∈ w.T.ents)
    (htrig : triggerOf resolve flags label = .ok trig)
    (htgt : routeInit trig remote loc flags = .ok target)
    (hlk : lookup w.T target false (some a) fuel = some (.ok (r, inx)))
    (hret : res.ret = .ok .ok)
    (h : E.dispatch1 resolve w remote loc flags label a fuel = some res) :
    ∃ w1 r1 a1, w1.get (.entry r.id) = some r1 ∧ HitAlike r r1 ∧ SameSettings w.T w1.T ∧
      (∀ k, k ≠ 11 → a1.getLsbD k = (reported a).getLsbD k) ∧
      E.dispatch0 (trig.or w.T.defaultEvent) target (.entry r.id) w1 a1 = some (res.w, res.ares, .ok ()) := by
  unfold DispEnv.dispatch1 at h
  simp only [htrig, htgt, hlk] at h
  cases hd : E.dispatch0 (trig.or w.T.defaultEvent) target (.entry r.id) { w with T := w.T.update (incrementHitcount r) }
      (hitAres r (lookupAres a)) with
  | none => rw [hd] at h; cases h
  | some x =>
    obtain ⟨w2, a2, rs⟩ := x
    rw [hd] at h
    simp only at h
    cases hg : w2.get (.entry r.id) with
    | none => rw [hg] at h; cases h
    | some r' =>
      rw [hg] at h
      simp only [Option.some.injEq] at h
      subst h
      simp only at hret ⊢
      cases rs with
      | error e => simp at hret
      | ok u =>
        refine ⟨{ w with T := w.T.update (incrementHitcount r) }, incrementHitcount r, _, ?_, hitAlike_inc r, ⟨rfl, rfl, rfl⟩, fun k hk => ?_, hd⟩
        · exact get?_update w.T r _ r.id (get?_mem hin hr) (hitAlike_inc r).1
        · rw [hitAres_bit _ _ _ hk, reported_eq]

/-- Same results as far as the verdict is concerned. -/
def AlikeRes (a b : Flags) : Prop := ∀ k, k ≠ 11 → k < 32 → a.getLsbD k = b.getLsbD k

theorem AlikeRes.starting {a b : Flags} (h : AlikeRes a b) (c : EventConfig) (clk : Except Err Int) :
    AlikeRes (starting c clk a) (starting c clk b) := by
  intro k hk hk2
  rw [starting_bits _ _ _ _ hk2, starting_bits _ _ _ _ hk2]
  unfold configured; rw [h k hk hk2]

theorem charged_alike {a b : Flags} (h : AlikeRes a b) : Charged a ↔ Charged b := by
  unfold Charged; rw [h 8 (by decide) (by decide), h 10 (by decide) (by decide)]

theorem overLimit_alike {c : EventConfig} {r r1 : Route} (ht : HitAlike r r1) {a b : Flags} (h : AlikeRes a b) :
    OverLimit c r1 a ↔ OverLimit c r b := by
  unfold OverLimit
  rw [charged_alike h, ht.2.2.1 23 (by decide), h 2 (by decide) (by decide), ht.2.2.2]

theorem boxElapsed_alike {c : EventConfig} {now : Int} {r r1 : Route} (ht : HitAlike r r1) :
    BoxElapsed c now r1 ↔ BoxElapsed c now r := by
  unfold BoxElapsed; rw [ht.2.2.2]

theorem boxHeld_alike {c : EventConfig} {now : Int} {r r1 : Route} (ht : HitAlike r r1) {a b : Flags} (h : AlikeRes a b) :
    BoxHeld c now r1 a ↔ BoxHeld c now r b := by
  unfold BoxHeld
  rw [ht.2.2.1 20 (by decide), h 5 (by decide) (by decide), boxElapsed_alike ht]

theorem reaches_alike {c : EventConfig} {r r1 : Route} (ht : HitAlike r r1) {a b : Flags} (h : AlikeRes a b) :
    ReachesThreshold c r1 a ↔ ReachesThreshold c r b := by
  have e1 : derogatoryNow c r1 a = derogatoryNow c r b := by
    unfold derogatoryNow
    simp only [charged_alike h, h 4 (by decide) (by decide), h 5 (by decide) (by decide)]
    rw [ht.2.2.2]
  have e2 : commendableNow r1 a = commendableNow r b := by
    unfold commendableNow
    simp only [charged_alike h, h 5 (by decide) (by decide)]
    rw [ht.2.2.2]
  unfold ReachesThreshold
  rw [e1, e2]

theorem configFor_alike {σ : Type} {E : DispEnv σ} {w w1 : World σ} {r r1 : Route} (ht : HitAlike r r1) (hs : SameSettings w.T w1.T) :
    configFor E w1 r1 = configFor E w r := by
  unfold configFor; rw [ht.2.1, hs.2.1]

/-- C20, C21, C22, C23 for a dispatch by addresses whose lookup found the rule `r` of the table: one
statement with all the verdicts.  Handlers only observe. -/
theorem C23_dispatch_by_addresses {σ : Type} {E : DispEnv σ} (hE : Observing E) {resolve : List Byte → Except Err Event} {w : World σ}
    {remote loc : SockAddr} {flags : Flags} {label : Option (List Byte)} {a : Flags} {fuel : Nat} {res : DispRes σ} {r : Route} {inx : Flags}
    {trig : Option Event} {target : Route} (hin : (w.T.ents.map (·.id)).Nodup) (hr : r ∈ w.T.ents) (h14 : r.flags.getLsbD 14 = true)
    (htrig : triggerOf resolve flags label = .ok trig)
    (htgt : routeInit trig remote loc flags = .ok target)
    (hlk : lookup w.T target false (some a) fuel = some (.ok (r, inx)))
    (hret : res.ret = .ok .ok)
    (h : E.dispatch1 resolve w remote loc flags label a fuel = some res) :
    let c := configFor E w r
    let s := starting c E.clock (reported a)
    -- C20, C22
    (BoxHeld c (clockNow E.clock) r s → res.ares.getLsbD 1 = true ∧ res.ares.getLsbD 0 = s.getLsbD 0) ∧
    -- C21
    (r.flags.getLsbD 20 = false → ¬ OverLimit c r s → ∃ r', res.w.T.get? r.id = some r' ∧
      (r'.flags.getLsbD 20 = true ↔ ReachesThreshold c r s) ∧ (r'.flags.getLsbD 20 = true → res.ares.getLsbD 1 = true)) ∧
    -- C22
    (r.flags.getLsbD 20 = false → ¬ OverLimit c r s → ¬ ReachesThreshold c r s → r.flags.getLsbD 21 = true →
      res.ares.getLsbD 0 = true ∧ res.ares.getLsbD 1 = s.getLsbD 1) ∧
    -- C23
    (r.flags.getLsbD 20 = false → ¬ OverLimit c r s → ¬ ReachesThreshold c r s → r.flags.getLsbD 21 = false →
      s.getLsbD 0 = false → s.getLsbD 1 = false →
      res.ares.getLsbD 10 = true ∧ res.ares.getLsbD 0 = w.T.defaultPolicy.getLsbD 0 ∧ res.ares.getLsbD 1 = w.T.defaultPolicy.getLsbD 1) := by
  intro c s
  obtain ⟨w1, r1, a1, hg, hal, hset, ha, hd⟩ := dispatch1_found hin hr htrig htgt hlk hret h
  have hc : configFor E w1 r1 = c := configFor_alike hal hset
  have hs : AlikeRes (starting (configFor E w1 r1) E.clock a1) s := by
    rw [hc]; exact AlikeRes.starting (fun k hk _ => ha k hk) c E.clock
  have hi1 : r1.flags.getLsbD 14 = true ∨ w1.T.fallthroughRoute = none := .inl (by rw [hal.2.2.1 14 (by decide)]; exact h14)
  have f20 := hal.2.2.1 20 (by decide)
  have f21 := hal.2.2.1 21 (by decide)
  have hbh : BoxHeld (configFor E w1 r1) (clockNow E.clock) r1 (starting (configFor E w1 r1) E.clock a1) ↔ BoxHeld c (clockNow E.clock) r s := by
    rw [boxHeld_alike hal hs, hc]
  have hol : OverLimit (configFor E w1 r1) r1 (starting (configFor E w1 r1) E.clock a1) ↔ OverLimit c r s := by
    rw [overLimit_alike hal hs, hc]
  have hre : ReachesThreshold (configFor E w1 r1) r1 (starting (configFor E w1 r1) E.clock a1) ↔ ReachesThreshold c r s := by
    rw [reaches_alike hal hs, hc]
  refine ⟨fun hb => ?_, fun hb hl => ?_, fun hb hl ht hgl => ?_, fun hb hl ht hgl h0 h1 => ?_⟩
  · have := C20_boxed_rejects_partial hE hg hi1 (hbh.2 hb) hd
    exact ⟨this.1, this.2.1.trans (hs 0 (by decide) (by decide))⟩
  · obtain ⟨r', e1, e2, e3, _⟩ := C21_threshold_boxes_partial hE hg hi1 (f20.trans hb) (fun hx => hl (hol.1 hx)) hd
    exact ⟨r', e1, e2.trans hre, fun hx => (e3 hx).1⟩
  · have := C22_greenlisted_accepts hE hg hi1 (f21.trans hgl) (f20.trans hb) (fun hx => hl (hol.1 hx)) (fun hx => ht (hre.1 hx)) hd
    exact ⟨this.1, this.2.1.trans (hs 1 (by decide) (by decide))⟩
  · have := (C23_no_verdict_default_policy hE hg hi1 (f21.trans hgl) (f20.trans hb) (fun hx => hl (hol.1 hx)) (fun hx => ht (hre.1 hx))
      ((hs 0 (by decide) (by decide)).trans h0) ((hs 1 (by decide) (by decide)).trans h1) hd).1
    have hp := hset.1
    refine ⟨?_, ?_, ?_⟩
    · rw [this 10 (by decide) (by decide)]; simp
    · rw [this 0 (by decide) (by decide), hs 0 (by decide) (by decide), h0, hp]; simp
    · rw [this 1 (by decide) (by decide), hs 1 (by decide) (by decide), h1, hp]; simp

/-- C23, no rule: when the lookup finds nothing and the event in force has no post actions, the results are
the caller's plus the default policy and FALLTHROUGH, the call reports USED_FALLBACK and changes nothing. -/
theorem C23_no_rule_default_policy {σ : Type} {E : DispEnv σ} {resolve : List Byte → Except Err Event} {w : World σ}
    {remote loc : SockAddr} {flags : Flags} {label : Option (List Byte)} {a : Flags} {fuel : Nat} {res : DispRes σ}
    {trig : Option Event} {target : Route} {e : Err}
    (htrig : triggerOf resolve flags label = .ok trig)
    (htgt : routeInit trig remote loc flags = .ok target)
    (hlk : lookup w.T target false (some a) fuel = some (.error e))
    (hpost : ∀ x, trig.or w.T.defaultEvent = some x → x.postActions = [])
    (h : E.dispatch1 resolve w remote loc flags label a fuel = some res) :
    res.ret = .ok .usedFallback ∧ res.w = w ∧ res.id = 0 ∧
    ∀ k, res.ares.getLsbD k = ((reported a).getLsbD k || w.T.defaultPolicy.getLsbD k || decide (10 = k)) := by
  unfold DispEnv.dispatch1 at h
  simp only [htrig, htgt, hlk] at h
  have hp : hasPostActions (trig.or w.T.defaultEvent) = false := by
    cases hx : trig.or w.T.defaultEvent with
    | none => rfl
    | some x => simp [hasPostActions, hpost x hx]
  rw [hp] at h
  simp only [Bool.false_eq_true, if_false, Option.some.injEq] at h
  subst h
  refine ⟨rfl, rfl, rfl, fun k => ?_⟩
  show (lookupAres a ||| (w.T.defaultPolicy ||| bit 10)).getLsbD k = _
  rw [reported_eq, BitVec.getLsbD_or, getLsbD_or_bit _ _ _ (by decide), Bool.or_assoc]

/-- C23, finding: arguments that do not make a rule (for instance flags without a direction) are
not refused: the dispatch reports success with the default policy, which may be ACCEPT. -/
theorem C23_invalid_arguments_use_fallback {σ : Type} {E : DispEnv σ} {resolve : List Byte → Except Err Event} {w : World σ}
    {remote loc : SockAddr} {flags : Flags} {label : Option (List Byte)} {a : Flags} {fuel : Nat} {trig : Option Event} {e : Err}
    (htrig : triggerOf resolve flags label = .ok trig)
    (hbad : routeInit trig remote loc flags = .error e) :
    ∃ res, E.dispatch1 resolve w remote loc flags label a fuel = some res ∧ res.ret = .ok .usedFallback ∧
      ∀ k, res.ares.getLsbD k = (a.getLsbD k || w.T.defaultPolicy.getLsbD k || decide (10 = k)) := by
  refine ⟨useFallback w a, ?_, rfl, fun k => ?_⟩
  · unfold DispEnv.dispatch1; simp only [htrig, hbad]
  · show (a ||| (w.T.defaultPolicy ||| bit 10)).getLsbD k = _
    rw [BitVec.getLsbD_or, getLsbD_or_bit _ _ _ (by decide), Bool.or_assoc]

/-- Results passed in by the caller may not contain a verdict. -/
theorem C23_inited_result_checked {σ : Type} (E : DispEnv σ) (resolve : List Byte → Except Err Event) (w : World σ) (remote loc : SockAddr)
    (flags : Flags) (label : Option (List Byte)) (a : Flags) (fuel : Nat)
    (h : a.getLsbD 0 = true ∨ a.getLsbD 1 = true) :
    E.dispatchInited resolve w remote loc flags label a fuel = some { w := w, ares := a, ret := .error .invalidArg } := by
  unfold DispEnv.dispatchInited
  have : initedResultOK a = false := by
    unfold initedResultOK
    rw [has_mask_or, has_mask_or, has_mask_or, has_mask_or, has_of_bit (m := AR.ACCEPT) (k := 0) rfl (by decide),
      has_of_bit (m := AR.REJECT) (k := 1) rfl (by decide)]
    rcases h with h | h <;> rw [h] <;> simp
  rw [this]; rfl

/-- C23, finding: dispatch by ID on a rule with a bitmask address always fails, because the rule is its own
target. -/
theorem C23_by_id_refuses_bitmask_rules {σ : Type} (E : DispEnv σ) (resolve : List Byte → Except Err Event) (w : World σ) (r : Route) (a : Flags)
    (hr : w.T.get? r.id = some r) (hb : r.flags.getLsbD 12 = true ∨ r.flags.getLsbD 13 = true) :
    E.dispatchById resolve w r.id none a = some (w, a, .error .invalidArg) := by
  unfold DispEnv.dispatchById DispEnv.dispatch0
  simp only [hr]
  rw [if_pos]
  rw [has_mask_or, has_of_bit (m := RF.REMOTE_ADDR_BITMASK) (k := 12) rfl (by decide), has_of_bit (m := RF.LOCAL_ADDR_BITMASK) (k := 13) rfl (by decide)]
  rcases hb with h | h <;> rw [h] <;> simp

/-! ## Concrete dispatches: the hypotheses above are met, and where the properties stop -/

/-- No actions do anything; the time is 1000. -/
def envQuiet : DispEnv Unit := { g := { penaltyboxDuration := 50, derogatoryThreshold := 2, maxConnectionCount := 1 }, clock := .ok 1000, boxClock := .ok 1000,
                                 handler := fun _ _ _ w a => (w, a, none) }

theorem envQuiet_observing : Observing envQuiet := fun _ _ _ _ _ => ⟨rfl, rfl, rfl, fun _ _ => rfl⟩
theorem envQuiet_leavesBox (ref : RuleRef) : LeavesBox envQuiet ref :=
  fun _ _ _ _ => ⟨fun r' h => ⟨r', h, rfl, rfl, rfl⟩, rfl, fun _ h => h⟩

/-- A rule with the given extra flag bits, and a world with only that rule and default policy ACCEPT. -/
def ruleF (f : Flags) (d : RouteMeta) : Route := { ruleA with id := 1, flags := bit 10 ||| bit 14 ||| f, data := d }
def worldF (f : Flags) (d : RouteMeta) : World Unit := { T := { ents := [ruleF f d], highestPriority := 0, defaultPolicy := bit 0 }, ext := () }

/-- Bits of the results and boxing of rule 1 after a dispatch by ID. -/
def outcome (E : DispEnv Unit) (w : World Unit) (a : Flags) : Option (Bool × Bool × Bool × Option Bool) :=
  (E.dispatchById (fun _ => .error .itemNotFound) w 1 none a).map (fun x =>
    (x.2.1.getLsbD 0, x.2.1.getLsbD 1, x.2.1.getLsbD 10, (x.1.T.get? 1).map (fun r => r.flags.getLsbD 20)))

/-- Boxed at 980, duration 50: rejected, stays boxed (`C20_boxed_rejects_partial`, `C20_any_handlers`). -/
example : BoxHeld envQuiet.g 1000 (ruleF (bit 20) { lastPenaltyboxTime := 980 }) 0 ∧
    outcome envQuiet (worldF (bit 20) { lastPenaltyboxTime := 980 }) 0 = some (false, true, false, some true) := by decide

/-- Boxed at 900: released, default policy applies (`C20_released_when_elapsed`). -/
example : BoxElapsed envQuiet.g 1000 (ruleF (bit 20) { lastPenaltyboxTime := 900 }) ∧
    outcome envQuiet (worldF (bit 20) { lastPenaltyboxTime := 900 }) 0 = some (true, false, true, some false) := by decide

/-- Second offence with threshold 2 boxes, the first does not (`C21_threshold_boxes_partial`). -/
example : outcome envQuiet (worldF 0 { derogatoryCount := 1 }) (bit 4) = some (false, true, false, some true) ∧
    outcome envQuiet (worldF 0 { derogatoryCount := 0 }) (bit 4) = some (true, false, true, some false) := by decide

/-- Greenlisted: accepted without fallthrough; greenlisted and boxed: rejected (`C22_*`). -/
example : outcome envQuiet (worldF (bit 21) {}) 0 = some (true, false, false, some false) ∧
    outcome envQuiet (worldF (bit 20 ||| bit 21) {}) 0 = some (false, true, false, some true) := by decide

/-- C20, finding: REJECT does not displace ACCEPT.  A configuration that adds ACCEPT to the results makes a
dispatch on a boxed rule end with both ACCEPT and REJECT. -/
theorem C20_accept_survives : ∃ (E : DispEnv Unit) (w : World Unit), Observing E ∧
    (∃ r, w.T.get? 1 = some r ∧ BoxHeld (configFor E w r) (clockNow E.clock) r (starting (configFor E w r) E.clock 0)) ∧
    outcome E w 0 = some (true, true, false, some true) :=
  ⟨{ envQuiet with g := { envQuiet.g with resBitsToAdd := bit 0 } }, worldF (bit 20) {}, fun _ _ _ _ _ => ⟨rfl, rfl, rfl, fun _ _ => rfl⟩,
    ⟨_, rfl, by decide⟩, by decide⟩

/-- C20, finding: an over-limit connection attempt on a rule whose box time is up does not release it. -/
theorem C20_over_limit_delays_release :
    BoxElapsed envQuiet.g 1000 (ruleF (bit 20) { lastPenaltyboxTime := 900, connectionCount := 1 }) ∧
    outcome envQuiet (worldF (bit 20) { lastPenaltyboxTime := 900, connectionCount := 1 }) (bit 2) = some (false, true, false, some true) := by decide

/-- C20, finding: commendable behaviour releases a boxed rule long before its time where it clears the
derogatory count. -/
theorem C20_commendable_releases_early :
    ¬ BoxElapsed envQuiet.g 1000 (ruleF (bit 20) { lastPenaltyboxTime := 999 }) ∧
    outcome { envQuiet with g := { envQuiet.g with flags := bit 1 } } (worldF (bit 20) { lastPenaltyboxTime := 999 }) (bit 5) =
      some (true, false, true, some false) := by decide

/-- C21, finding: an offence reported together with an over-limit connection is counted past the threshold
without boxing the rule. -/
theorem C21_over_limit_not_boxed :
    ReachesThreshold envQuiet.g (ruleF 0 { derogatoryCount := 5, connectionCount := 1 }) (bit 2 ||| bit 4) ∧
    outcome envQuiet (worldF 0 { derogatoryCount := 5, connectionCount := 1 }) (bit 2 ||| bit 4) = some (false, true, false, some false) := by decide

/-- A packet from 10.0.0.9 to port 443, no rule for it. -/
def pktRemote : SockAddr := { family := 2, proto := 6, ep := { port := 443, bits := 32, addr := [10, 0, 0, 9] } }
def pktLocal : SockAddr := { family := 2, proto := 6, ep := { port := 80, bits := 32, addr := [10, 0, 0, 1] } }

/-- Unmatched traffic in an empty table with default policy REJECT (`C23_no_rule_default_policy`). -/
example : ((envQuiet.dispatch (fun _ => .error .itemNotFound) { T := { defaultPolicy := bit 1 }, ext := () } pktRemote pktLocal (bit 10) none 5).map
    (fun x => (x.ares, decide (x.id = 0)))) = some (bit 1 ||| bit 10, true) := by decide

/-- Finding: flags of the wrong rule.  The default event has a post action (so unmatched traffic is evaluated)
and a fallthrough rule is set.  The traffic's own flags, passed by the caller, then decide: with GREENLISTED
among them the dispatch ends in ACCEPT although the fallthrough rule is not greenlisted and the default
policy is REJECT; without them it is REJECT. -/
def worldFall : World Unit :=
  { T := { defaultPolicy := bit 1, defaultEvent := some { label := [100], postActions := [7] }, fallthroughRoute := some 9 }, ext := () }
theorem C22_fallthrough_uses_traffic_flags :
    worldFall.fall.flags.getLsbD 21 = false ∧
    (envQuiet.dispatch (fun _ => .error .itemNotFound) worldFall pktRemote pktLocal (bit 10 ||| bit 21) none 5).map (fun x => (x.ares.getLsbD 0, x.ares.getLsbD 1)) =
      some (true, false) ∧
    (envQuiet.dispatch (fun _ => .error .itemNotFound) worldFall pktRemote pktLocal (bit 10) none 5).map (fun x => (x.ares.getLsbD 0, x.ares.getLsbD 1)) =
      some (false, true) := by
  refine ⟨by decide, by decide, by decide⟩

/-- Invalid arguments (no direction) are reported as success with ACCEPT
(`C23_invalid_arguments_use_fallback`). -/
example : routeInit none pktRemote pktLocal 0 = .error .invalidArg ∧
    (envQuiet.dispatch (fun _ => .error .itemNotFound) { T := { defaultPolicy := bit 0 }, ext := () } pktRemote pktLocal 0 none 5).map
      (fun x => x.ares.getLsbD 0) = some true := by decide

end WS.Props
