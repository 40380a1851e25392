import Verif.Proof.Restore1
import Verif.Props.InsertOk
import Verif.Proof.RoundTrip6
/-
C85: the call for one rule succeeds.
-/
namespace WS.Rs
open WS WS.Conf WS.LT WS.Ld WS.Spec WS.Spec.Load WS.Spec.Ld WS.Spec.Rs WS.Spec.Dump WS.Spec.RoundTrip

variable {issued : Nat → Nat → Prop} {old : List Nat} {H : Host}

theorem init_wf {e : Endpoint} {bm : Bool} (hlen : e.addr.length ≤ bitsToBytes e.bits) (h16 : bm = true → e.bits % 16 = 0)
    (h : (initEndpoint e bm).addr.length = bitsToBytes e.bits) : e.WF := by
  unfold Endpoint.WF
  unfold initEndpoint at h
  simp only at h
  cases hb : bm
  · rw [hb] at h
    simpa [RoundTrip.padAddr_length] using h
  · rw [hb] at h
    have h16' := h16 hb
    simp only [if_true, maskAddr, List.length_append, List.length_zipWith, List.length_take, List.length_drop] at h
    have hd : bitsToBytes e.bits = (e.bits + 7) / 8 := RoundTrip.bytes_div e.bits
    omega

theorem new_fits {rem loc : Sa} {f : Flags} {l : List Byte} {ev : Option Event} {r0 : Route}
    (h : routeNewForInsert ev (sockAddrOf rem) (sockAddrOf loc) f = .ok r0) (hwf : r0.WF) : Fits (.routeInsert rem loc f l) := by
  unfold routeNewForInsert at h
  split at h
  · cases h
  unfold routeInit at h
  split at h
  · cases h
  split at h
  · cases h
  split at h
  · cases h
  rename_i hr
  split at h
  · cases h
  rename_i hl
  split at h
  · cases h
  injection h with h
  subst h
  have hlen : ∀ s : Sa, (sockAddrOf s).ep.addr.length ≤ bitsToBytes (sockAddrOf s).ep.bits := by
    intro s
    show (s.addr.take (bitsToBytes s.addrLen)).length ≤ bitsToBytes s.addrLen
    rw [List.length_take]; omega
  refine ⟨init_wf (bm := f.has RF.REMOTE_ADDR_BITMASK) (hlen rem) ?_ hwf.1, init_wf (bm := f.has RF.LOCAL_ADDR_BITMASK) (hlen loc) ?_ hwf.2⟩
  · intro hb
    exact Classical.byContradiction fun hc => hr ⟨hb, hc⟩
  · intro hb
    exact Classical.byContradiction fun hc => hl ⟨hb, hc⟩

theorem created_wf {r : Route} (hwf : r.WF) (ev : Option Event) : (asCreated r ev).WF := by
  have : ∀ (e : Endpoint) (aw pw iw : Bool), e.WF → (clearedEnd e aw pw iw).WF := by
    intro e aw pw iw h
    unfold Endpoint.WF clearedEnd at *
    cases aw
    · exact h
    · simp [bitsToBytes]
  exact ⟨this _ _ _ _ hwf.1, this _ _ _ _ hwf.2⟩

/-- The event of the rule is found under its label. -/
def EventKnown (v : View) (r : Route) : Prop := ∀ e, r.event = some e → v.events e.label = some e ∧ e.label ≠ [] ∧ e.label.length ≤ 32

theorem event_found {c : Cx} {r : Route} (h : EventKnown (view c) r) :
    (if labelOf r = [] then Except.ok none else (c.event (labelOf r)).map some) = .ok r.event := by
  unfold labelOf
  cases he : r.event with
  | none => rfl
  | some e =>
    obtain ⟨h1, h2, h3⟩ := h e he
    show (if e.label = [] then _ else _) = _
    rw [if_neg h2]
    have hpos : 0 < e.label.length := List.length_pos_iff.mpr h2
    have hc : labelCheck (arg e.label) = .ok e.label := by
      have hl : ¬ ((e.label.length : Int) < 0) := by omega
      have he1 : (arg e.label).effLen = e.label.length := by
        unfold LabelArg.effLen arg; simp; intro h; omega
      unfold labelCheck
      rw [if_neg (by unfold arg; simp; exact h2), if_neg (by rw [he1]; unfold maxLabelBytes; omega), if_neg (by rw [he1]; simp; exact h2)]
      unfold LabelArg.text arg
      simp; intro h; omega
    have : c.event e.label = .ok e := by
      unfold Cx.event
      rw [hc]
      have h1' : c.events.find? (fun x => x.label == e.label) = some e := h1
      simp only [h1']
    show Except.map some (c.event e.label) = _
    rw [this]; rfl

/-- What the table must be like for the next rule. -/
structure Next (c : Cx) (r : Route) : Prop where
  new : ∀ s ∈ (view c).rules, ¬ Twin s (seen r)
  masks : UsesBitmask r → c.routes.bitmaskAfs.length < 4 ∧ ∀ p ∈ c.routes.bitmaskAfs, p.2 < 65535

/-- What is needed of the rule. -/
structure Ready (v : View) (r : Route) : Prop where
  wf : r.WF
  zero : WildZero r
  sens : Sensical r.flags
  bare : Bare r
  settled : Settled v.config r
  event : EventKnown v r
  limit : v.limit = 0 ∨ (inForce v.config r.event).routeIdleTimeForPurge ≤ 0

theorem inForce_view (c : Cx) (ev : Option Event) :
    (inForce c.global ev).routeFlagsToAdd = (inForce (view c).config ev).routeFlagsToAdd ∧
    (inForce c.global ev).routeFlagsToClear = (inForce (view c).config ev).routeFlagsToClear ∧
    (inForce c.global ev).routeIdleTimeForPurge = (inForce (view c).config ev).routeIdleTimeForPurge := by
  cases ev with
  | none => exact ⟨rfl, rfl, rfl⟩
  | some e => unfold inForce; simp only; cases e.config <;> exact ⟨rfl, rfl, rfl⟩

theorem reinsert (hM : Mild H.acts) (hI : Issues H issued) (hW : Works H) {w : World} (hG : Good issued old w.cx) {r : Route} {k : Call}
    (hk : Reinserts r k) (hr : Ready (view w.cx) r) (hn : Next w.cx r) :
    ∃ w' s, libCall H w k = (w', none) ∧ Good issued old w'.cx ∧ Restored (seen r) s ∧
      view w'.cx = { view w.cx with rules := (view w'.cx).rules } ∧ (view w'.cx).rules.Perm (s :: (view w.cx).rules) := by
  obtain ⟨rem, loc, rfl, hnew⟩ := hk
  have hnew' := hnew r.event
  have hfit : Fits (.routeInsert rem loc (givenFlags r.flags) (labelOf r)) := new_fits hnew' (created_wf hr.wf _)
  obtain ⟨ia, ic, ii⟩ := inForce_view w.cx r.event
  have hSg : Settled w.cx.global r := ⟨by rw [ia, ic]; exact hr.settled.flags, by rw [ia]; exact hr.settled.sane⟩
  have hok : ∃ w', libCall H w (.routeInsert rem loc (givenFlags r.flags) (labelOf r)) = (w', none) := by
    show ∃ w', routeInsertC H { w with tick := w.tick + 1 } rem loc (givenFlags r.flags) (labelOf r) = (w', none)
    unfold routeInsertC
    have hev := event_found (c := w.cx) hr.event
    simp only [hev]
    have hnew2 : routeNewForInsert r.event (LT.sockaddr rem) (LT.sockaddr loc) (givenFlags r.flags) = .ok (asCreated r r.event) := hnew'
    simp only [hnew2]
    obtain ⟨t, ht⟩ := hW.clock (w.tick + 1)
    obtain ⟨⟨id, s'⟩, hid⟩ := hW.ids w.cx.idState
    obtain ⟨i1, i2, i3, i4⟩ := hI _ _ _ hid
    have ha : H.allocId w.cx = (.ok id, { w.cx with idState := s' }) := by unfold Host.allocId; rw [hid]
    simp only [ht, ha]
    have h14 : (asCreated r r.event).flags.getLsbD 14 = false := by
      show (givenFlags r.flags).getLsbD 14 = false
      rw [RoundTrip.given_bit _ _ (by omega)]; simp [RoundTrip.namedBits]
    have h16 : (asCreated r r.event).flags.getLsbD 16 = false := by
      show (givenFlags r.flags).getLsbD 16 = false
      rw [RoundTrip.given_bit _ _ (by omega)]; simp [RoundTrip.namedBits]
    have hsens : Sensical ((asCreated r r.event).flags &&& ~~~(inForce w.cx.global r.event).routeFlagsToClear |||
        (inForce w.cx.global r.event).routeFlagsToAdd) := by
      have hb : ∀ k, k < 14 → ((asCreated r r.event).flags &&& ~~~(inForce w.cx.global r.event).routeFlagsToClear |||
          (inForce w.cx.global r.event).routeFlagsToAdd).getLsbD k = r.flags.getLsbD k := by
        intro k hk
        have hg : (asCreated r r.event).flags.getLsbD k = r.flags.getLsbD k := given_bare hr.bare (Or.inl hk)
        have hk32 : k < 32 := by omega
        rw [BitVec.getLsbD_or, BitVec.getLsbD_and, BitVec.getLsbD_not, hg]
        simp only [hk32, decide_true, Bool.true_and]
        exact hSg.flags k (Or.inl hk)
      unfold Sensical
      rw [hb 0 (by omega), hb 1 (by omega), hb 2 (by omega), hb 3 (by omega), hb 4 (by omega), hb 5 (by omega)]
      exact hr.sens
    obtain ⟨r1, hr1⟩ := Props.prepare_succeeds (g := w.cx.global) (t := t) (a := 0) (r0 := asCreated r r.event) hsens h14 hSg.sane.1 (Or.inl rfl)
    have hst := Props.prepared_stored hr1 id
    have hres := stored_restored hr.wf hr.zero hr.bare hSg hst
    have hwf' : (enterTable r1 id).WF := Props.wf_of_stored hst (created_wf hr.wf _)
    have hne : NewKey w.cx.routes (enterTable r1 id) := by
      intro x hx hsk
      refine hn.new (seen x) (List.mem_map_of_mem hx) ?_
      have hlk : ∀ e, (enterTable r1 id).event = some e → e ∈ w.cx.events := by
        intro e he
        have : r.event = some e := by rw [hst.event] at he; exact he
        exact (at_some (hr.event e this).1).1
      have htw := (twin_iff hG (hG.linked x hx) hlk (hG.table.core.sorted.wf x hx) hwf').mpr
        ((Props.C01_eq_iff _ _ (hG.table.core.sorted.wf x hx) hwf').mpr hsk)
      obtain ⟨a1, a2, a3, a4, a5, a6⟩ := htw
      obtain ⟨b1, b2, b3, b4, b5, b6⟩ := hres.twin
      exact ⟨a1.trans b1.symm, a2.trans b2.symm, a3.trans b3.symm, a4.trans b4.symm, a5.trans b5.symm, fun k hk => (a6 k hk).trans (b6 k hk).symm⟩
    have hbits := @stored_flags w.cx.global t 0 r (enterTable r1 id) hr.bare hSg hst
    have hroom : Props.Room w.cx.routes (enterTable r1 id) := by
      refine ⟨?_, ?_⟩
      · rcases hr.limit with h | h
        · exact Or.inr (Or.inl h)
        · left
          rw [hst.expiry]
          rw [if_neg]
          · rfl
          · rintro ⟨hc, _⟩
            rw [show (asCreated r r.event).event = r.event from rfl, ii] at hc
            omega
      · intro hu
        refine hn.masks ?_
        unfold UsesBitmask at *
        rw [hbits (by omega), hbits (by omega)] at hu
        exact hu
    have h16' : (enterTable r1 id).flags.getLsbD 16 = false := by
      rw [hst.flags 16 (by omega), h16, show (asCreated r r.event).event = r.event from rfl, hSg.sane.2]; rfl
    have hsens' : Sensical (enterTable r1 id).flags := by
      unfold Sensical
      rw [hbits (by omega), hbits (by omega), hbits (by omega), hbits (by omega), hbits (by omega), hbits (by omega)]
      exact hr.sens
    have hrid : (enterTable r1 id).id = id := rfl
    have hfresh : FreshId w.cx.routes (.ok (enterTable r1 id).id) := by
      rw [hrid]; intro i hi; injection hi with hi; subst hi
      exact ⟨i1, fun x hx hc => i2 (hc ▸ (hG.ids x hx).1)⟩
    obtain ⟨res, st, h1, h2, -⟩ := Props.insert_succeeds w.cx.global H.acts hM.1 hW.handlers w.cx.routes hG.table (asCreated r r.event)
      (created_wf hr.wf _) t 0 rfl (enterTable r1 id) hfresh hst hsens' h14 hSg.sane.1 h16' (Or.inl rfl) hne hroom
    rw [hrid] at h1
    rw [h1]
    simp only [h2]
    exact ⟨_, rfl⟩
  obtain ⟨w', hw'⟩ := hok
  obtain ⟨hG', hd⟩ := libCall_does hM hI hG hfit hw'
  generalize hv' : view w'.cx = v' at hd
  cases hd with
  | rule hask hroom hent =>
    rename_i s kept rules
    obtain ⟨ev, r0, r', t, hev, hnw, hst, hs⟩ := hask
    have hev' : ev = r.event := by
      rcases hev with ⟨h1, h2⟩ | ⟨h1, e, h2, h3⟩
      · cases he : r.event with
        | none => exact h2
        | some e =>
          exfalso
          refine (hr.event e he).2.1 ?_
          have : labelOf r = e.label := by unfold labelOf; rw [he]; rfl
          rw [← this]; exact h1
      · cases he : r.event with
        | none => exact absurd (by unfold labelOf; rw [he]; rfl) h1
        | some e' =>
          have : labelOf r = e'.label := by unfold labelOf; rw [he]; rfl
          rw [this, (hr.event e' he).1] at h2
          rw [h3, ← h2]
    subst hev'
    have hr0 : r0 = asCreated r r.event := by
      have : routeNewForInsert r.event (LT.sockaddr rem) (LT.sockaddr loc) (givenFlags r.flags) = .ok (asCreated r r.event) := hnew'
      rw [this] at hnw
      injection hnw with hnw; exact hnw.symm
    subst hr0
    have hres := stored_restored hr.wf hr.zero hr.bare hr.settled hst
    rw [← hs] at hres
    have hkept : kept = (view w.cx).rules := by
      cases hroom with
      | enough _ => rfl
      | evicted h1 h2 =>
        exfalso
        rcases hr.limit with h | h
        · omega
        · refine h1 ?_
          rw [hs]
          show r'.data.purgeAfter = 0
          rw [hst.expiry, if_neg]
          · rfl
          · rintro ⟨hc, _⟩
            rw [show (asCreated r r.event).event = r.event from rfl] at hc
            omega
    subst hkept
    refine ⟨w', s, hw', hG', hres, ?_, ?_⟩
    · rw [hv']
    · rw [hv']
      cases hent with
      | new _ hp => exact hp
      | @revived x rest _ hp ht =>
        exfalso
        refine hn.new x (hp.symm.subset (List.mem_cons_self ..)) ?_
        obtain ⟨a1, a2, a3, a4, a5, a6⟩ := ht
        obtain ⟨b1, b2, b3, b4, b5, b6⟩ := hres.twin
        exact ⟨a1.trans b1.symm, a2.trans b2.symm, a3.trans b3.symm, a4.trans b4.symm, a5.trans b5.symm, fun k hk => (a6 k hk).trans (b6 k hk).symm⟩

end WS.Rs
