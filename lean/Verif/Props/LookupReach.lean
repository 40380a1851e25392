import Verif.Props.TableState
/-
C10 on tables built through the API: which wildcard-family rule the table remembers, and that lookups
end on tables from which nothing has been removed.
-/
namespace WS.Props
open WS Spec

/-- Tables built by inserting rules (no limit on purgeable rules) and changing them in place: expiry,
flags, counters.  No rule is ever removed. -/
inductive Built (g : EventConfig) : RouteTable → Prop
  | init (idle : Int) (ev : Option Event) (ft : Option Nat) (pol : Flags) :
      Built g { maxPurgeableIdleTime := idle, defaultEvent := ev, fallthroughRoute := ft, defaultPolicy := pol }
  | insert {T : RouteTable} (h : Built g T) (A : RuleActs) (r0 : Route) (now : Except Err Int) (newId : Except Err Nat) (ares : Flags) (res : InsRes)
      (hA : A.Keeps) (hwf : r0.WF) (hid : FreshId T newId) (hi : insert1 g A T r0 now newId ares = some res)
      (hok : res.actionsFailed = false) : Built g res.T
  | setExpiry {T : RouteTable} (h : Built g T) (r : Route) (hr : r ∈ T.ents) (t : Int) : Built g (T.setExpiry r t)
  | updateFlags {T : RouteTable} (h : Built g T) (r : Route) (hr : r ∈ T.ents) (set clear : Flags) (now : Except Err Int) (ares : Flags)
      (x : Route × Flags × Flags × Flags) (hx : updateFlags r set clear now ares = .ok x) : Built g (T.update x.1)
  | touch {T : RouteTable} (h : Built g T) (r : Route) (hr : r ∈ T.ents) (d : RouteMeta) (hd : d.purgeAfter = r.data.purgeAfter) :
      Built g (T.update { r with data := d })

theorem Built.reach {g : EventConfig} {T : RouteTable} (h : Built g T) : Reach g false T ∧ T.maxPurgeableRoutes = 0 := by
  induction h with
  | init idle ev ft pol => exact ⟨Reach.init 0 idle ev ft pol, rfl⟩
  | @insert T h A r0 now newId ares res hA hwf hid hi hok ih =>
    refine ⟨Reach.step ih.1 (Step.insert A r0 now newId ares res hA hwf hid hi hok), ?_⟩
    have hinv := ih.1.inv.1
    rcases insert1_cases hinv hid hi with ⟨h1, _⟩ | ⟨T1, t, r, _, hp, hT1, hid1, rfl, hcase⟩
    · rw [h1]; exact ih.2
    · rcases hcase with ⟨rfl, _⟩ | ⟨v, _, _, _, hc⟩
      · have hrw := (insertPrepare_ok hp hwf).1
        rcases insertCommit_cases g A hA T1 hT1.core.sorted r hrw newId hid1 ares with
          ⟨h1, _⟩ | ⟨old, _, _, _, _, _, h5⟩ | ⟨_, _, _, _, _, _, _, _, _, _, _, h5⟩ | ⟨h5, _⟩
        · rw [h1]; exact ih.2
        · rw [h5, (setExpiry_side _ _ _).2.2.2]; exact ih.2
        · rw [h5, (insertedTable_ents _ _ _ _).2.2]; exact ih.2
        · rw [h5] at hok; cases hok
      · rw [ih.2] at hc; exact absurd hc.2.1 (by omega)
  | setExpiry h r hr t ih => exact ⟨Reach.step ih.1 (Step.setExpiry r hr t), by rw [(setExpiry_side _ _ _).2.2.2]; exact ih.2⟩
  | updateFlags h r hr set clear now ares x hx ih =>
    exact ⟨Reach.step ih.1 (Step.updateFlags r hr set clear now ares x hx), ih.2⟩
  | touch h r hr d hd ih => exact ⟨Reach.step ih.1 (Step.touch r hr d hd), ih.2⟩

/-- The remembered rule is the least of the wildcard-family rules. -/
def RemembersLeast (T : RouteTable) : Prop :=
  ∀ r ∈ T.ents, r.flags.getLsbD 0 = true →
    ∃ l ∈ T.ents, T.lastAfWildcard = some l.id ∧ l.flags.getLsbD 0 = true ∧ routeKeyCmp l r ≠ .gt

theorem RemembersLeast.update {T : RouteTable} (hc : CoreInv T) (h : RemembersLeast T) {r r' : Route} (hr : r ∈ T.ents)
    (hk : KeepsCore r r') : RemembersLeast (T.update r') := by
  have hmem : ∀ y ∈ T.ents, ∃ z ∈ (T.update r').ents, KeepsCore y z := by
    intro y hy
    by_cases he : y.id = r.id
    · have : y = r := id_inj hc.ids hy hr he
      subst this
      exact ⟨r', (update_mem hr hk.id _).2 (Or.inl rfl), hk⟩
    · exact ⟨y, (update_mem hr hk.id _).2 (Or.inr ⟨hy, he⟩), (KeepsKey.refl y).core⟩
  have hback : ∀ z ∈ (T.update r').ents, ∃ y ∈ T.ents, KeepsCore y z := by
    intro z hz
    rcases (update_mem hr hk.id _).1 hz with rfl | ⟨h1, _⟩
    · exact ⟨r, hr, hk⟩
    · exact ⟨z, h1, (KeepsKey.refl z).core⟩
  intro z hz hw
  obtain ⟨y, hy, hyz⟩ := hback z hz
  obtain ⟨l, hl, h1, h2, h3⟩ := h y hy (by rw [← hyz.flags 0 (by omega)]; exact hw)
  obtain ⟨l', hl', hll⟩ := hmem l hl
  refine ⟨l', hl', ?_, by rw [hll.flags 0 (by omega)]; exact h2, ?_⟩
  · rw [hll.id]; exact h1
  · rw [hll.cmp hyz (hc.sorted.wf _ hl) (hc.sorted.wf _ hy)]; exact h3

theorem noteInserted_wild (T : RouteTable) (r : Route) : (T.noteInserted r).lastAfWildcard =
    if r.flags.getLsbD 0 = true then
      (match T.lastAfWildcard.bind T.get? with
      | none => some r.id
      | some l => if routeKeyCmp r l = .lt then some r.id else T.lastAfWildcard)
    else T.lastAfWildcard := by
  unfold RouteTable.noteInserted
  have : r.flags.has RF.SA_FAMILY_WILDCARD = r.flags.getLsbD 0 := Flags.has_bit r.flags 0 (by decide)
  by_cases h : r.flags.getLsbD 0 = true
  · rw [if_pos h]; exact if_pos (this.trans h)
  · rw [if_neg h]; exact if_neg (fun hc => h (this.symm.trans hc))

theorem RemembersLeast.inserted {T : RouteTable} (hc : CoreInv T) (h : RemembersLeast T) {ents : List Route} {afs : List (Nat × Nat)}
    {r : Route} (hr : r.WF) (hne : ∀ x ∈ T.ents, x.id ≠ r.id) (he : routeSplice r T.ents = some ents) :
    RemembersLeast (insertedTable T ents afs r) := by
  have hp := routeSplice_perm he
  have hmem : ∀ x, x ∈ ents ↔ x = r ∨ x ∈ T.ents := fun x => by rw [hp.mem_iff, List.mem_cons]
  obtain ⟨e1, _, _⟩ := insertedTable_ents T ents afs r
  have hn' : (ents.map (·.id)).Nodup := by
    rw [(hp.map _).nodup_iff, List.map_cons, List.nodup_cons]
    refine ⟨?_, hc.ids⟩
    intro hcc
    obtain ⟨x, hx, h⟩ := List.mem_map.1 hcc
    exact hne x hx h
  -- the remembered rule after insertion
  obtain ⟨T2, hT2e, hT2l, hlast⟩ : ∃ T2 : RouteTable, T2.ents = ents ∧ T2.lastAfWildcard = T.lastAfWildcard ∧
      (insertedTable T ents afs r).lastAfWildcard = (T2.noteInserted r).lastAfWildcard := by
    refine ⟨_, ?_, ?_, rfl⟩
    · split <;> rfl
    · split <;> rfl
  rw [noteInserted_wild, hT2l] at hlast
  have hget : ∀ l ∈ T.ents, T2.get? l.id = some l := fun l hl =>
    get?_mem (T := T2) (by rw [hT2e]; exact hn') (by rw [hT2e]; exact (hmem l).2 (Or.inr hl))
  have hrefl : routeKeyCmp r r ≠ .gt := by
    have := C01_swap r r hr hr
    intro hg
    rw [hg] at this; cases this
  -- what is remembered, when something is
  intro x hx hw
  rw [e1, hmem] at hx
  by_cases hrw : r.flags.getLsbD 0 = true
  · rw [if_pos hrw] at hlast
    -- was there a wildcard rule before?
    cases hold : T.lastAfWildcard with
    | none =>
      rw [hold] at hlast
      simp only [Option.bind_none] at hlast
      rcases hx with rfl | hx
      · exact ⟨x, by rw [e1]; exact (hmem x).2 (Or.inl rfl), hlast, hrw, hrefl⟩
      · obtain ⟨l, _, h1, _⟩ := h x hx hw
        rw [hold] at h1; cases h1
    | some i =>
      obtain ⟨l0, hl0, hi0, hw0⟩ := hc.lastAf i hold
      subst hi0
      rw [hold] at hlast
      simp only [Option.bind_some, hget l0 hl0] at hlast
      have hl0w := hc.sorted.wf _ hl0
      by_cases hlt : routeKeyCmp r l0 = .lt
      · rw [if_pos hlt] at hlast
        refine ⟨r, by rw [e1]; exact (hmem r).2 (Or.inl rfl), hlast, hrw, ?_⟩
        rcases hx with rfl | hx
        · exact hrefl
        · obtain ⟨l, hl, h1, _, h3⟩ := h x hx hw
          rw [hold] at h1
          have : l = l0 := id_inj hc.ids hl hl0 (Option.some.inj h1).symm
          subst this
          exact C01_le_trans r l x hr hl0w (hc.sorted.wf _ hx) (by rw [hlt]; decide) h3
      · rw [if_neg hlt] at hlast
        refine ⟨l0, by rw [e1]; exact (hmem l0).2 (Or.inr hl0), hlast, hw0, ?_⟩
        rcases hx with rfl | hx
        · rw [C01_swap x l0 hr hl0w]
          cases hcmp : routeKeyCmp x l0 with
          | lt => exact absurd hcmp hlt
          | eq => decide
          | gt => decide
        · obtain ⟨l, hl, h1, _, h3⟩ := h x hx hw
          rw [hold] at h1
          have : l = l0 := id_inj hc.ids hl hl0 (Option.some.inj h1).symm
          subst this
          exact h3
  · rw [if_neg hrw] at hlast
    rcases hx with rfl | hx
    · exact absurd hw hrw
    · obtain ⟨l, hl, h1, h2, h3⟩ := h x hx hw
      exact ⟨l, by rw [e1]; exact (hmem l).2 (Or.inr hl), by rw [hlast]; exact h1, h2, h3⟩

theorem Built.remembers {g : EventConfig} {T : RouteTable} (h : Built g T) : RemembersLeast T := by
  induction h with
  | init => intro r hr; cases hr
  | @insert T h A r0 now newId ares res hA hwf hid hi hok ih =>
    have hinv := h.reach.1.inv.1
    rcases insert1_cases hinv hid hi with ⟨h1, _⟩ | ⟨T1, t, r, _, hp, hT1, hid1, rfl, hcase⟩
    · rw [h1]; exact ih
    · rcases hcase with ⟨rfl, _⟩ | ⟨v, _, _, _, hc⟩
      · have hrw := (insertPrepare_ok hp hwf).1
        rcases insertCommit_cases g A hA T1 hT1.core.sorted r hrw newId hid1 ares with
          ⟨h1, _⟩ | ⟨old, ho, _, _, _, _, h5⟩ | ⟨id, ents, afs, st, hni, hk, hsp, _, _, _, _, h5⟩ | ⟨h5, _⟩
        · rw [h1]; exact ih
        · have hko : KeepsKey old { old with flags := old.flags &&& ~~~RF.PENDING_DELETE } := keepsKey_andNot old _ (twoPow_low 15 (by omega))
          have hu := hT1.core.update ho hko.core
          have hm : ({ old with flags := old.flags &&& ~~~RF.PENDING_DELETE } : Route) ∈
              (T1.update { old with flags := old.flags &&& ~~~RF.PENDING_DELETE }).ents :=
            (update_mem (r := old) (r' := { old with flags := old.flags &&& ~~~RF.PENDING_DELETE }) ho rfl _).2 (Or.inl rfl)
          have h6 := RemembersLeast.update hu (ih.update hT1.core ho hko.core) hm (keepsCore_withExpiry _ r.data.purgeAfter)
          rw [h5]
          intro x hx hw
          rw [setExpiry_ents] at hx
          obtain ⟨l, hl, k1, k2⟩ := h6 x hx hw
          refine ⟨l, by rw [setExpiry_ents]; exact hl, ?_, k2⟩
          rw [(setExpiry_side _ _ _).1]; exact k1
        · have hf' := hid1 id hni
          have hw' : st.WF := hk.core.wf (a := enterTable r id) hrw
          have hidst : st.id = id := hk.id
          rw [h5]
          exact ih.inserted hT1.core hw' (by rw [hidst]; exact hf'.2) hsp
        · rw [h5] at hok; cases hok
      · rw [h.reach.2] at hc; exact absurd hc.2.1 (by omega)
  | @setExpiry T h r hr t ih =>
    have h6 := ih.update h.reach.1.inv.1.core hr (keepsCore_withExpiry r t)
    intro x hx hw
    rw [setExpiry_ents] at hx
    obtain ⟨l, hl, k1, k2⟩ := h6 x hx hw
    refine ⟨l, by rw [setExpiry_ents]; exact hl, ?_, k2⟩
    rw [(setExpiry_side _ _ _).1]; exact k1
  | @updateFlags T h r hr set clear now ares x hx ih =>
    have hc := h.reach.1.inv.1.core
    exact ih.update hc hr (updateFlags_keeps (hc.inTable r hr) hx).core
  | @touch T h r hr d hd ih =>
    exact ih.update h.reach.1.inv.1.core hr ⟨rfl, rfl, rfl, rfl, rfl, rfl, fun _ _ => rfl⟩

/-- C10: as long as no rule is removed, the wildcard-family rule the table remembers (from which
lookups of other families continue) is the *first* of them in table order. -/
theorem C10_remembers_first (g : EventConfig) (T : RouteTable) (h : Built g T) (r : Route) (hr : r ∈ T.ents)
    (hw : r.flags.getLsbD 0 = true) :
    ∃ l ∈ T.ents, T.lastAfWildcard = some l.id ∧ l.flags.getLsbD 0 = true ∧ (SameKey l r ∨ routeKeyCmp l r = .lt) := by
  obtain ⟨l, hl, h1, h2, h3⟩ := h.remembers r hr hw
  have hs := h.reach.1.inv.1.core.sorted
  refine ⟨l, hl, h1, h2, ?_⟩
  cases hc : routeKeyCmp l r with
  | lt => exact Or.inr rfl
  | eq => exact Or.inl ((C01_eq_iff l r (hs.wf _ hl) (hs.wf _ hr)).1 hc)
  | gt => exact absurd hc h3

/-- C10: every lookup in a table from which nothing was removed ends, when no rule is for family 0
without being a wildcard.
Missing from the full claim: removals (`C10_forgets_wildcard`) and family-0 rules (`C10_diverges`). -/
theorem C10_built_terminates_partial (g : EventConfig) (T : RouteTable) (h : Built g T)
    (hz : ∀ r ∈ T.ents, r.family = 0 → r.flags.getLsbD 0 = true)
    (t : Route) (exact : Bool) (ares : Option Flags) (fuel : Nat) (hfuel : T.ents.length + 1 < fuel) :
    ∃ res, lookup T t exact ares fuel = some res := by
  have hc := h.reach.1.inv.1.core
  apply C10_terminates_partial T t exact ares fuel ?_ hfuel
  cases hl : T.lastAfWildcard with
  | none => exact Or.inl rfl
  | some i =>
    right
    obtain ⟨l, hlm, hi, hlw⟩ := hc.lastAf i hl
    cases he : T.ents with
    | nil => rw [he] at hlm; cases hlm
    | cons a rest =>
      refine ⟨a, rfl, ?_⟩
      rw [he] at hlm
      rcases List.mem_cons.1 hlm with rfl | hlr
      · rw [hi]
      · exfalso
        have hs := hc.sorted.sorted
        rw [he] at hs
        have hal := (List.pairwise_cons.1 hs).1 l hlr
        have ham : a ∈ T.ents := by rw [he]; simp
        have hlm' : l ∈ T.ents := by rw [he]; simp [hlr]
        have haw := hc.sorted.wf a ham
        have hlwf := hc.sorted.wf l hlm'
        have hf : a.family ≤ l.family := exactLex_family (by rw [← routeKeyCmp_eq a l haw hlwf, hal]; decide)
        have hlz : l.family = 0 := (hc.wildZero l hlm').family hlw
        obtain ⟨m, hm, h1, _, h3⟩ := h.remembers a ham (hz a ham (by omega))
        have : m = l := id_inj hc.ids hm hlm' (by rw [hl] at h1; cases h1; exact hi.symm)
        subst this
        rw [C01_swap a m haw hlwf, hal] at h3
        exact h3 rfl

/-! ### Instances -/

def wildIn : Route := { flags := RF.WILDCARD_FLAGS ||| RF.PARENT_EVENT_WILDCARD ||| RF.DIRECTION_IN }
def wildOut : Route := { flags := RF.WILDCARD_FLAGS ||| RF.PARENT_EVENT_WILDCARD ||| RF.DIRECTION_OUT }

/-- The table after inserting a catch-all for inbound (ID 1) and one for outbound traffic (ID 2). -/
def tableWW : RouteTable :=
  { ents := [{ wildIn with id := 1, flags := wildIn.flags ||| bit 14, data := { insertTime := 1 } },
             { wildOut with id := 2, flags := wildOut.flags ||| bit 14, data := { insertTime := 1 } }]
    lastAfWildcard := some 1, highestPriority := 0 }

theorem built_tableWW : Built {} tableWW := by
  have h1 : ∃ res, insert1 {} {} {} wildIn (.ok 1) (.ok 1) 0 = some res ∧ res.actionsFailed = false ∧
      ∃ res2, insert1 {} {} res.T wildOut (.ok 1) (.ok 2) 0 = some res2 ∧ res2.actionsFailed = false ∧ res2.T = tableWW ∧
      FreshId res.T (.ok 2) := by
    refine ⟨_, rfl, by decide, _, rfl, by decide, rfl, ?_⟩
    intro i hi
    injection hi with hi; subst hi
    exact ⟨by decide, by decide⟩
  obtain ⟨res, e1, f1, res2, e2, f2, e3, hid⟩ := h1
  rw [← e3]
  refine Built.insert (T := res.T) (Built.insert (T := {}) (Built.init 0 none none 0) {} wildIn (.ok 1) (.ok 1) 0 res keeps_default
    (by decide) ?_ e1 f1) {} wildOut (.ok 1) (.ok 2) 0 res2 keeps_default (by decide) hid e2 f2
  intro i hi
  injection hi with hi; subst hi
  exact ⟨by decide, fun r hr => by cases hr⟩

example : Built {} tableWW ∧ (∀ r ∈ tableWW.ents, r.family = 0 → r.flags.getLsbD 0 = true) := ⟨built_tableWW, by decide⟩

/-- C10 fails on reachable tables: after two catch-alls are inserted, an outbound packet is not
matched, although a catch-all for outbound traffic is there — the table remembers only the first. -/
theorem C10_reachable_miss : ∃ (T : RouteTable) (r q : Route), Reach {} false T ∧ r ∈ T.ents ∧
    Candidate (some 0) r q ∧ RuleMatches CidrMatch r (AnyEvent q) ∧ lookup T q false (some 0) 9 = some (.error .itemNotFound) := by
  refine ⟨tableWW, { wildOut with id := 2, flags := wildOut.flags ||| bit 14, data := { insertTime := 1 } },
    { pktSsh with flags := RF.DIRECTION_OUT }, built_tableWW.reach.1, by decide, (considered_iff _ _ _).1 (by decide), ?_, by decide⟩
  exact (C08_match_iff _ _ (by decide) (by decide) (by unfold NoBitmask; decide) (by decide) (by decide)).1 (by decide)

/-- C10 fails after a deletion: deleting the remembered catch-all makes the table forget the other one
(src/routes.c:2190-2191 reads the link that the unlinking cleared), so that traffic it matches is no
longer found — here even the rule's own direction, in a table holding only that rule. -/
theorem C10_forgets_wildcard : ∃ (T : RouteTable) (r q : Route), Reach {} false T ∧ T.ents = [r] ∧
    Candidate (some 0) r q ∧ RuleMatches CidrMatch r (AnyEvent q) ∧ lookup T q false (some 0) 9 = some (.error .itemNotFound) := by
  refine ⟨(deleteById {} {} tableWW 1 0).1, { wildOut with id := 2, flags := wildOut.flags ||| bit 14, data := { insertTime := 1 } },
    { pktSsh with flags := RF.DIRECTION_OUT }, Reach.step built_tableWW.reach.1 (Step.deleteId {} 1 0), by decide,
    (considered_iff _ _ _).1 (by decide), ?_, by decide⟩
  exact (C08_match_iff _ _ (by decide) (by decide) (by unfold NoBitmask; decide) (by decide) (by decide)).1 (by decide)

end WS.Props
