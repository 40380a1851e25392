import Verif.Props.Insert
import Verif.Props.Lookup
/-
Properties C15 (deletion, deferred while connections are live) and C16 (purging of expired rules).
-/
namespace WS.Props
open WS Spec

/-! ## C15 -/

/-- C15: deleting a rule without live connections takes it out of the table and out of the purge queue at
once and changes no other rule. -/
theorem C15_delete_now (g : EventConfig) (b : Bool) (A : RuleActs) (T : RouteTable) (hT : Reach g b T) (r : Route) (hr : r ∈ T.ents)
    (hc : r.data.connectionCount = 0) (ares : Flags) :
    (deleteById g A T r.id ares).2.2 = .ok .deleted ∧
    (deleteById g A T r.id ares).1.ents = T.ents.filter (fun x => x.id != r.id) ∧
    (deleteById g A T r.id ares).1.purgeList = T.purgeList.filter (fun x => x != r.id) := by
  have h := hT.inv.1
  have e := get?_mem h.core.ids hr
  unfold deleteById
  rw [e]
  rcases delete0_cases g A T r ares true with ⟨_, hp, _⟩ | ⟨_, h2, h3⟩
  · omega
  · simp only [h2, h3]
    exact ⟨trivial, rfl, by rw [removeRule_list h hr]; rfl⟩

/-- C15: deleting a rule with live connections only marks it as pending deletion and makes sure that
it expires 60 seconds after its last hit (or later, if it was going to expire later): the rule stays
in the table with its key and connection count, every other rule is untouched. -/
theorem C15_delete_deferred (g : EventConfig) (b : Bool) (A : RuleActs) (T : RouteTable) (hT : Reach g b T) (r : Route) (hr : r ∈ T.ents)
    (hc : 0 < r.data.connectionCount) (ares : Flags) :
    (deleteById g A T r.id ares).2.2 = .ok .deferred ∧
    (∃ r', r' ∈ (deleteById g A T r.id ares).1.ents ∧ r'.id = r.id ∧ Pending r' ∧ SameKey r r' ∧
      r'.data.connectionCount = r.data.connectionCount ∧
      r'.data.purgeAfter = max r.data.purgeAfter (r.data.lastHitTime + 60000000) ∧
      (r'.data.purgeAfter ≠ 0 → r'.id ∈ (deleteById g A T r.id ares).1.purgeList)) ∧
    (∀ x, x.id ≠ r.id → (x ∈ (deleteById g A T r.id ares).1.ents ↔ x ∈ T.ents)) := by
  have h := hT.inv.1
  have e := get?_mem h.core.ids hr
  have hinv : TableInv (deleteById g A T r.id ares).1 := by
    unfold deleteById; rw [e]; exact h.delete0 hr ares true
  have hkk := keepsKey_orPending r
  have hpend : Pending { r with flags := r.flags ||| RF.PENDING_DELETE } := by
    unfold Pending RF.PENDING_DELETE bit
    simp
  have hu := h.update hr hkk
  have hm : ({ r with flags := r.flags ||| RF.PENDING_DELETE } : Route) ∈ (T.update { r with flags := r.flags ||| RF.PENDING_DELETE }).ents :=
    (update_mem (r := r) (r' := { r with flags := r.flags ||| RF.PENDING_DELETE }) hr rfl _).2 (Or.inl rfl)
  have hout : ∀ x, x.id ≠ r.id → (x ∈ (T.update { r with flags := r.flags ||| RF.PENDING_DELETE }).ents ↔ x ∈ T.ents) := by
    intro x hx
    rw [update_mem (r := r) (r' := { r with flags := r.flags ||| RF.PENDING_DELETE }) hr rfl]
    constructor
    · rintro (h' | ⟨h', _⟩)
      · rw [h'] at hx; exact absurd rfl hx
      · exact h'
    · intro h'; exact Or.inr ⟨h', hx⟩
  have hd : (deleteById g A T r.id ares).1 = (delete0 g A T r ares true).1 ∧
      (deleteById g A T r.id ares).2.2 = .ok (delete0 g A T r ares true).2.2 := by
    unfold deleteById; rw [e]; exact ⟨rfl, rfl⟩
  rcases delete0_cases g A T r ares true with ⟨_, _, h2, ⟨h3, h4⟩ | ⟨h3, h4⟩⟩ | ⟨hn, _⟩
  · rw [hd.2, h2]
    have hmem : ({ r with flags := r.flags ||| RF.PENDING_DELETE } : Route) ∈ (deleteById g A T r.id ares).1.ents := by
      rw [hd.1, h3]; exact hm
    refine ⟨rfl, ⟨{ r with flags := r.flags ||| RF.PENDING_DELETE }, hmem, rfl, hpend, hkk.core.sameKey, rfl, ?_, ?_⟩, ?_⟩
    · unfold sixtySeconds at h4
      show r.data.purgeAfter = _
      omega
    · intro hp
      exact (hinv.purge.mem _).2 ⟨_, hmem, rfl, hp⟩
    · rw [hd.1, h3]; exact hout
  · rw [hd.2, h2]
    have hents : (deleteById g A T r.id ares).1.ents = ((T.update { r with flags := r.flags ||| RF.PENDING_DELETE }).update
        (withExpiry { r with flags := r.flags ||| RF.PENDING_DELETE } (r.data.lastHitTime + sixtySeconds))).ents := by
      rw [hd.1, h3, setExpiry_ents]
    have hmem : withExpiry { r with flags := r.flags ||| RF.PENDING_DELETE } (r.data.lastHitTime + sixtySeconds) ∈
        (deleteById g A T r.id ares).1.ents := by
      rw [hents]
      exact (update_mem (r := { r with flags := r.flags ||| RF.PENDING_DELETE })
        (r' := withExpiry { r with flags := r.flags ||| RF.PENDING_DELETE } (r.data.lastHitTime + sixtySeconds)) hm rfl _).2 (Or.inl rfl)
    refine ⟨rfl, ⟨_, hmem, rfl, hpend, ?_, rfl, ?_, ?_⟩, ?_⟩
    · obtain ⟨a1, a2, a3, a4, a5, a6, a7, a8, a9, a10, a11, a12, a13⟩ := hkk.core.sameKey
      exact ⟨a1, a2, a3, a4, a5, a6, a7, a8, a9, a10, a11, a12, a13⟩
    · unfold sixtySeconds at h4 ⊢
      show r.data.lastHitTime + 60000000 = _
      omega
    · intro hp
      exact (hinv.purge.mem _).2 ⟨_, hmem, rfl, hp⟩
    · intro x hx
      rw [hents, update_mem (r := { r with flags := r.flags ||| RF.PENDING_DELETE })
        (r' := withExpiry { r with flags := r.flags ||| RF.PENDING_DELETE } (r.data.lastHitTime + sixtySeconds)) hm rfl, hout x hx]
      constructor
      · rintro (h' | ⟨h', _⟩)
        · rw [h'] at hx; exact absurd rfl hx
        · exact h'
      · intro h'; exact Or.inr ⟨h', hx⟩
  · exact absurd ⟨rfl, hc⟩ hn

/-- C15: deleting by key affects the rule with that key, exactly as deleting it by ID, and reports
`ITEM_NOT_FOUND`, changing nothing, when there is none. -/
theorem C15_delete_by_key (g : EventConfig) (b : Bool) (A : RuleActs) (T : RouteTable) (hT : Reach g b T) (key : Route) (hk : key.WF)
    (ares : Flags) :
    (∃ r, r ∈ T.ents ∧ SameKey r key ∧ deleteByKey g A T key ares = deleteById g A T r.id ares) ∨
    ((∀ r ∈ T.ents, ¬ SameKey r key) ∧ deleteByKey g A T key ares = (T, ares, .error .itemNotFound)) := by
  have h := hT.inv.1
  by_cases hex : ∃ r, r ∈ T.ents ∧ SameKey r key
  · obtain ⟨r, hr, hs⟩ := hex
    have hl := (C11_exact_iff T key r none 0 0 h.core.sorted hk).2 ⟨hr, hs, rfl⟩
    refine Or.inl ⟨r, hr, hs, ?_⟩
    unfold deleteByKey deleteById
    rw [hl, get?_mem h.core.ids hr]
  · refine Or.inr ⟨fun r hr hs => hex ⟨r, hr, hs⟩, ?_⟩
    have hl := (C11_exact_absent T key none 0 h.core.sorted hk).2 (fun r hr hs => hex ⟨r, hr, hs⟩)
    unfold deleteByKey
    rw [hl]

/-- C15: inserting a rule whose key is that of a rule pending deletion revives that rule: same object and
ID, no longer pending, and with the new expiry (here: none). -/
theorem C15_revival (g : EventConfig) (b : Bool) (A : RuleActs) (T : RouteTable) (hT : Reach g b T)
    (r0 x : Route) (hwf : r0.WF) (t : Int) (id : Nat) (ares : Flags) (res : InsRes)
    (hi : insert1 g A T r0 (.ok t) (.ok id) ares = some res)
    (hx : x ∈ T.ents) (hk : SameKey x r0) (hpend : Pending x) (hin : r0.flags.getLsbD 14 = false)
    (hadd : (configOf g r0.event).routeFlagsToAdd = 0) (hclear : (configOf g r0.event).routeFlagsToClear = 0)
    (hidle : (configOf g r0.event).routeIdleTimeForPurge ≤ 0) (hpa : r0.data.purgeAfter = 0) :
    res.res = .ok (.alreadyOk x.id) ∧ res.called = [] ∧
    (∃ y ∈ res.T.ents, y.id = x.id ∧ ¬ Pending y ∧ SameKey x y ∧ y.data.purgeAfter = 0 ∧
      y.data.connectionCount = x.data.connectionCount ∧ y.id ∉ res.T.purgeList) ∧
    (∀ y, y.id ≠ x.id → (y ∈ res.T.ents ↔ y ∈ T.ents)) := by
  have h := hT.inv.1
  obtain ⟨d, hd, rfl, hsp, hfd⟩ := insert_finds h hwf hi hx hk hin hadd hclear hidle hpa
  have hnp : x.flags.has RF.PENDING_DELETE = true := by
    rw [has_pending]; exact hpend
  have e : insertCommit g A T { r0 with data := d } (.ok id) ares =
      { T := (T.update { x with flags := x.flags &&& ~~~RF.PENDING_DELETE }).setExpiry { x with flags := x.flags &&& ~~~RF.PENDING_DELETE } 0,
        rule := { r0 with data := d, id := 0, flags := r0.flags &&& ~~~RF.IN_TABLE }, ares := ares, res := .ok (.alreadyOk x.id) } := by
    unfold insertCommit
    simp only [hsp, hfd, hnp, if_true, hd]
  rw [e]
  have hkk : KeepsKey x { x with flags := x.flags &&& ~~~RF.PENDING_DELETE } := keepsKey_andNot x _ (twoPow_low 15 (by decide))
  have hu := h.update hx hkk
  have hm : ({ x with flags := x.flags &&& ~~~RF.PENDING_DELETE } : Route) ∈ (T.update { x with flags := x.flags &&& ~~~RF.PENDING_DELETE }).ents :=
    (update_mem (r := x) (r' := { x with flags := x.flags &&& ~~~RF.PENDING_DELETE }) hx rfl _).2 (Or.inl rfl)
  refine ⟨rfl, rfl, ⟨withExpiry { x with flags := x.flags &&& ~~~RF.PENDING_DELETE } 0, ?_, rfl, ?_, ?_, rfl, rfl, ?_⟩, ?_⟩
  · simp only [setExpiry_ents]
    exact (update_mem (r := { x with flags := x.flags &&& ~~~RF.PENDING_DELETE })
      (r' := withExpiry { x with flags := x.flags &&& ~~~RF.PENDING_DELETE } 0) hm rfl _).2 (Or.inl rfl)
  · unfold Pending withExpiry RF.PENDING_DELETE bit
    simp
  · obtain ⟨a1, a2, a3, a4, a5, a6, a7, a8, a9, a10, a11, a12, a13⟩ := hkk.core.sameKey
    exact ⟨a1, a2, a3, a4, a5, a6, a7, a8, a9, a10, a11, a12, a13⟩
  · rw [setExpiry_mem hu hm]
    rintro (⟨_, h2⟩ | ⟨h2, _⟩)
    · exact h2 rfl
    · exact h2 rfl
  · intro y hy
    simp only [setExpiry_ents]
    rw [update_mem (r := { x with flags := x.flags &&& ~~~RF.PENDING_DELETE })
        (r' := withExpiry { x with flags := x.flags &&& ~~~RF.PENDING_DELETE } 0) hm rfl,
      update_mem (r := x) (r' := { x with flags := x.flags &&& ~~~RF.PENDING_DELETE }) hx rfl]
    constructor
    · rintro (h' | ⟨h' | ⟨h', _⟩, _⟩)
      · rw [h'] at hy; exact absurd rfl hy
      · rw [h'] at hy; exact absurd rfl hy
      · exact h'
    · intro h'; exact Or.inr ⟨Or.inr ⟨h', hy⟩, hy⟩

/-! Instances: `ruleA` of `tableAB` gets a connection and is deleted. -/

/-- `tableAB` with one connection on rule 1, last hit at time 100. -/
def tableConn : RouteTable := tableAB.update
  { ruleA with id := 1, flags := bit 10 ||| bit 14, data := { insertTime := 1, connectionCount := 1, lastHitTime := 100 } }

theorem reach_tableConn : Reach {} false tableConn :=
  Reach.step reach_tableAB (Step.touch { ruleA with id := 1, flags := bit 10 ||| bit 14, data := { insertTime := 1 } } (by decide)
    { insertTime := 1, connectionCount := 1, lastHitTime := 100 } rfl)

/-- The same after deleting rule 1. -/
def tablePending : RouteTable := (deleteById {} {} tableConn 1 0).1

theorem reach_tablePending : Reach {} false tablePending := Reach.step reach_tableConn (Step.deleteId {} 1 0)

example : (deleteById {} {} tableConn 1 0).2.2 = .ok .deferred ∧ tablePending.purgeList = [1, 2] ∧
    (deleteById {} {} tableConn 2 0).2.2 = .ok .deleted ∧ (deleteById {} {} tableConn 2 0).1.purgeList = [] := by decide
/-- Reinsertion of `ruleA` revives rule 1. -/
example : ∃ res, insert1 {} {} tablePending ruleA (.ok 200) (.ok 3) 0 = some res ∧ res.res = .ok (.alreadyOk 1) ∧ res.T.purgeList = [2] :=
  ⟨_, rfl, by decide, by decide⟩

/-- The last part of C15 does not hold: nothing looks at the connection count reaching zero — the rule
stays in the table, pending, without connections (the decrement of the count is the only effect of
a disconnect on the rule, cf. the dispatch model); it goes only when it expires. -/
theorem C15_stays_at_zero : ∃ (T : RouteTable) (r : Route), Reach {} false T ∧ r ∈ T.ents ∧ Pending r ∧ r.data.connectionCount = 0 :=
  ⟨tablePending.update { ruleA with id := 1, flags := bit 10 ||| bit 14 ||| bit 15, data := { insertTime := 1, connectionCount := 0, lastHitTime := 100, purgeAfter := 60000100 } },
   { ruleA with id := 1, flags := bit 10 ||| bit 14 ||| bit 15, data := { insertTime := 1, connectionCount := 0, lastHitTime := 100, purgeAfter := 60000100 } },
   Reach.step reach_tablePending (Step.touch { ruleA with id := 1, flags := bit 10 ||| bit 14 ||| bit 15, data := { insertTime := 1, connectionCount := 1, lastHitTime := 100, purgeAfter := 60000100 } } (by decide) _ rfl),
   by decide, by unfold Pending; decide, rfl⟩

/-- And conversely a rule pending deletion is purged when it expires although it still has
connections. -/
theorem C15_purged_with_connections : ∃ (T : RouteTable) (r : Route) (x : RouteTable × Flags × Except Err Unit), Reach {} false T ∧
    r ∈ T.ents ∧ Pending r ∧ 0 < r.data.connectionCount ∧
    stalePurge {} {} .all 60000200 10 T 0 = some x ∧ ∀ y ∈ x.1.ents, y.id ≠ r.id :=
  ⟨tablePending, { ruleA with id := 1, flags := bit 10 ||| bit 14 ||| bit 15, data := { insertTime := 1, connectionCount := 1, lastHitTime := 100, purgeAfter := 60000100 } }, _, reach_tablePending,
   by decide, by unfold Pending; decide, by decide, rfl, by decide⟩

/-! ## C16 -/

/-- The last entry of the queue is a rule of the table, with an expiry. -/
theorem last_rule {T : RouteTable} (h : TableInv T) {id : Nat} (hl : T.purgeList.getLast? = some id) :
    ∃ r, r ∈ T.ents ∧ r.id = id ∧ Purgeable r ∧ T.get? id = some r := by
  obtain ⟨r, hr, h1, h2⟩ := (h.purge.mem id).1 (List.mem_of_getLast? hl)
  exact ⟨r, hr, h1, h2, by rw [← h1]; exact get?_mem h.core.ids hr⟩

/-- ... and in a sorted queue no rule expires before it. -/
theorem last_min {T : RouteTable} (h : TableInv T) (hs : PurgeSorted T) {v : Route} (hv : v ∈ T.ents)
    (hl : T.purgeList.getLast? = some v.id) : ∀ r ∈ T.ents, Purgeable r → v.data.purgeAfter ≤ r.data.purgeAfter := by
  intro r hr hp
  have hm : r.id ∈ T.purgeList := (h.purge.mem _).2 ⟨r, hr, rfl, hp⟩
  rw [← expiry_mem h.core.ids hv, ← expiry_mem h.core.ids hr]
  obtain ⟨ys, hys⟩ := List.getLast?_eq_some_iff.1 hl
  unfold PurgeSorted at hs
  rw [hys] at hs hm
  rcases List.mem_append.1 hm with hm | hm
  · exact (List.pairwise_append.1 hs).2.2 _ hm _ (List.mem_singleton.2 rfl)
  · rw [List.mem_singleton.1 hm]; exact Int.le_refl _

theorem purgeLoop_spec {g : EventConfig} {A : RuleActs} {mode : PurgeMode} {now : Int} (fuel : Nat) :
    ∀ (T : RouteTable) (ares : Flags) (n : Nat), TableInv T → ∀ (x : RouteTable × Flags × Nat),
      purgeLoop g A mode now fuel T ares n = some x →
      TableInv x.1 ∧ x.1.ents.Sublist T.ents ∧
      (∀ r ∈ T.ents, r ∉ x.1.ents → Purgeable r ∧ (mode ≠ .unconditional → r.data.purgeAfter ≤ now)) ∧
      (PurgeSorted T → PurgeSorted x.1 ∧
        (∀ r ∈ T.ents, r ∉ x.1.ents → ∀ y ∈ x.1.ents, Purgeable y → r.data.purgeAfter ≤ y.data.purgeAfter) ∧
        (mode = .all → ∀ y ∈ x.1.ents, Purgeable y → now < y.data.purgeAfter)) := by
  induction fuel with
  | zero => intro T ares n _ x hx; cases hx
  | succ fuel ih =>
    intro T ares n h x hx
    unfold purgeLoop at hx
    have same : x.1 = T → TableInv x.1 ∧ x.1.ents.Sublist T.ents ∧
      (∀ r ∈ T.ents, r ∉ x.1.ents → Purgeable r ∧ (mode ≠ .unconditional → r.data.purgeAfter ≤ now)) ∧
      (PurgeSorted T → PurgeSorted x.1 ∧
        (∀ r ∈ T.ents, r ∉ x.1.ents → ∀ y ∈ x.1.ents, Purgeable y → r.data.purgeAfter ≤ y.data.purgeAfter)) := by
      intro e; rw [e]
      exact ⟨h, List.Sublist.refl _, fun r hr hn => absurd hr hn, fun hs => ⟨hs, fun r hr hn => absurd hr hn⟩⟩
    cases hl : T.purgeList.getLast? with
    | none =>
      rw [hl] at hx; simp only [Option.some.injEq] at hx
      obtain ⟨s1, s2, s3, s4⟩ := same (by rw [← hx])
      refine ⟨s1, s2, s3, fun hs => ⟨(s4 hs).1, (s4 hs).2, fun _ y hy hp => ?_⟩⟩
      rw [← hx] at hy
      have := (h.purge.mem y.id).2 ⟨y, hy, rfl, hp⟩
      rw [List.getLast?_eq_none_iff.1 hl] at this; cases this
    | some id =>
      obtain ⟨v, hv, hvid, hvp, hget⟩ := last_rule h hl
      rw [hl] at hx; simp only [hget] at hx
      by_cases h1 : mode ≠ .unconditional ∧ v.data.purgeAfter > now
      · rw [if_pos h1] at hx; simp only [Option.some.injEq] at hx
        obtain ⟨s1, s2, s3, s4⟩ := same (by rw [← hx])
        refine ⟨s1, s2, s3, fun hs => ⟨(s4 hs).1, (s4 hs).2, fun _ y hy hp => ?_⟩⟩
        rw [← hx] at hy
        have := last_min h hs hv (by rw [hvid]; exact hl) y hy hp
        omega
      · rw [if_neg h1] at hx
        by_cases h2 : mode ≠ .unconditional ∧ purgeSkip T now v = true
        · rw [if_pos h2] at hx; exact ih T ares n h x hx
        · rw [if_neg h2] at hx
          simp only [delete0_now] at hx
          have hinv := h.removeRule hv
          have hmem := removeRule_mem h.core.ids hv
          have hsub : (T.removeRule v).ents.Sublist T.ents := List.filter_sublist
          have hexp : mode ≠ .unconditional → v.data.purgeAfter ≤ now := fun hm => by
            exact Int.not_lt.1 (fun hc => h1 ⟨hm, hc⟩)
          have hmin : PurgeSorted T → ∀ r ∈ T.ents, Purgeable r → v.data.purgeAfter ≤ r.data.purgeAfter :=
            fun hs => last_min h hs hv (by rw [hvid]; exact hl)
          by_cases h3 : mode = .all
          · rw [if_pos h3] at hx
            obtain ⟨i1, i2, i3, i4⟩ := ih _ _ _ hinv x hx
            refine ⟨i1, i2.trans hsub, ?_, ?_⟩
            · intro r hr hn
              by_cases hrv : r = v
              · rw [hrv]; exact ⟨hvp, hexp⟩
              · exact i3 r ((hmem r).2 ⟨hr, hrv⟩) hn
            · intro hs
              obtain ⟨j1, j2, j3⟩ := i4 (hs.removeRule h hv)
              refine ⟨j1, ?_, j3⟩
              intro r hr hn y hy hp
              by_cases hrv : r = v
              · rw [hrv]; exact hmin hs y ((i2.trans hsub).mem hy) hp
              · exact j2 r ((hmem r).2 ⟨hr, hrv⟩) hn y hy hp
          · rw [if_neg h3] at hx; simp only [Option.some.injEq] at hx
            rw [← hx]
            refine ⟨hinv, hsub, ?_, ?_⟩
            · intro r hr hn
              by_cases hrv : r = v
              · rw [hrv]; exact ⟨hvp, hexp⟩
              · exact absurd ((hmem r).2 ⟨hr, hrv⟩) hn
            · intro hs
              refine ⟨hs.removeRule h hv, ?_, fun hm => absurd hm h3⟩
              intro r hr hn y hy hp
              by_cases hrv : r = v
              · rw [hrv]; exact hmin hs y (hsub.mem hy) hp
              · exact absurd ((hmem r).2 ⟨hr, hrv⟩) hn

theorem stalePurge_spec {g : EventConfig} {A : RuleActs} {mode : PurgeMode} {now : Int} {fuel : Nat} {T : RouteTable} {ares : Flags}
    (h : TableInv T) {x : RouteTable × Flags × Except Err Unit} (hx : stalePurge g A mode now fuel T ares = some x) :
      x.1.ents.Sublist T.ents ∧
      (∀ r ∈ T.ents, r ∉ x.1.ents → Purgeable r ∧ (mode ≠ .unconditional → r.data.purgeAfter ≤ now)) ∧
      (PurgeSorted T →
        (∀ r ∈ T.ents, r ∉ x.1.ents → ∀ y ∈ x.1.ents, Purgeable y → r.data.purgeAfter ≤ y.data.purgeAfter) ∧
        (mode = .all → ∀ y ∈ x.1.ents, Purgeable y → now < y.data.purgeAfter)) := by
  unfold stalePurge at hx
  cases hl : T.purgeList.getLast? with
  | none =>
    rw [hl] at hx; simp only [Option.some.injEq] at hx; rw [← hx]
    refine ⟨List.Sublist.refl _, fun r hr hn => absurd hr hn, fun _ => ⟨fun r hr hn => absurd hr hn, fun _ y hy hp => ?_⟩⟩
    have := (h.purge.mem y.id).2 ⟨y, hy, rfl, hp⟩
    rw [List.getLast?_eq_none_iff.1 hl] at this; cases this
  | some id =>
    obtain ⟨v, hv, hvid, hvp, hget⟩ := last_rule h hl
    rw [hl] at hx; simp only at hx
    by_cases h1 : mode ≠ .unconditional ∧ T.expiry id > now
    · rw [if_pos h1] at hx; simp only [Option.some.injEq] at hx; rw [← hx]
      refine ⟨List.Sublist.refl _, fun r hr hn => absurd hr hn, fun hs => ⟨fun r hr hn => absurd hr hn, fun _ y hy hp => ?_⟩⟩
      have := last_min h hs hv (by rw [hvid]; exact hl) y hy hp
      have h2 := h1.2
      rw [← hvid, expiry_mem h.core.ids hv] at h2
      omega
    · rw [if_neg h1] at hx
      cases hp : purgeLoop g A mode now fuel T ares 0 with
      | none => rw [hp] at hx; cases hx
      | some z =>
        obtain ⟨T', ares', n⟩ := z
        rw [hp] at hx; simp only [Option.some.injEq] at hx
        obtain ⟨_, s2, s3, s4⟩ := purgeLoop_spec fuel T ares 0 h _ hp
        rw [← hx]
        exact ⟨s2, s3, fun hs => (s4 hs).2⟩

/-- C16: a purge removes only rules that have an expiry, and — unless it is the forced eviction of an
insertion — only rules whose expiry is past; the other rules stay as they are, in order. -/
theorem C16_only_expired (g : EventConfig) (b : Bool) (A : RuleActs) (T : RouteTable) (hT : Reach g b T) (mode : PurgeMode)
    (hm : mode ≠ .unconditional) (now : Int) (fuel : Nat) (ares : Flags) (x : RouteTable × Flags × Except Err Unit)
    (hx : stalePurge g A mode now fuel T ares = some x) :
    x.1.ents.Sublist T.ents ∧ ∀ r ∈ T.ents, r ∈ x.1.ents ∨ Expired now r := by
  obtain ⟨h1, h2, _⟩ := stalePurge_spec hT.inv.1 hx
  refine ⟨h1, fun r hr => ?_⟩
  by_cases hin : r ∈ x.1.ents
  · exact Or.inl hin
  · obtain ⟨h3, h4⟩ := h2 r hr hin
    exact Or.inr ⟨h3, h4 hm⟩

/-- C16: also the forced eviction never removes a rule without expiry. -/
theorem C16_only_purgeable (g : EventConfig) (b : Bool) (A : RuleActs) (T : RouteTable) (hT : Reach g b T) (mode : PurgeMode)
    (now : Int) (fuel : Nat) (ares : Flags) (x : RouteTable × Flags × Except Err Unit)
    (hx : stalePurge g A mode now fuel T ares = some x) (r : Route) (hr : r ∈ T.ents) (hn : ¬ Purgeable r) : r ∈ x.1.ents :=
  Classical.byContradiction (fun hc => hn ((stalePurge_spec hT.inv.1 hx).2.1 r hr hc).1)

/-- C16: oldest expiry first — every rule a purge (of any kind) removes expires no later than every
rule it keeps.  For histories without a dispatch hitting the rule at the end of the purge queue;
`C16_hit_breaks_order` shows what such a hit does. -/
theorem C16_oldest_first_partial (g : EventConfig) (A : RuleActs) (T : RouteTable) (hT : Reach g false T) (mode : PurgeMode)
    (now : Int) (fuel : Nat) (ares : Flags) (x : RouteTable × Flags × Except Err Unit)
    (hx : stalePurge g A mode now fuel T ares = some x) (r y : Route) (hr : r ∈ T.ents) (hgone : r ∉ x.1.ents)
    (hy : y ∈ x.1.ents) (hp : Purgeable y) : r.data.purgeAfter ≤ y.data.purgeAfter :=
  ((stalePurge_spec hT.inv.1 hx).2.2 (hT.inv.2 rfl)).1 r hr hgone y hy hp

/-- C16: a full purge leaves no expired rule (same restriction). -/
theorem C16_complete_partial (g : EventConfig) (A : RuleActs) (T : RouteTable) (hT : Reach g false T)
    (now : Int) (fuel : Nat) (ares : Flags) (x : RouteTable × Flags × Except Err Unit)
    (hx : stalePurge g A .all now fuel T ares = some x) (y : Route) (hy : y ∈ x.1.ents) : ¬ Expired now y := by
  intro ⟨h1, h2⟩
  have := ((stalePurge_spec hT.inv.1 hx).2.2 (hT.inv.2 rfl)).2 rfl y hy h1
  omega

/-- C16: the purge queue is ordered, latest expiry first, and holds each rule with an expiry once. -/
theorem C16_queue_sorted_partial (g : EventConfig) (T : RouteTable) (hT : Reach g false T) :
    ∃ L : List Route, L.Pairwise (fun a b => b.data.purgeAfter ≤ a.data.purgeAfter) ∧ T.purgeList = L.map (·.id) ∧
      L.Perm (T.ents.filter (fun r => decide (Purgeable r))) := by
  have h := hT.inv.1
  have hs := hT.inv.2 rfl
  have key : ∀ q : List Nat, (∀ id ∈ q, ∃ r ∈ T.ents, r.id = id ∧ r.data.purgeAfter ≠ 0) →
      q.Pairwise (fun a b => T.expiry b ≤ T.expiry a) →
      ∃ L : List Route, L.Pairwise (fun a b => b.data.purgeAfter ≤ a.data.purgeAfter) ∧ q = L.map (·.id) ∧
        (∀ r ∈ L, r ∈ T.ents ∧ Purgeable r) := by
    intro q
    induction q with
    | nil => intro _ _; exact ⟨[], List.Pairwise.nil, rfl, fun r hr => by cases hr⟩
    | cons id q ih =>
      intro hm hp
      rw [List.pairwise_cons] at hp
      obtain ⟨L, l1, l2, l3⟩ := ih (fun i hi => hm i (List.mem_cons_of_mem _ hi)) hp.2
      obtain ⟨r, hr, rid, rp⟩ := hm id (List.mem_cons_self ..)
      refine ⟨r :: L, List.pairwise_cons.2 ⟨?_, l1⟩, by rw [List.map_cons, rid, l2], ?_⟩
      · intro y hy
        have := hp.1 y.id (by rw [l2]; exact List.mem_map.2 ⟨y, hy, rfl⟩)
        rwa [← rid, expiry_mem h.core.ids hr, expiry_mem h.core.ids (l3 y hy).1] at this
      · intro y hy
        rcases List.mem_cons.1 hy with e | e
        · rw [e]; exact ⟨hr, rp⟩
        · exact l3 y e
  obtain ⟨L, l1, l2, l3⟩ := key T.purgeList (fun id hid => (h.purge.mem id).1 hid) hs
  refine ⟨L, l1, l2, ?_⟩
  have hnd : (L.map (·.id)).Nodup := by rw [← l2]; exact h.purge.nodup
  have hndL : L.Nodup := List.Pairwise.of_map (·.id) (fun a b hab e => hab (by rw [e])) hnd
  have hndE : T.ents.Nodup := List.Pairwise.of_map (·.id) (fun a b hab e => hab (by rw [e])) h.core.ids
  rw [List.perm_ext_iff_of_nodup hndL (hndE.sublist List.filter_sublist)]
  intro r
  rw [List.mem_filter]
  constructor
  · intro hr; exact ⟨(l3 r hr).1, decide_eq_true (l3 r hr).2⟩
  · rintro ⟨hr, hp⟩
    have : r.id ∈ L.map (·.id) := by rw [← l2]; exact (h.purge.mem r.id).2 ⟨r, hr, rfl, of_decide_eq_true hp⟩
    obtain ⟨y, hy, e⟩ := List.mem_map.1 this
    rw [← id_inj h.core.ids (l3 y hy).1 hr e]; exact hy

/-- A rule the purge loop cannot get past: expired, with connections, not pending deletion, and idle
for longer than the table's idle limit (or no limit is set). -/
def Held (T : RouteTable) (now : Int) (r : Route) : Prop :=
  0 < r.data.connectionCount ∧ ¬ Pending r ∧ (T.maxPurgeableIdleTime = 0 ∨ T.maxPurgeableIdleTime < now - r.data.lastHitTime)

theorem purgeSkip_iff (T : RouteTable) (now : Int) (r : Route) : purgeSkip T now r = true ↔ Held T now r := by
  unfold purgeSkip Held Pending
  rw [has_pending]
  simp only [Bool.and_eq_true, Bool.or_eq_true, decide_eq_true_eq, Bool.not_eq_true', Bool.not_eq_true]
  constructor
  · rintro ⟨⟨h1, h2⟩, h3⟩; exact ⟨h1, h2, by omega⟩
  · rintro ⟨h1, h2, h3⟩; exact ⟨⟨h1, h2⟩, by omega⟩

theorem purgeLoop_term {g : EventConfig} {A : RuleActs} {mode : PurgeMode} {now : Int} (fuel : Nat) :
    ∀ (T : RouteTable) (ares : Flags) (n : Nat), TableInv T → (∀ r ∈ T.ents, Expired now r → ¬ Held T now r) →
      T.purgeList.length < fuel → ∃ x, purgeLoop g A mode now fuel T ares n = some x := by
  induction fuel with
  | zero => intro T ares n _ _ h; omega
  | succ fuel ih =>
    intro T ares n h hheld hf
    unfold purgeLoop
    cases hl : T.purgeList.getLast? with
    | none => exact ⟨_, rfl⟩
    | some id =>
      obtain ⟨v, hv, hvid, hvp, hget⟩ := last_rule h hl
      simp only [hget]
      by_cases h1 : mode ≠ .unconditional ∧ v.data.purgeAfter > now
      · rw [if_pos h1]; exact ⟨_, rfl⟩
      · rw [if_neg h1]
        have h2 : ¬ (mode ≠ .unconditional ∧ purgeSkip T now v = true) := by
          rintro ⟨hm, hs⟩
          refine hheld v hv ⟨hvp, ?_⟩ ((purgeSkip_iff _ _ _).1 hs)
          exact Int.not_lt.1 (fun hc => h1 ⟨hm, hc⟩)
        rw [if_neg h2]
        simp only [delete0_now]
        by_cases h3 : mode = .all
        · rw [if_pos h3]
          refine ih _ _ _ (h.removeRule hv) ?_ ?_
          · intro r hr he hh
            exact hheld r ((removeRule_mem h.core.ids hv r).1 hr).1 he hh
          · rw [removeRule_list h hv]
            have hin : v.id ∈ T.purgeList := by rw [hvid]; exact List.mem_of_getLast? hl
            have : (qWithout T v.id).length < T.purgeList.length := by
              unfold qWithout
              refine Nat.lt_of_le_of_ne (List.length_filter_le _ _) (fun he => ?_)
              have := List.length_filter_eq_length_iff.1 he v.id hin
              simp at this
            omega
        · rw [if_neg h3]; exact ⟨_, rfl⟩

/-- C16: the purge terminates when no expired rule is held; as many rounds as the queue is long, and
one, are enough.
Missing from the full claim: held rules — the purge then never returns, `C16_purge_diverges`. -/
theorem C16_terminates_partial (g : EventConfig) (b : Bool) (A : RuleActs) (T : RouteTable) (hT : Reach g b T) (mode : PurgeMode)
    (now : Int) (fuel : Nat) (ares : Flags) (hheld : ∀ r ∈ T.ents, Expired now r → ¬ Held T now r)
    (hf : purgeableCount T.ents < fuel) : ∃ x, stalePurge g A mode now fuel T ares = some x := by
  have h := hT.inv.1
  rw [← purgeList_length h] at hf
  unfold stalePurge
  cases hl : T.purgeList.getLast? with
  | none => exact ⟨_, rfl⟩
  | some id =>
    simp only
    by_cases h1 : mode ≠ .unconditional ∧ T.expiry id > now
    · rw [if_pos h1]; exact ⟨_, rfl⟩
    · rw [if_neg h1]
      obtain ⟨x, hx⟩ := purgeLoop_term (g := g) (A := A) (mode := mode) (now := now) fuel T ares 0 h hheld hf
      rw [hx]; exact ⟨_, rfl⟩

/-- `tableAB` purged at time 600: rule 2 goes, rule 1 stays. -/
example : ∃ x, stalePurge {} {} .all 600 10 tableAB 0 = some x ∧ x.1.ents.map (·.id) = [1] ∧ x.1.purgeList = [] := ⟨_, rfl, by decide, by decide⟩
example : ∀ r ∈ tableAB.ents, Expired 600 r → ¬ Held tableAB 600 r := by
  intro r hr _ h
  have : ∀ r ∈ tableAB.ents, r.data.connectionCount = 0 := by decide
  have := this r hr
  have := h.1
  omega

/-- Rule 2 of `tableAB` with a connection. -/
def tableHeld : RouteTable := tableAB.update
  { ruleB with id := 2, flags := bit 10 ||| bit 14, data := { insertTime := 1, purgeAfter := 500, connectionCount := 1, lastHitTime := 100 } }

theorem reach_tableHeld : Reach {} false tableHeld :=
  Reach.step reach_tableAB (Step.touch { ruleB with id := 2, flags := bit 10 ||| bit 14, data := { insertTime := 1, purgeAfter := 500 } } (by decide)
    { insertTime := 1, purgeAfter := 500, connectionCount := 1, lastHitTime := 100 } rfl)

/-- C16 fails: a purge over an expired rule with a live connection (and no idle limit) looks at that
rule again and again — no number of rounds is enough. -/
theorem C16_purge_diverges : ∃ T, Reach {} false T ∧ ∀ (mode : PurgeMode), mode ≠ .unconditional →
    ∀ fuel, stalePurge {} {} mode 600 fuel T 0 = none := by
  refine ⟨tableHeld, reach_tableHeld, fun mode hm fuel => ?_⟩
  have hloop : ∀ fuel, purgeLoop {} {} mode 600 fuel tableHeld 0 0 = none := by
    intro fuel
    induction fuel with
    | zero => rfl
    | succ fuel ih =>
      unfold purgeLoop
      have hl : tableHeld.purgeList.getLast? = some 2 := by decide
      have hg : tableHeld.get? 2 = some { ruleB with id := 2, flags := bit 10 ||| bit 14, data := { insertTime := 1, purgeAfter := 500, connectionCount := 1, lastHitTime := 100 } } := by decide
      simp only [hl, hg]
      rw [if_neg (by rintro ⟨_, h⟩; revert h; decide), if_pos ⟨hm, by decide⟩]
      exact ih
  unfold stalePurge
  have hl : tableHeld.purgeList.getLast? = some 2 := by decide
  simp only [hl]
  rw [if_neg (by rintro ⟨_, h⟩; revert h; decide), hloop]

/-- `tableAB` with an expiry of 700 on rule 1, then hit on rule 2 (idle time 1000, last hit at 100). -/
def tableTailHit : RouteTable :=
  (tableAB.setExpiry { ruleA with id := 1, flags := bit 10 ||| bit 14, data := { insertTime := 1 } } 700).hitExpiry
    { ruleB with id := 2, flags := bit 10 ||| bit 14, data := { insertTime := 1, purgeAfter := 500 } } 1000 100

/-- C16 fails after a dispatch hits the rule at the end of the queue: the rule keeps its place
although its expiry moved, the queue is out of order, and a full purge that returns leaves an
expired rule in the table. -/
theorem C16_hit_breaks_order : ∃ (T : RouteTable) (x : RouteTable × Flags × Except Err Unit) (y : Route), Reach {} true T ∧
    stalePurge {} {} .all 1000 10 T 0 = some x ∧ y ∈ x.1.ents ∧ Expired 1000 y := by
  refine ⟨tableTailHit, _, { ruleA with id := 1, flags := bit 10 ||| bit 14, data := { insertTime := 1, purgeAfter := 700 } }, ?_, rfl, by decide, by unfold Expired Purgeable; decide⟩
  have hAB : Reach {} true tableAB := by
    have mono : ∀ {T T' : RouteTable}, Step {} false T T' → Step {} true T T' := by
      intro T T' h
      cases h with
      | insert A r0 now newId ares res hA hwf hid h hok => exact Step.insert A r0 now newId ares res hA hwf hid h hok
      | deleteKey A key ares hwf => exact Step.deleteKey A key ares hwf
      | deleteId A id ares => exact Step.deleteId A id ares
      | flush A ares => exact Step.flush A ares
      | purge A mode now fuel ares x h => exact Step.purge A mode now fuel ares x h
      | setExpiry r hr t => exact Step.setExpiry r hr t
      | updateFlags r hr set clear now ares x h => exact Step.updateFlags r hr set clear now ares x h
      | touch r hr d hd => exact Step.touch r hr d hd
      | hit r hr idle lastHit ht htail => exact Step.hit r hr idle lastHit ht (Or.inl rfl)
      | policy p T' h => exact Step.policy p _ h
      | maxPurgeable A now fuel n x h => exact Step.maxPurgeable A now fuel n x h
      | maxIdle t => exact Step.maxIdle t
      | bulkClear => exact Step.bulkClear
      | bulkInsert A hA ares => exact Step.bulkInsert A hA ares
    have : ∀ {T : RouteTable}, Reach {} false T → Reach {} true T := by
      intro T h
      induction h with
      | init a b c d e => exact Reach.init a b c d e
      | step _ hs ih => exact Reach.step ih (mono hs)
    exact this reach_tableAB
  exact Reach.step (Reach.step hAB (Step.setExpiry _ (by decide) 700)) (Step.hit _ (by decide) 1000 100 (by decide) (Or.inl rfl))

end WS.Props
