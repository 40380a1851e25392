import Verif.Props.TableState
import Verif.Props.Actions
/-
Further properties of a rule's life: which actions a deletion and a bulk run call (C26), and which
expiry a newly inserted rule gets (C16).
-/
namespace WS.Props
open WS Spec

/-- C26: deleting a rule without live connections runs its event's delete actions — that list, in order,
on the unlinked rule, marked as having had them — and reports their results. -/
theorem C26_delete_runs_list (g : EventConfig) (A : RuleActs) (T : RouteTable) (r : Route) (e : Event) (ares : Flags)
    (hr : T.get? r.id = some r) (hc : r.data.connectionCount = 0) (he : r.event = some e) (hd : e.deleteActions ≠ [])
    (hni : ¬ InhibitedBy g e) (hs : ares.getLsbD 6 = false) (hm : r.flags.getLsbD 17 = false) :
    (deleteById g A T r.id ares).2.1 =
      (runActions A.env .delete e.deleteActions { r with flags := (r.flags &&& ~~~(bit 14)) ||| bit 17 } ares).ares := by
  have hlen : e.deleteActions.length > 0 := List.length_pos_iff.2 hd
  have hinh : inhibited g e = false := by
    cases h : inhibited g e with
    | false => rfl
    | true => exact absurd ((inhibited_iff g e).1 h) hni
  have hstop : ares.has AR.STOP = false := by
    have := Flags.has_bit ares 6 (by decide)
    exact this.trans hs
  have hm' : (r.flags &&& ~~~RF.IN_TABLE).hasAll RF.DELETE_ACTIONS_CALLED = false := by
    have := hasAll_bit (r.flags &&& ~~~RF.IN_TABLE) 17 (by decide)
    refine this.trans ?_
    rw [BitVec.getLsbD_and, hm]; rfl
  unfold deleteById
  simp only [hr]
  unfold delete0
  rw [if_neg (by rw [hc]; simp)]
  simp only [deleteActions, he, if_pos hlen, listDispatch, hstop, Bool.false_eq_true, if_false]
  simp only [RuleActs.env, hm', hinh, Bool.false_eq_true, if_false]
  rfl

/-- C26: a bulk run of insert actions that reports no error has visited every rule of the table, in
table order. -/
theorem C26_bulk_visits_all (g : EventConfig) (A : RuleActs) (T : RouteTable) (ares : Flags)
    (h : (bulkInsertActions g A T ares).2.2.1 = none) :
    (bulkInsertActions g A T ares).2.2.2.map (·.1) = T.ents.map (·.id) := by
  have key : ∀ (l : List Route) (a : Flags), (bulkInsertLoop g A l a).2.2.1 = none →
      (bulkInsertLoop g A l a).2.2.2.map (·.1) = l.map (·.id) := by
    intro l
    induction l with
    | nil => intro a _; rfl
    | cons r rest ih =>
      intro a ha
      unfold bulkInsertLoop at ha ⊢
      simp only at ha ⊢
      split
      · rename_i e he
        rw [he] at ha
        simp only at ha
        split
        · rename_i h2
          rw [if_pos h2] at ha
          simp only [List.map_cons]
          rw [ih _ ha]
        · rename_i h2
          rw [if_neg h2] at ha; cases ha
      · rename_i he
        rw [he] at ha
        simp only [List.map_cons]
        rw [ih _ ha]
  exact key _ _ h

/-- C26: an error reported by a bulk run is the error of the insert actions of the rule it stopped at,
and every rule before that one was visited. -/
theorem C26_bulk_stops_at_error (g : EventConfig) (A : RuleActs) (T : RouteTable) (ares : Flags) (e : Err)
    (h : (bulkInsertActions g A T ares).2.2.1 = some e) :
    ∃ before r after a, T.ents = before ++ r :: after ∧ (insertActions g A r a).err = some e ∧ e ≠ .already ∧
      (bulkInsertActions g A T ares).2.2.2.map (·.1) = before.map (·.id) ++ [r.id] := by
  have key : ∀ (l : List Route) (a : Flags), (bulkInsertLoop g A l a).2.2.1 = some e →
      ∃ before r after a', l = before ++ r :: after ∧ (insertActions g A r a').err = some e ∧ e ≠ .already ∧
        (bulkInsertLoop g A l a).2.2.2.map (·.1) = before.map (·.id) ++ [r.id] := by
    intro l
    induction l with
    | nil => intro a h; cases h
    | cons r rest ih =>
      intro a ha
      unfold bulkInsertLoop at ha ⊢
      simp only at ha ⊢
      split
      · rename_i e' he
        rw [he] at ha
        simp only at ha
        split
        · rename_i h2
          rw [if_pos h2] at ha
          obtain ⟨b, x, c, a', h1, h3, h4, h5⟩ := ih _ ha
          exact ⟨r :: b, x, c, a', by rw [h1]; rfl, h3, h4, by simp only [List.map_cons, h5, List.cons_append]⟩
        · rename_i h2
          rw [if_neg h2] at ha
          cases ha
          exact ⟨[], r, rest, a, rfl, he, h2, rfl⟩
      · rename_i he
        rw [he] at ha
        obtain ⟨b, x, c, a', h1, h3, h4, h5⟩ := ih _ ha
        exact ⟨r :: b, x, c, a', by rw [h1]; rfl, h3, h4, by simp only [List.map_cons, h5, List.cons_append]⟩
  exact key _ _ h

/-- The expiry a rule gets on insertion: its own if it has one, else the configured idle time from
now, if one is configured, else none. -/
def ExpiryGiven (idle now own : Int) : Int :=
  if own ≠ 0 then own else if idle > 0 then now + idle else 0

/-- C16: the expiry of a rule right after its insertion. -/
theorem C16_expiry_of_inserted (g : EventConfig) (b : Bool) (A : RuleActs) (hA : A.Keeps) (T : RouteTable) (hT : Reach g b T)
    (r0 : Route) (hwf : r0.WF) (t : Int) (newId : Except Err Nat) (hid : FreshId T newId) (ares : Flags) (res : InsRes)
    (hi : insert1 g A T r0 (.ok t) newId ares = some res) (hok : res.res = .ok .inserted) :
    res.rule ∈ res.T.ents ∧ res.rule.data.purgeAfter = ExpiryGiven (configOf g r0.event).routeIdleTimeForPurge t r0.data.purgeAfter := by
  have h := hT.inv.1
  rcases insert1_cases h hid hi with ⟨_, e, h1⟩ | ⟨T1, t', r, ht, hp, hT1, hid1, rfl, _⟩
  · rw [h1] at hok; cases hok
  · cases ht
    have hrw := (insertPrepare_ok hp hwf).1
    have hpa : r.data.purgeAfter = ExpiryGiven (configOf g r0.event).routeIdleTimeForPurge t r0.data.purgeAfter := by
      unfold insertPrepare at hp
      simp only at hp
      split at hp
      · cases hp
      · split at hp
        · cases hp
        · split at hp
          · cases hp
          · cases hp
            simp only [clampWildcards, ExpiryGiven]
            by_cases h0 : r0.data.purgeAfter = 0
            · by_cases h1 : (configOf g r0.event).routeIdleTimeForPurge > 0
              · rw [if_pos ⟨h1, h0⟩, if_neg (fun h => h h0), if_pos h1]
              · rw [if_neg (fun h => h1 h.1), if_neg (fun h => h h0), if_neg h1, h0]
            · rw [if_neg (fun h => h0 h.2), if_pos h0]
    rcases insertCommit_cases g A hA T1 hT1.core.sorted r hrw newId hid1 ares with
      ⟨_, ⟨e, h1⟩, _⟩ | ⟨old, _, _, _, _, h5, _⟩ | ⟨id, ents, afs, st, _, hk, hsp, _, _, _, h6, h7⟩ | ⟨_, e, h5⟩
    · rw [h1] at hok; cases hok
    · rw [h5] at hok; cases hok
    · rw [h6, h7, (insertedTable_ents _ _ _ _).1]
      refine ⟨(routeSplice_perm hsp).mem_iff.2 (by simp), ?_⟩
      rw [hk.purgeAfter, ← hpa]; rfl
    · rw [h5] at hok; cases hok

/-! ### Instances -/

/-- A delete handler that sets a user bit in the results. -/
def flagging : RuleActs := { handler := fun _ _ r a => (r, a ||| bit 24, none) }

example : (deleteById {} flagging { ents := [{ ruleA with id := 1, event := some eventID, flags := bit 10 ||| bit 14 }], highestPriority := 0 } 1 0).2.1
    = bit 24 := by decide
example : (bulkInsertActions {} refuse { ents := [{ ruleA with id := 1, event := some eventID, flags := bit 10 ||| bit 14 }] } 0).2.2.1
    = some .notPermitted := by decide
example : (bulkInsertActions {} {} tableAB 0).2.2.1 = none := by decide
example : ∃ res, insert1 { routeIdleTimeForPurge := 100 } {} {} ruleA (.ok 5) (.ok 1) 0 = some res ∧ res.res = .ok .inserted ∧
    res.rule.data.purgeAfter = 105 := ⟨_, rfl, by decide, by decide⟩
example : ∃ res, insert1 { routeIdleTimeForPurge := 100 } {} {} ruleB (.ok 5) (.ok 1) 0 = some res ∧ res.res = .ok .inserted ∧
    res.rule.data.purgeAfter = 500 := ⟨_, rfl, by decide, by decide⟩

end WS.Props
