import Verif.Props.DispatchApi
/-
C16 and dispatch: the opportunistic purge in a dispatch and the rule being dispatched.
-/
namespace WS.Props
open WS Spec

/-- C16: a dispatch whose lock promotion works never purges the rule it is dispatching on: the rule is
still there, with a purge time in the future (or none), after the hit has been recorded and stale rules
have been purged.  (Times are non-negative, the configured idle time too.) -/
theorem C16_dispatch_keeps_own_rule_partial {σ : Type} {E : DispEnv σ} {idle now : Int} {w w1 : World σ} {a a1 : Flags} {r : Route}
    (hT : TableInv w.T) (hr : r ∈ w.T.ents) (hp : E.promote = true) (hc : E.clock = .ok now) (hn : 0 ≤ now) (hi : 0 ≤ idle)
    (h : E.arrive idle (.entry r.id) w a = some (w1, a1)) :
    ∃ r1, w1.T.get? r.id = some r1 ∧ r1.data.lastHitTime = now ∧ (r1.data.purgeAfter = 0 ∨ now < r1.data.purgeAfter) := by
  have hg : w.get (.entry r.id) = some r := get?_mem hT.core.ids hr
  unfold DispEnv.arrive at h
  rw [hg] at h
  simp only [hc] at h
  generalize hr1 : stampHit (.ok now) r = r1 at h
  have hk : KeepsKey r r1 := by subst hr1; exact ⟨rfl, rfl, rfl, rfl, rfl, rfl, fun _ _ => rfl, rfl⟩
  have hlast : r1.data.lastHitTime = now := by subst hr1; rfl
  -- after recording the hit
  have hput : w.put (.entry r.id) r1 = { w with T := w.T.update r1 } := rfl
  rw [hput] at h
  unfold DispEnv.refresh at h
  simp only [hp, if_true] at h
  have hT1 := hT.update hr hk
  have hg1 : (w.T.update r1).get? r.id = some r1 := get?_update w.T r r1 r.id hg hk.id
  have hm1 := (get?_some hg1).1
  have ht0 : r1.data.lastHitTime + idle + 60000000 ≠ 0 := by rw [hlast]; omega
  have hT2 := hT1.hitExpiry hm1 idle r1.data.lastHitTime ht0
  have hfut : ∃ r2, ((w.T.update r1).hitExpiry r1 idle r1.data.lastHitTime).get? r.id = some r2 ∧ r2.data.lastHitTime = now ∧
      (r2.data.purgeAfter = 0 ∨ now < r2.data.purgeAfter) := by
    unfold RouteTable.hitExpiry
    simp only
    split
    · have := get?_update (w.T.update r1) r1 { r1 with data := { r1.data with purgeAfter := r1.data.lastHitTime + idle + 60000000 } } r.id hg1 rfl
      split
      · exact ⟨_, this, hlast, .inr (by show now < r1.data.lastHitTime + idle + 60000000; rw [hlast]; omega)⟩
      · exact ⟨_, this, hlast, .inr (by show now < r1.data.lastHitTime + idle + 60000000; rw [hlast]; omega)⟩
    · rename_i hne
      refine ⟨r1, hg1, hlast, ?_⟩
      by_cases h0 : r1.data.purgeAfter = 0
      · exact .inl h0
      · right
        have : ¬ (r1.data.lastHitTime + idle + 60000000 - r1.data.purgeAfter ≥ 60000000) := fun hx => hne ⟨h0, hx⟩
        rw [hlast] at this; omega
  obtain ⟨r2, hg2, hl2, hf2⟩ := hfut
  unfold DispEnv.purge at h
  simp only [hc] at h
  split at h
  · generalize hs : stalePurge E.g E.purgeActs .opportunistic now 1 ((w.T.update r1).hitExpiry r1 idle r1.data.lastHitTime) 0 = sp at h
    cases sp with
    | none => cases h
    | some x =>
      simp only [Option.map_some, Option.some.injEq, Prod.mk.injEq] at h
      obtain ⟨h1, _⟩ := h
      subst h1
      obtain ⟨p1, p2, _⟩ := stalePurge_spec hT2 hs
      have hin : r2 ∈ x.1.ents := by
        refine Classical.byContradiction (fun hno => ?_)
        obtain ⟨q1, q2⟩ := p2 r2 (get?_some hg2).1 hno
        have := q2 (by decide)
        rcases hf2 with hf | hf
        · exact q1 hf
        · omega
      have hnd : (x.1.ents.map (·.id)).Nodup := (p1.map _).nodup hT2.core.ids
      refine ⟨r2, ?_, hl2, hf2⟩
      have := get?_mem hnd hin
      rw [(get?_some hg2).2] at this
      exact this
  · simp only [Option.map_some, Option.some.injEq, Prod.mk.injEq] at h
    obtain ⟨h1, _⟩ := h
    subst h1
    exact ⟨r2, hg2, hl2, hf2⟩

/-- Rule 2 of `tableAB` expires at 500. -/
def worldAB : World Unit := { T := tableAB, ext := () }

/-- Non-vacuity, and the rule survives although it was overdue when the dispatch began. -/
example : TableInv tableAB ∧ (({ envQuiet with promote := true } : DispEnv Unit).arrive 0 (.entry 2) worldAB 0).map
    (fun x => (x.1.T.get? 2).map (fun r => r.data.purgeAfter)) = some (some 60001000) := ⟨reach_tableAB.inv.1, by decide⟩

/-- C16, finding: when the lock cannot be promoted (another thread also reads) but the purge gets its lock,
the dispatch frees the very rule it is working on; the C code then goes on using the freed memory. -/
theorem C16_dispatch_can_purge_own_rule :
    Reach {} false tableAB ∧ (worldAB.T.get? 2).isSome = true ∧
    (({ envQuiet with promote := false } : DispEnv Unit).arrive 0 (.entry 2) worldAB 0).map (fun x => (x.1.T.get? 2).isSome) = some false ∧
    (({ envQuiet with promote := false } : DispEnv Unit).dispatchById (fun _ => .error .itemNotFound) worldAB 2 none 0).isSome = false :=
  ⟨reach_tableAB, by decide, by decide, by decide⟩

end WS.Props
