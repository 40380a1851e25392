import Verif.Proof.Loaded4
/-
C84: the limit on purgeable rules, and all calls together.
-/
namespace WS.Ld
open WS WS.Conf WS.LT WS.Spec WS.Spec.Load WS.Spec.Ld

variable {issued : Nat → Nat → Prop} {old : List Nat}

/-- What a purge leaves: a table in order, some of the rules, all of those that have not expired. -/
structure Purged (now : Int) (T T' : RouteTable) : Prop where
  inv : TableInv T'
  queue : PurgeSorted T'
  sub : T'.ents.Sublist T.ents
  left : T'.ents.filter (fun r => r.data.purgeAfter = 0 ∨ now < r.data.purgeAfter) = T.ents.filter (fun r => r.data.purgeAfter = 0 ∨ now < r.data.purgeAfter)
  rest : SameRest T T'

theorem Purged.remove {now : Int} {T T' : RouteTable} (h : Purged now T T') {r : Route} (hr : r ∈ T'.ents) (h0 : r.data.purgeAfter ≠ 0)
    (hn : r.data.purgeAfter ≤ now) : Purged now T (T'.removeRule r) := by
  refine ⟨h.inv.removeRule hr, h.queue.removeRule h.inv hr, List.Sublist.trans (List.filter_sublist) h.sub, ?_, h.rest.trans (removeRule_rest _ _)⟩
  rw [← h.left]
  show (T'.ents.filter (fun x => x.id != r.id)).filter _ = _
  rw [List.filter_filter]
  apply List.filter_congr
  intro x hx
  by_cases hxr : x.id = r.id
  · have : x = r := id_inj h.inv.core.ids hx hr hxr
    subst this
    have : ¬ (x.data.purgeAfter = 0 ∨ now < x.data.purgeAfter) := by omega
    simp [this]
  · simp [hxr]

theorem purgeLoop_purged {g : EventConfig} {A : RuleActs} {now : Int} {T : RouteTable} : ∀ (fuel : Nat) (T' : RouteTable) (ares : Flags) (n : Nat),
    Purged now T T' → ∀ x, purgeLoop g A .all now fuel T' ares n = some x → Purged now T x.1 := by
  intro fuel
  induction fuel with
  | zero => intro T' ares n _ x hx; cases hx
  | succ fuel ih =>
    intro T' ares n h x hx
    unfold purgeLoop at hx
    split at hx
    · cases hx; exact h
    rename_i id hid
    split at hx
    · cases hx
    rename_i r hr
    have hrm : r ∈ T'.ents := List.mem_of_find?_eq_some hr
    have hri : r.id = id := by simpa using List.find?_some hr
    split at hx
    · cases hx; exact h
    rename_i hle
    split at hx
    · exact ih _ _ _ h x hx
    · simp only [if_true] at hx
      refine ih _ _ _ ?_ x hx
      rw [delete0_now]
      refine h.remove hrm ?_ ?_
      · obtain ⟨w, hw, he, hp⟩ := (h.inv.purge.mem id).1 (List.mem_of_getLast? hid)
        rw [id_inj h.inv.core.ids hrm hw (hri.trans he.symm)]; exact hp
      · have : ¬ (r.data.purgeAfter > now) := fun hc => hle ⟨by simp, hc⟩
        omega

theorem good_table {c : Cx} (hG : Good issued old c) {T : RouteTable} (h1 : TableInv T) (h2 : PurgeSorted T) (h3 : ∀ r ∈ T.ents, r ∈ c.routes.ents) :
    Good issued old { c with routes := T } :=
  { table := h1, queue := h2, linked := fun r hr => hG.linked r (h3 r hr), events := hG.events, actions := hG.actions,
    ids := fun r hr => hG.ids r (h3 r hr), past := hG.past }

theorem filter_map_seen (l : List Route) (t : Int) : (l.map seen).filter (fun s => s.expiry = 0 ∨ t < s.expiry) =
    (l.filter (fun r => r.data.purgeAfter = 0 ∨ t < r.data.purgeAfter)).map seen := by
  rw [List.filter_map]; rfl

theorem limit_does {H : Host} {w w' : World} (hG : Good issued old w.cx) {n : Nat} (h : maxPurgeableC H w n = (w', none)) :
    Good issued old w'.cx ∧ Does H.store (.maxPurgeableRoutes n) (view w.cx) (view w'.cx) := by
  have hexp : expiring (view w.cx).rules = w.cx.routes.purgeList.length := by
    rw [Props.purgeList_length hG.table]; exact expiring_seen _
  have hplain : ∀ w' : World, w'.cx = { w.cx with routes := { w.cx.routes with maxPurgeableRoutes := n } } →
      Good issued old w'.cx ∧ Does H.store (.maxPurgeableRoutes n) (view w.cx) (view w'.cx) := by
    intro w' hw
    rw [hw]
    exact ⟨hG.routes rfl rfl rfl rfl rfl, .limit (kept := (view w.cx).rules) (List.Sublist.refl _) (fun _ => rfl) ⟨0, rfl⟩⟩
  unfold maxPurgeableC at h
  simp only at h
  split at h
  · injection h with h _
    subst h
    exact hplain _ rfl
  · rename_i now _
    split at h
    · cases h
    rename_i T res hset
    injection h with hw herr
    subst hw
    unfold maxPurgeableSet at hset
    simp only at hset
    split at hset
    · rename_i hcond
      cases hp : stalePurge w.cx.global H.acts .all now (2 * w.cx.routes.purgeList.length + 2) { w.cx.routes with maxPurgeableRoutes := n } 0 with
      | none => rw [hp] at hset; cases hset
      | some x =>
        rw [hp] at hset
        injection hset with hset
        injection hset with hT _
        have h0 : Purged now { w.cx.routes with maxPurgeableRoutes := n } { w.cx.routes with maxPurgeableRoutes := n } :=
          ⟨⟨hG.table.core.congr rfl rfl rfl rfl, hG.table.purge.congr rfl rfl⟩, hG.queue.congr rfl rfl, List.Sublist.refl _, rfl, .refl _⟩
        have hx : Purged now { w.cx.routes with maxPurgeableRoutes := n } x.1 := by
          unfold stalePurge at hp
          split at hp
          · cases hp; exact h0
          · split at hp
            · cases hp; exact h0
            · split at hp
              · cases hp
              · rename_i T2 a2 n2 hl
                cases hp
                exact purgeLoop_purged _ _ _ _ h0 _ hl
        rw [hT] at hx
        refine ⟨good_table hG hx.inv hx.queue (fun r hr => hx.sub.subset hr), ?_⟩
        have hv : view { w.cx with routes := T } = { view w.cx with limit := n, rules := T.ents.map seen } := by
          unfold view
          simp only [hx.rest.1, hx.rest.2.1, hx.rest.2.2.1, hx.rest.2.2.2]
        show Does H.store _ (view w.cx) (view { w.cx with routes := T })
        rw [hv]
        refine .limit (hx.sub.map seen) ?_ ⟨now, ?_⟩
        · intro hc
          rw [hexp] at hc
          rcases hc with hc | hc
          · exact absurd hcond.1 (by show ¬ (w.cx.routes.maxPurgeableRoutes > n); exact Nat.not_lt.2 hc)
          · exact absurd hcond.2 (by omega)
        · show (T.ents.map seen).filter _ = (w.cx.routes.ents.map seen).filter _
          rw [filter_map_seen, filter_map_seen, hx.left]
    · injection hset with hset
      injection hset with hT _
      refine hplain _ ?_
      show ({ w.cx with routes := T } : Cx) = _
      rw [← hT]

/-- A successful library call does what it says, and keeps the context in order. -/
theorem libCall_does {H : Host} (hM : Mild H.acts) (hI : Issues H issued) {w w' : World} (hG : Good issued old w.cx) {k : Call} (hf : Fits k)
    (h : libCall H w k = (w', none)) : Good issued old w'.cx ∧ Does H.store k (view w.cx) (view w'.cx) := by
  unfold libCall at h
  simp only at h
  cases k with
  | defaultConfigUpdate conf =>
    simp only at h
    injection h with hw hr
    subst hw
    split
    · rename_i e he; rw [he] at hr; cases hr
    · rename_i i hi
      unfold cfgUpdate at hi
      simp only at hi
      split at hi
      · cases hi
      · injection hi with hi
        subst hi
        exact ⟨⟨hG.table, hG.queue, hG.linked, hG.events, hG.actions, hG.ids, hG.past⟩, .config⟩
  | defaultPolicySet p =>
    simp only at h
    injection h with hw hr
    subst hw
    split
    · rename_i e he; rw [he] at hr; cases hr
    · rename_i T hT
      have : T = { w.cx.routes with defaultPolicy := p } := by
        unfold defaultPolicySet at hT; grind
      subst this
      exact ⟨hG.routes rfl rfl rfl rfl rfl, .policy⟩
  | maxPurgeableRoutes n => exact limit_does (w := { w with tick := w.tick + 1 }) hG h
  | maxPurgeableIdleTime t =>
    simp only at h
    injection h with hw hr
    subst hw
    exact ⟨hG.routes rfl rfl rfl rfl rfl, .idle⟩
  | setDefaultEvent l =>
    simp only at h
    injection h with hw hr
    subst hw
    split
    · rename_i e he; rw [he] at hr; cases hr
    · rename_i e he
      obtain ⟨h1, _⟩ := event_ok he
      have hg := hG.routes (T := { w.cx.routes with defaultEvent := some e }) rfl rfl rfl rfl rfl
      refine ⟨⟨hg.table, hg.queue, hg.linked, hg.events, hg.actions, hg.ids, hg.past⟩, ?_⟩
      have := Does.dflt (store := H.store) h1
      rw [← (at_some h1).2] at this ⊢
      exact this
  | routeInsert remote loc flags l => exact routeInsert_does (w := { w with tick := w.tick + 1 }) hM hI hG hf h
  | eventInsert l prio conf =>
    simp only at h
    injection h with hw hr
    subst hw
    exact eventInsert_ok hI hG (Prod.ext rfl hr)
  | eventUpdateConfig l conf =>
    simp only at h
    injection h with hw hr
    subst hw
    split
    · rename_i e he; rw [he] at hr; cases hr
    · rename_i e he
      rw [he] at hr
      simp only at hr
      split
      · rename_i x hx; rw [hx] at hr; cases hr
      · rename_i i hi
        obtain ⟨h1, _⟩ := event_ok he
        have hl := (at_some h1).2
        subst hl
        have hs := setEvent_good hG (e := { e with config := some (ofCfg i.config) }) (e0 := e) h1 rfl
        refine ⟨hs.1, ?_⟩
        show Does H.store _ _ (view (w.cx.setEvent { e with config := some (ofCfg i.config) }))
        rw [hs.2]
        exact Does.eventConfig (store := H.store) h1 (cfgLoad_padded hi)
  | setAuxEvent l aux =>
    simp only at h
    injection h with hw hr
    subst hw
    split
    · rename_i e he; rw [he] at hr; cases hr
    · rename_i e he
      rw [he] at hr
      simp only at hr
      split
      · rename_i x hx; rw [hx] at hr; cases hr
      · rename_i e' he'
        exact ⟨hG, .aux (event_ok he).1 (event_ok he').1⟩
  | actionAppend l t al =>
    simp only at h
    injection h with hw hr
    subst hw
    obtain ⟨e, a, h1, h2, h3, h4, _, h5⟩ := actionAppend_ok hG (Prod.ext rfl hr)
    refine ⟨h4, ?_⟩
    show Does H.store _ _ (view (actionAppendC w.cx l t al).1)
    rw [h5]
    exact .action h1 h2 h3
  | copyActions l t src =>
    simp only at h
    injection h with hw hr
    subst hw
    split
    · rename_i e he; rw [he] at hr; cases hr
    · rename_i s hs
      rw [hs] at hr
      simp only at hr
      obtain ⟨h0, _⟩ := event_ok hs
      by_cases hne : s.postActions = []
      · rw [hne]
        exact ⟨hG, .copyNone h0 hne⟩
      · obtain ⟨e, h1, h2, h3, h4, h5⟩ := copyLoop_ok s.postActions hG (Prod.ext rfl hr) hne
        refine ⟨h4, ?_⟩
        show Does H.store _ _ (view (copyLoop l t s.postActions w.cx).1)
        rw [h5]
        exact .copy h1 h0 h2 h3
  | store k v =>
    simp only at h
    injection h with hw hr
    subst hw
    split
    · rename_i e he; rw [he] at hr; cases hr
    · rename_i vs hvs
      exact ⟨⟨hG.table, hG.queue, hG.linked, hG.events, hG.actions, hG.ids, hG.past⟩, .store hvs⟩

theorem refused_store {H : Host} {w w' : World} {k : List Byte} {v : UserValue} {e : Err} (h : libCall H w (.store k v) = (w', some e)) :
    w'.cx = w.cx := by
  unfold libCall at h
  simp only at h
  injection h with hw hr
  subst hw
  split
  · rfl
  · rename_i vs hvs; rw [hvs] at hr; cases hr

theorem made_done {H : Host} (hM : Mild H.acts) (hI : Issues H issued) {cs : List Call} {w w' : World} (h : Made H.env cs w w')
    (hf : ∀ c ∈ cs, Fits c) (hG : Good issued old w.cx) : Good issued old w'.cx ∧ Done H.store cs (view w.cx) (view w'.cx) := by
  induction h with
  | nil a => exact ⟨hG, .nil _⟩
  | cons h1 _ ih =>
    obtain ⟨hG1, hd⟩ := libCall_does hM hI hG (hf _ (List.mem_cons_self ..)) h1
    obtain ⟨hG2, hD⟩ := ih (fun c hc => hf c (List.mem_cons_of_mem _ hc)) hG1
    exact ⟨hG2, .cons hd hD⟩
  | refused h1 _ ih =>
    have := refused_store h1
    obtain ⟨hG2, hD⟩ := ih hf (by rw [this]; exact hG)
    rw [this] at hD
    exact ⟨hG2, hD⟩

end WS.Ld
