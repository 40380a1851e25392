import Verif.Proof.Loaded5
import Verif.Proof.LoadTx6
import Verif.Props.LoadTx
/-
Loaded configurations, part 6: flushes, drafts and the commit.
-/
namespace WS.Ld
open WS WS.Conf WS.Spec WS.Spec.Load WS.LT WS.Spec.LT WS.Spec.Ld WS.Props

variable {issued : Nat → Nat → Prop} {old : List Nat}

/-- A table without rules as it is made. -/
theorem empty_inv {T : RouteTable} (h1 : T.ents = []) (h2 : T.lastAfWildcard = none) (h3 : T.highestPriority = 65535) (h4 : T.bitmaskAfs = [])
    (h5 : T.purgeList = []) : TableInv T ∧ PurgeSorted T := by
  have h := (Reach.init (g := {}) (tailHits := false) 0 0 none none 0).inv
  exact ⟨⟨h.1.core.congr h1 h2 h3 h4, h.1.purge.congr h1 h5⟩, (h.2 rfl).congr h1 h5⟩

theorem fresh_good {c : Cx} (h1 : c.routes.ents = []) (h2 : c.routes.lastAfWildcard = none) (h3 : c.routes.highestPriority = 65535)
    (h4 : c.routes.bitmaskAfs = []) (h5 : c.routes.purgeList = []) (he : Ordered c.events)
    (ha : ∀ a ∈ c.actions, ∀ b ∈ c.actions, a.1 = b.1 → a = b) (hp : ∀ i ∈ old, issued c.idState i) : Good issued old c where
  table := (empty_inv h1 h2 h3 h4 h5).1
  queue := (empty_inv h1 h2 h3 h4 h5).2
  linked := by rw [h1]; intro r hr; cases hr
  events := he
  actions := ha
  ids := by rw [h1]; intro r hr; cases hr
  past := hp

theorem flush_table {g : EventConfig} {A : RuleActs} {T : RouteTable} (h : TableInv T) (hp : PurgeSorted T) (a : Flags) :
    TableInv (LT.flush g A T a).1 ∧ PurgeSorted (LT.flush g A T a).1 := by
  have he : (LT.flush g A T a).1 = (flushTable g A T a).1 := congrArg (·.1) (flush_eq_flushTable g A T a)
  rw [he]
  exact (flush_inv (g := g) (A := A) (fun T => TableInv T ∧ PurgeSorted T)
      (fun _ _ h hr => ⟨h.1.removeRule hr, h.2.removeRule h.1 hr⟩) (fun _ h => h.1.core.ids) T.ents T a ⟨h, hp⟩
      (fun _ hr => hr) h.core.ids).1

theorem inPlace_good (H : Host) (f : LoadFlags) {w : World} (hG : Good issued old w.cx) : Good issued old (InPlace H f w).cx := by
  have he : (LT.flush w.cx.global H.acts w.cx.routes 0).1.ents = [] := LT.flush_empty _ _ _ _
  obtain ⟨h1, h2⟩ := flush_table (g := w.cx.global) (A := H.acts) hG.table hG.queue 0
  have hr : ∀ r ∈ (LT.flush w.cx.global H.acts w.cx.routes 0).1.ents, False := by rw [he]; intro r hr; cases hr
  unfold InPlace
  split
  · exact hG
  · split
    · exact { table := h1, queue := h2, linked := fun r h => absurd (hr r h) id, events := hG.events, actions := hG.actions,
              ids := fun r h => absurd (hr r h) id, past := hG.past }
    · exact { table := h1, queue := h2, linked := fun r h => absurd (hr r h) id, events := List.Pairwise.nil, actions := hG.actions,
              ids := fun r h => absurd (hr r h) id, past := hG.past }

/-- What a load on an empty draft needs of a context: events in order, no two actions with one label, IDs of rules given out. -/
structure Usable (issued : Nat → Nat → Prop) (c : Cx) : Prop where
  events : Ordered c.events
  actions : ∀ a ∈ c.actions, ∀ b ∈ c.actions, a.1 = b.1 → a = b
  ids : ∀ r ∈ c.routes.ents, issued c.idState r.id

theorem Good.usable {c : Cx} (h : Good issued old c) : Usable issued c := ⟨h.events, h.actions, fun r hr => (h.ids r hr).1⟩

theorem draft_usable {f : LoadFlags} (hn : f.noFlush = false) {w : World} (hG : Usable issued w.cx) :
    Good issued (w.cx.routes.ents.map (·.id)) (Draft f w).cx := by
  have hp : ∀ i ∈ w.cx.routes.ents.map (·.id), issued w.cx.idState i := by
    intro i hi
    obtain ⟨r, hr, rfl⟩ := List.mem_map.1 hi
    exact hG.ids r hr
  have hh : f.how = .asAtCreation ∨ f.how = .noRoutes := by
    unfold LoadFlags.how; rw [hn]; cases f.onlyRoutes
    · exact .inl rfl
    · exact .inr rfl
  unfold Draft LT.clone
  rcases hh with hh | hh
  · rw [hh]
    exact fresh_good rfl rfl rfl rfl rfl List.Pairwise.nil hG.actions hp
  · rw [hh]
    exact fresh_good rfl rfl rfl rfl rfl hG.events hG.actions hp

theorem draft_good {f : LoadFlags} (hn : f.noFlush = false) {w : World} (hG : Good issued [] w.cx) :
    Good issued (w.cx.routes.ents.map (·.id)) (Draft f w).cx := draft_usable hn hG.usable

theorem noEmptyEvent (H : Host) : NoEmptyEvent H.env := by
  intro w h
  unfold Host.env libCall at h
  simp only at h
  split at h
  · cases h
  · rename_i e he
    exact (event_ok he).2 rfl

/-! ### The commit -/

theorem copyMeta_none : ∀ fs ts : List Route, (∀ f ∈ fs, ∀ t ∈ ts, f.id ≠ t.id) → copyMetaLoop fs ts = ts := by
  intro fs ts
  induction h : fs.length + ts.length using Nat.strongRecOn generalizing fs ts with
  | ind n ih =>
    subst h
    intro hne
    unfold copyMetaLoop
    split
    · rfl
    · rfl
    · rename_i f fs t ts
      split
      · rename_i he; exact absurd he (hne f (List.mem_cons_self ..) t (List.mem_cons_self ..))
      · split
        · exact ih _ (by simp only [List.length_cons]; omega) fs (t :: ts) rfl (fun x hx => hne x (List.mem_cons_of_mem _ hx))
        · rw [ih _ (by simp only [List.length_cons]; omega) (f :: fs) ts rfl (fun x hx y hy => hne x hx y (List.mem_cons_of_mem _ hy))]
        · rw [ih _ (by simp only [List.length_cons]; omega) fs ts rfl (fun x hx y hy => hne x (List.mem_cons_of_mem _ hx) y (List.mem_cons_of_mem _ hy))]

theorem bulk_seen {g : EventConfig} {A : RuleActs} (hA : Mild A) : ∀ (l : List Route) (a : Flags), (bulkInsertLoop g A l a).1.map seen = l.map seen := by
  intro l
  induction l with
  | nil => intro a; rfl
  | cons r l ih =>
    intro a
    have hs := insertActions_seen hA g r a
    unfold bulkInsertLoop
    simp only
    split
    · split
      · rw [List.map_cons, List.map_cons, hs, ih]
      · rw [List.map_cons, List.map_cons, hs]
    · rw [List.map_cons, List.map_cons, hs, ih]

theorem clearStatus_seen (l : List Route) : (l.map fun r : Route => ({ r with flags := r.flags &&& ~~~RF.INSERT_ACTIONS_CALLED } : Route)).map seen = l.map seen := by
  rw [List.map_map]
  apply List.map_congr_left
  intro r _
  show seen { r with flags := r.flags &&& ~~~RF.INSERT_ACTIONS_CALLED } = seen r
  unfold seen
  simp only [Seen.mk.injEq, true_and]
  refine ⟨?_, trivial⟩
  show (r.flags &&& ~~~RF.INSERT_ACTIONS_CALLED) &&& ~~~(bit 16 ||| bit 17) = r.flags &&& ~~~(bit 16 ||| bit 17)
  have : (~~~RF.INSERT_ACTIONS_CALLED : Flags) &&& ~~~(bit 16 ||| bit 17) = ~~~(bit 16 ||| bit 17) := by decide
  rw [BitVec.and_assoc, this]

/-- What a commit makes of a loaded clone without the rules of the context. -/
theorem commit_good {H : Host} (hM : Mild H.acts) {f : LoadFlags} (hn : f.noFlush = false) {a L : Cx}
    (hG : Good issued (a.routes.ents.map (·.id)) L) :
    let p := preCommit f a L
    let c : Cx := { p with routes := (bulkInsertActions p.global H.acts p.routes 0).1 }
    Good issued [] c ∧ (view c).rules = (view L).rules := by
  intro p c
  have hcm : copyMetadata a.routes L.routes = L.routes := by
    unfold copyMetadata
    rw [copyMeta_none _ _ (fun x hx y hy he => (hG.ids y hy).2 (by rw [← he]; exact List.mem_map.2 ⟨x, hx, rfl⟩))]
  have hst : p.routes = bulkClearInsertStatus L.routes := by
    show staged f a.routes L.routes = _
    unfold staged
    rw [hn, hcm]; rfl
  have hk1 : ∀ x ∈ L.routes.ents, KeepsKey x { x with flags := x.flags &&& ~~~RF.INSERT_ACTIONS_CALLED } := by
    intro x _
    refine ⟨rfl, rfl, rfl, rfl, rfl, rfl, fun k hk => ?_, rfl⟩
    show (x.flags &&& ~~~RF.INSERT_ACTIONS_CALLED).getLsbD k = _
    rw [BitVec.getLsbD_and]
    have hb : ∀ k : Fin 15, (~~~RF.INSERT_ACTIONS_CALLED : Flags).getLsbD k.val = true := by decide
    rw [hb ⟨k, by omega⟩, Bool.and_true]
  have t1 : TableInv p.routes := by rw [hst]; exact hG.table.mapKeep _ hk1
  have q1 : PurgeSorted p.routes := by rw [hst]; exact hG.queue.mapKeep _ hk1
  obtain ⟨g, hg, hk2⟩ := bulkInsertLoop_keeps (g := p.global) hM.1 p.routes.ents t1.core.ids 0
  have hc : c.routes = { p.routes with ents := p.routes.ents.map g } := by
    show ({ p.routes with ents := (bulkInsertLoop p.global H.acts p.routes.ents 0).1 } : RouteTable) = _
    rw [hg]
  have hmem : ∀ y ∈ c.routes.ents, ∃ x ∈ L.routes.ents, y.id = x.id ∧ y.event = x.event := by
    intro y hy
    rw [hc] at hy
    obtain ⟨z, hz, rfl⟩ := List.mem_map.1 hy
    have hk := hk2 z hz
    rw [hst] at hz
    obtain ⟨x, hx, rfl⟩ := List.mem_map.1 hz
    exact ⟨x, hx, hk.id, hk.event⟩
  refine ⟨⟨?_, ?_, ?_, hG.events, hG.actions, ?_, fun i hi => by cases hi⟩, ?_⟩
  · rw [hc]; exact t1.mapKeep g hk2
  · rw [hc]; exact q1.mapKeep g hk2
  · intro y hy e he
    obtain ⟨x, hx, _, hxe⟩ := hmem y hy
    exact hG.linked x hx e (by rw [← hxe]; exact he)
  · intro y hy
    obtain ⟨x, hx, hxi, _⟩ := hmem y hy
    exact ⟨by rw [hxi]; exact (hG.ids x hx).1, fun h => by cases h⟩
  · show (bulkInsertLoop p.global H.acts p.routes.ents 0).1.map seen = L.routes.ents.map seen
    rw [bulk_seen hM, hst]
    exact clearStatus_seen _

end WS.Ld
