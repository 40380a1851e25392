import Verif.Proof.Loaded3
import Verif.Proof.LoadTx3
import Verif.Props.Insert
import Verif.Props.InsertOk
/-
C84: rule insertions.
-/
namespace WS.Ld
open WS WS.Conf WS.LT WS.Spec WS.Spec.Load WS.Spec.Ld

variable {issued : Nat → Nat → Prop} {old : List Nat}

/-- What the view takes from the table besides the rules. -/
def SameRest (T T' : RouteTable) : Prop :=
  T'.defaultPolicy = T.defaultPolicy ∧ T'.maxPurgeableRoutes = T.maxPurgeableRoutes ∧ T'.maxPurgeableIdleTime = T.maxPurgeableIdleTime ∧
    T'.defaultEvent = T.defaultEvent

theorem SameRest.refl (T : RouteTable) : SameRest T T := ⟨rfl, rfl, rfl, rfl⟩

theorem SameRest.trans {T T' T'' : RouteTable} (h : SameRest T T') (h' : SameRest T' T'') : SameRest T T'' :=
  ⟨h'.1.trans h.1, h'.2.1.trans h.2.1, h'.2.2.1.trans h.2.2.1, h'.2.2.2.trans h.2.2.2⟩

theorem removeRule_rest (T : RouteTable) (r : Route) : SameRest T (T.removeRule r) := ⟨rfl, rfl, rfl, rfl⟩

theorem commit_rest (g : EventConfig) (A : RuleActs) (T : RouteTable) (r : Route) (id : Except Err Nat) (a : Flags) :
    SameRest T (insertCommit g A T r id a).T := by
  unfold SameRest insertCommit RouteTable.noteInserted RouteTable.setExpiry RouteTable.update RouteTable.purgeInsert RouteTable.purgeRemove
  grind

theorem routeNew_ok {ev : Option Event} {r l : SockAddr} {f : Flags} {r0 : Route} (h : routeNewForInsert ev r l f = .ok r0)
    (hr : r.ep.WF) (hl : l.ep.WF) : r0.WF ∧ r0.event = ev := by
  refine ⟨?_, LT.routeNew_event h⟩
  unfold routeNewForInsert at h
  split at h
  · cases h
  unfold routeInit at h
  split at h
  · cases h
  split at h
  · cases h
  split at h
  · cases h
  split at h
  · cases h
  split at h
  · cases h
  injection h with h
  rw [← h]
  have hi : ∀ (e : Endpoint) (b : Bool), e.WF → (initEndpoint e b).WF := by
    intro e b he
    unfold Endpoint.WF at *
    show (initEndpoint e b).addr.length = bitsToBytes e.bits
    rw [← he]
    unfold initEndpoint
    cases b
    · simp only [Bool.false_eq_true, if_false]
      unfold padAddr
      split
      · rfl
      · rw [List.length_set]
    · simp only [if_true]
      unfold maskAddr
      rw [List.length_append, List.length_zipWith, List.length_take, List.length_drop, ← he]
      omega
  exact ⟨hi _ _ hr, hi _ _ hl⟩

/-! ### What is seen of a rule -/

theorem mask_and (f : Flags) (k : Nat) (hk : k ≠ 16) (hk' : k ≠ 17) : (f &&& ~~~(bit 16 ||| bit 17)).getLsbD k = f.getLsbD k := by
  by_cases h : k < 32
  · have : (~~~(bit 16 ||| bit 17) : Flags).getLsbD k = true := by
      rw [BitVec.getLsbD_not, BitVec.getLsbD_or]
      simp only [bit, BitVec.getLsbD_twoPow]
      have h1 : ¬ 16 = k := fun h => hk h.symm
      have h2 : ¬ 17 = k := fun h => hk' h.symm
      simp [h, h1, h2]
    rw [BitVec.getLsbD_and, this, Bool.and_true]
  · rw [BitVec.getLsbD_of_ge _ _ (by omega), BitVec.getLsbD_of_ge _ _ (by omega)]

theorem seen_bit (r : Route) (k : Nat) (hk : k ≠ 16) (hk' : k ≠ 17) : (seen r).flags.getLsbD k = r.flags.getLsbD k := mask_and _ k hk hk'

/-- Seen alike, but for the flags. -/
theorem seen_eq {a b : Route} (h : KeepsKey a b) (hf : ∀ k, k ≠ 16 → k ≠ 17 → b.flags.getLsbD k = a.flags.getLsbD k) : seen b = seen a := by
  unfold seen
  rw [h.event, h.family, h.proto, h.remote, h.loc, h.purgeAfter]
  congr 1
  apply BitVec.eq_of_getLsbD_eq
  intro k hk
  by_cases h1 : k = 16 ∨ k = 17
  · have : (~~~(bit 16 ||| bit 17) : Flags).getLsbD k = false := by
      rcases h1 with rfl | rfl <;> decide
    rw [BitVec.getLsbD_and, BitVec.getLsbD_and, this, Bool.and_false, Bool.and_false]
  · rw [mask_and _ k (fun h => h1 (.inl h)) (fun h => h1 (.inr h)), mask_and _ k (fun h => h1 (.inl h)) (fun h => h1 (.inr h))]
    exact hf k (fun h => h1 (.inl h)) (fun h => h1 (.inr h))

theorem runActions_flags {A : RuleActs} (hA : Mild A) (ty : ActionType) (l : List Nat) (r : Route) (a : Flags) :
    (runActions A.env ty l r a).st.flags = r.flags := by
  induction l generalizing r a with
  | nil => rfl
  | cons i rest ih =>
    unfold runActions
    have he : A.env.enter r i = r := by unfold ActEnv.enter RuleActs.env; simp
    split
    · exact ih r a
    · have h1 : (A.env.handler ty i (A.env.enter r i) a).1.flags = r.flags := by rw [he]; exact hA.2 ty i r a
      simp only
      split
      · exact h1
      · split
        · exact h1
        · exact (ih _ _).trans h1

theorem insertActions_seen {A : RuleActs} (hA : Mild A) (g : EventConfig) (r : Route) (a : Flags) : seen (insertActions g A r a).st = seen r := by
  refine seen_eq (insertActions_keeps hA.1 g r a) ?_
  intro k hk _
  have h16 : (r.flags ||| RF.INSERT_ACTIONS_CALLED).getLsbD k = r.flags.getLsbD k := by
    rw [BitVec.getLsbD_or]
    have : RF.INSERT_ACTIONS_CALLED.getLsbD k = false := by
      simp only [RF.INSERT_ACTIONS_CALLED, bit, BitVec.getLsbD_twoPow]
      have : ¬ 16 = k := fun h => hk h.symm
      simp [this]
    rw [this, Bool.or_false]
  unfold insertActions
  cases r.event with
  | none => rfl
  | some e =>
    simp only
    split
    · unfold listDispatch
      split
      · rfl
      · simp only
        split
        · rfl
        · split
          · exact h16
          · rw [runActions_flags hA]; exact h16
    · rfl

/-- The rule that has been entered is seen as it was prepared. -/
theorem commit_seen {g : EventConfig} {A : RuleActs} (hA : Mild A) {T : RouteTable} {r : Route} {newId : Except Err Nat} {a : Flags}
    (h : (insertCommit g A T r newId a).res = .ok .inserted) (id : Nat) : seen (insertCommit g A T r newId a).rule = seen (enterTable r id) := by
  unfold insertCommit at h ⊢
  split
  · rename_i e; simp only at h; cases h
  · rename_i id'
    simp only at h ⊢
    split
    · rename_i hsp
      rw [hsp] at h
      simp only at h
      split at h
      · cases h
      · split at h <;> cases h
    · rename_i ents hsp
      rw [hsp] at h
      simp only at h
      split
      · rename_i e he
        rw [he] at h
        cases h
      · rename_i afs he
        rw [he] at h
        simp only at h
        have hs := insertActions_seen hA g (enterTable r id') (a ||| AR.INSERTED)
        split
        · exact hs
        · rename_i e2 he2
          rw [he2] at h
          cases h

theorem twin_iff {c : Cx} (hG : Good issued old c) {x y : Route} (hx : ∀ e, x.event = some e → e ∈ c.events) (hy : ∀ e, y.event = some e → e ∈ c.events)
    (hxw : x.WF) (hyw : y.WF) : Twin (seen x) (seen y) ↔ routeKeyCmp x y = .eq := by
  rw [Props.C01_eq_iff x y hxw hyw]
  have hbit : ∀ (r : Route) k, k < 14 → (seen r).flags.getLsbD k = r.flags.getLsbD k := fun r k hk => seen_bit r k (by omega) (by omega)
  constructor
  · rintro ⟨h1, h2, h3, h4, h5, h6⟩
    have h4' : x.remote = y.remote := h4
    have h5' : x.loc = y.loc := h5
    have hl : x.event.map (·.label) = y.event.map (·.label) := h1
    have hp : priority x = priority y := by
      unfold priority
      cases hxe : x.event <;> cases hye : y.event <;> rw [hxe, hye] at hl
      · cases hl
      · cases hl
      · rename_i a b
        have : a = b := ordered_inj hG.events (hx a hxe) (hy b hye) (Option.some.inj hl)
        rw [this]
    exact ⟨h2, h3, by rw [h4'], by rw [h4'], by rw [h5'], by rw [h5'], by rw [h4'], by rw [h5'], by rw [h4'], by rw [h5'],
      fun k hk => by rw [← hbit x k hk, ← hbit y k hk]; exact h6 k hk, hp, hl⟩
  · intro h
    have he : ∀ a b : Endpoint, a.addr = b.addr → a.bits = b.bits → a.port = b.port → a.iface = b.iface → a = b := by
      intro a b h1 h2 h3 h4
      cases a; cases b; simp_all
    exact ⟨h.label, h.family, h.proto, he _ _ h.remoteAddr h.remoteBits h.remotePort h.remoteIface,
      he _ _ h.localAddr h.localBits h.localPort h.localIface, fun k hk => by rw [hbit x k hk, hbit y k hk]; exact h.keyFlags k hk⟩

theorem expiring_seen (l : List Route) : expiring (l.map seen) = purgeableCount l := by
  unfold expiring purgeableCount
  induction l with
  | nil => rfl
  | cons x xs ih =>
    rw [List.map_cons, List.filter_cons, List.filter_cons]
    by_cases h : x.data.purgeAfter = 0
    · have h1 : ¬ decide ((seen x).expiry ≠ 0) = true := by rw [decide_eq_true_iff]; exact fun hc => hc h
      have h2 : ¬ decide (Purgeable x) = true := by rw [decide_eq_true_iff]; exact fun hc => hc h
      rw [if_neg h1, if_neg h2]; exact ih
    · have h1 : decide ((seen x).expiry ≠ 0) = true := decide_eq_true h
      have h2 : decide (Purgeable x) = true := decide_eq_true h
      rw [if_pos h1, if_pos h2, List.length_cons, List.length_cons, ih]

/-- The last of the queue expires first. -/
theorem last_first {T : RouteTable} (h : TableInv T) (hs : PurgeSorted T) {v : Route} (hv : v ∈ T.ents) (hl : T.purgeList.getLast? = some v.id)
    {y : Route} (hy : y ∈ T.ents) (hy0 : y.data.purgeAfter ≠ 0) : v.data.purgeAfter ≤ y.data.purgeAfter := by
  have he : ∀ r ∈ T.ents, T.expiry r.id = r.data.purgeAfter := by
    intro r hr
    unfold RouteTable.expiry
    rw [get?_mem h.core.ids hr]
  obtain ⟨p, hp⟩ := List.getLast?_eq_some_iff.1 hl
  have hym : y.id ∈ T.purgeList := (h.purge.mem y.id).2 ⟨y, hy, rfl, hy0⟩
  unfold PurgeSorted at hs
  rw [hp] at hs hym
  rcases List.mem_append.1 hym with h1 | h1
  · have := (List.pairwise_append.1 hs).2.2 y.id h1 v.id (List.mem_singleton.2 rfl)
    rw [he v hv, he y hy] at this; exact this
  · have := id_inj h.core.ids hy hv (List.mem_singleton.1 h1)
    rw [this]; exact Int.le_refl _

theorem storedAs_congr {g g' : EventConfig} (h1 : g'.routeFlagsToAdd = g.routeFlagsToAdd) (h2 : g'.routeFlagsToClear = g.routeFlagsToClear)
    (h3 : g'.routeIdleTimeForPurge = g.routeIdleTimeForPurge) {t : Int} {a : Flags} {r0 r : Route} (h : StoredAs g t a r0 r) :
    StoredAs g' t a r0 r := by
  have e1 : (inForce g' r0.event).routeFlagsToAdd = (inForce g r0.event).routeFlagsToAdd := by unfold inForce; grind
  have e2 : (inForce g' r0.event).routeFlagsToClear = (inForce g r0.event).routeFlagsToClear := by unfold inForce; grind
  have e3 : (inForce g' r0.event).routeIdleTimeForPurge = (inForce g r0.event).routeIdleTimeForPurge := by unfold inForce; grind
  obtain ⟨x1, x2, x3, x4, x5, x6, x7, x8, x9, x10, x11, x12, x13, x14, x15, x16, x17, x18, x19, x20⟩ := h
  constructor <;> (try simp only [e1, e2, e3]) <;> assumption

theorem view_routes (c : Cx) (T : RouteTable) (s : Nat) (h : SameRest c.routes T) :
    view { c with routes := T, idState := s } = { view c with rules := T.ents.map seen } := by
  unfold view
  simp only [h.1, h.2.1, h.2.2.1, h.2.2.2]

theorem revived_flags (f : Flags) : (f &&& ~~~RF.PENDING_DELETE) &&& ~~~(bit 16 ||| bit 17) = (f &&& ~~~(bit 16 ||| bit 17)) &&& ~~~bit 15 := by
  rw [BitVec.and_assoc, BitVec.and_assoc]
  congr 1

/-- An insertion of a rule that has been created. -/
theorem inserted_does {H : Host} (hM : Mild H.acts) {c : Cx} (hG : Good issued old c) {r0 : Route} (hwf : r0.WF)
    (hev : ∀ e, r0.event = some e → e ∈ c.events) {now : Except Err Int} {newId : Except Err Nat} (hid : FreshId c.routes newId)
    {res : InsRes} {x : InsOk} (h : insert1 c.global H.acts c.routes r0 now newId 0 = some res) (hok : res.res = .ok x) :
    TableInv res.T ∧ PurgeSorted res.T ∧ SameRest c.routes res.T ∧
      (∀ y ∈ res.T.ents, (∃ z ∈ c.routes.ents, y.id = z.id ∧ y.event = z.event) ∨ (newId = .ok y.id ∧ y.event = r0.event)) ∧
      ∃ r t kept, StoredAs (view c).config t 0 r0 r ∧ MadeRoom (view c).limit (seen r) (view c).rules kept ∧
        Entered (seen r) kept (res.T.ents.map seen) := by
  have hT := hG.table
  rcases Props.insert1_cases hT hid h with ⟨_, e, he⟩ | ⟨T1, t, r, hnow, hp, hT1, hid1, hres, hcase⟩
  · rw [he] at hok; cases hok
  have hfail : res.actionsFailed = false := by
    have hrw := (insertPrepare_ok hp hwf).1
    subst hres
    rcases insertCommit_cases c.global H.acts hM.1 T1 hT1.core.sorted r hrw newId hid1 0 with
      ⟨_, ⟨e, he⟩, _, _⟩ | ⟨_, _, _, _, h4, _, _⟩ | ⟨_, _, _, _, _, _, _, _, _, h4, _, _⟩ | ⟨_, e, he⟩
    · rw [he] at hok; cases hok
    · exact h4
    · exact h4
    · rw [he] at hok; cases hok
  obtain ⟨hTI, hPS⟩ := TableInv.insert1 hM.1 hT hwf hid h hfail
  have hrest : SameRest c.routes res.T := by
    subst hres
    refine SameRest.trans ?_ (commit_rest _ _ _ _ _ _)
    rcases hcase with ⟨rfl, _⟩ | ⟨v, _, _, rfl, _⟩
    · exact .refl _
    · exact removeRule_rest _ _
  have hprep := insertPrepare_ok hp hwf
  have hrw := hprep.1
  have hrev : r.event = r0.event := hprep.2.2.2.2.2
  have hst := Props.prepared_stored hp 0
  have hsub : ∀ y ∈ T1.ents, y ∈ c.routes.ents := by
    rcases hcase with ⟨rfl, _⟩ | ⟨v, hv, _, rfl, _⟩
    · exact fun y hy => hy
    · exact fun y hy => ((removeRule_mem hT.core.ids hv y).1 hy).1
  have hroom : MadeRoom (view c).limit (seen (enterTable r 0)) (view c).rules (T1.ents.map seen) := by
    have hexp : expiring (view c).rules = c.routes.purgeList.length := by
      rw [Props.purgeList_length hT]; exact expiring_seen _
    rcases hcase with ⟨rfl, hn⟩ | ⟨v, hv, hl, rfl, hfull⟩
    · refine .enough ?_
      by_cases h1 : r.data.purgeAfter = 0
      · exact .inl h1
      · by_cases h2 : c.routes.maxPurgeableRoutes = 0
        · exact .inr (.inl h2)
        · refine .inr (.inr ?_)
          rw [hexp]
          show c.routes.purgeList.length < c.routes.maxPurgeableRoutes
          by_cases h3 : c.routes.purgeList.length < c.routes.maxPurgeableRoutes
          · exact h3
          · exact absurd ⟨h1, by omega, by omega⟩ hn
    · refine .evicted (x := seen v) hfull.1 hfull.2.1 (by rw [hexp]; exact hfull.2.2) ?_ ?_ ?_ ?_
      · exact (perm_filter_id c.routes.ents hT.core.ids v hv).map seen
      · obtain ⟨w, hw, he, hp'⟩ := (hT.purge.mem v.id).1 (List.mem_of_getLast? hl)
        rw [id_inj hT.core.ids hv hw he.symm]; exact hp'
      · intro y hy hy0
        obtain ⟨z, hz, rfl⟩ := List.mem_map.1 hy
        exact last_first hT hG.queue hv hl hz hy0
      · exact (List.filter_sublist).map seen
  have hl1 : ∀ y ∈ T1.ents, ∀ e, y.event = some e → e ∈ c.events := fun y hy => hG.linked y (hsub y hy)
  have hlr : ∀ e, r.event = some e → e ∈ c.events := by rw [hrev]; exact hev
  subst hres
  refine ⟨hTI, hPS hG.queue, hrest, ?_⟩
  rcases insertCommit_cases c.global H.acts hM.1 T1 hT1.core.sorted r hrw newId hid1 0 with
    ⟨_, ⟨e, he⟩, _, _⟩ | ⟨old, ho, hcmp, hpd, _, _, hTeq⟩ | ⟨id, ents, afs, st, hni, hk, hsp, haf, hins, _, hrule, hTeq⟩ | ⟨_, e, he⟩
  · rw [he] at hok; cases hok
  · -- revived
    have hents : (insertCommit c.global H.acts T1 r newId 0).T.ents =
        T1.ents.map (fun x => if x.id = old.id then withExpiry { old with flags := old.flags &&& ~~~RF.PENDING_DELETE } r.data.purgeAfter else x) := by
      rw [hTeq, setExpiry_ents]
      unfold RouteTable.update
      simp only [List.map_map]
      apply List.map_congr_left
      intro y _
      simp only [Function.comp, withExpiry]
      by_cases hy : y.id = old.id
      · simp only [hy, if_true]
      · simp only [hy, if_false]
    have hperm := perm_filter_id T1.ents hT1.core.ids old ho
    refine ⟨?_, enterTable r 0, t, T1.ents.map seen, storedAs_congr (g := c.global) (g' := (view c).config) rfl rfl rfl hst, hroom, ?_⟩
    · intro y hy
      rw [hents] at hy
      obtain ⟨z, hz, rfl⟩ := List.mem_map.1 hy
      left
      split
      · exact ⟨old, hsub old ho, rfl, rfl⟩
      · exact ⟨z, hsub z hz, rfl, rfl⟩
    · refine .revived (x := seen old) (rest := (T1.ents.filter (fun z => z.id != old.id)).map seen) (by exact hperm.map seen) ?_ ?_ ?_
      · refine (twin_iff hG (hl1 old ho) hlr (hT1.core.sorted.wf old ho) hrw).2 hcmp |> fun htw => ?_
        obtain ⟨t1, t2, t3, t4, t5, t6⟩ := htw
        refine ⟨t1, t2, t3, t4, t5, fun k hk => (t6 k hk).trans ?_⟩
        rw [seen_bit _ k (by omega) (by omega), seen_bit _ k (by omega) (by omega)]
        simp only [enterTable, BitVec.getLsbD_or, RF.IN_TABLE, bit, BitVec.getLsbD_twoPow]
        have : ¬ 14 = k := by omega
        simp [this]
      · rw [seen_bit _ 15 (by omega) (by omega), ← has_pending]; exact hpd
      · rw [hents]
        have h2 := (hperm.map (fun x => if x.id = old.id then withExpiry { old with flags := old.flags &&& ~~~RF.PENDING_DELETE } r.data.purgeAfter else x)).map seen
        refine h2.trans (List.Perm.of_eq ?_)
        rw [List.map_cons, List.map_cons, if_pos rfl]
        congr 1
        · unfold seen withExpiry
          simp only [revived_flags]
          rfl
        · rw [List.map_map]
          apply List.map_congr_left
          intro y hy
          have : y.id ≠ old.id := by simpa using (List.mem_filter.1 hy).2
          simp only [Function.comp, if_neg this]
  · -- inserted
    have hents : (insertCommit c.global H.acts T1 r newId 0).T.ents = ents := by rw [hTeq]; exact (insertedTable_ents _ _ _ _).1
    have hs : seen st = seen (enterTable r 0) := by rw [← hrule]; exact commit_seen hM hins 0
    have hperm := routeSplice_perm hsp
    have hstw : st.WF := hk.core.wf (a := enterTable r id) hrw
    have hste : st.event = r0.event := hk.event.trans hrev
    refine ⟨?_, enterTable r 0, t, T1.ents.map seen, storedAs_congr (g := c.global) (g' := (view c).config) rfl rfl rfl hst, hroom, ?_⟩
    · intro y hy
      rw [hents] at hy
      rcases List.mem_cons.1 (hperm.mem_iff.1 hy) with rfl | hy
      · exact .inr ⟨by rw [hni, hk.id]; rfl, hste⟩
      · exact .inl ⟨y, hsub y hy, rfl, rfl⟩
    · refine .new ?_ ?_
      · intro y hy htw
        obtain ⟨z, hz, rfl⟩ := List.mem_map.1 hy
        rw [← hs] at htw
        have := (twin_iff hG (hl1 z hz) (by rw [hste]; exact hev) (hT1.core.sorted.wf z hz) hstw).1 htw
        rw [(routeSplice_none hT1.core.sorted hstw).2 ⟨z, hz, this⟩] at hsp
        cases hsp
      · rw [hents, ← hs]; exact hperm.map seen
  · rw [he] at hok; cases hok

theorem routeInsert_does {H : Host} (hM : Mild H.acts) (hI : Issues H issued) {w w' : World} (hG : Good issued old w.cx) {remote loc : Sa} {flags : Flags}
    {l : List Byte} (hf : Fits (.routeInsert remote loc flags l)) (h : routeInsertC H w remote loc flags l = (w', none)) :
    Good issued old w'.cx ∧ Does H.store (.routeInsert remote loc flags l) (view w.cx) (view w'.cx) := by
  unfold routeInsertC at h
  simp only at h
  split at h
  · cases h
  rename_i ev hevr
  split at h
  · cases h
  rename_i r0 hr0
  obtain ⟨hwf, hr0e⟩ := routeNew_ok hr0 hf.1 hf.2
  have hevs : (l = [] ∧ ev = none ∨ l ≠ [] ∧ ∃ e, (view w.cx).events l = some e ∧ ev = some e) ∧ ∀ e, ev = some e → e ∈ w.cx.events := by
    split at hevr
    · rename_i hl
      injection hevr with hevr
      exact ⟨.inl ⟨hl, hevr.symm⟩, fun e he => by rw [← hevr] at he; cases he⟩
    · rename_i hl
      cases hx : w.cx.event l with
      | error e => rw [hx] at hevr; cases hevr
      | ok e =>
        rw [hx] at hevr
        injection hevr with hevr
        have := (event_ok hx).1
        refine ⟨.inr ⟨hl, e, this, hevr.symm⟩, fun e' he' => ?_⟩
        rw [← hevr] at he'
        injection he' with he'
        rw [← he']; exact (at_some this).1
  have hal : ∀ i s, H.newId w.cx.idState = .ok (i, s) → i ≠ 0 ∧ ¬ issued w.cx.idState i ∧ issued s i ∧ ∀ j, issued w.cx.idState j → issued s j := fun i s => hI _ _ _
  have hfresh : FreshId w.cx.routes (H.allocId w.cx).1 := by
    intro i hi
    unfold Host.allocId at hi
    split at hi
    · cases hi
    · rename_i i' s hs
      injection hi with hi
      subst hi
      obtain ⟨h1, h2, _, _⟩ := hal _ _ hs
      exact ⟨h1, fun r hr hc => h2 (by rw [← hc]; exact (hG.ids r hr).1)⟩
  split at h
  · cases h
  rename_i res hres
  injection h with hw herr
  subst hw
  cases hx : res.res with
  | error e => rw [hx] at herr; cases herr
  | ok x =>
    obtain ⟨h1, h2, h3, h4, r, t, kept, h5, h6, h7⟩ := inserted_does hM hG hwf (by rw [hr0e]; exact hevs.2) hfresh hres hx
    have hst : ∃ s, (H.allocId w.cx).2 = { w.cx with idState := s } ∧ (∀ j, issued w.cx.idState j → issued s j) ∧
        ∀ i, (H.allocId w.cx).1 = .ok i → issued s i ∧ ¬ issued w.cx.idState i := by
      unfold Host.allocId
      split
      · exact ⟨w.cx.idState, rfl, fun j hj => hj, fun i hi => by cases hi⟩
      · rename_i i' s hs
        obtain ⟨_, h2, h3, h4⟩ := hal _ _ hs
        exact ⟨s, rfl, h4, fun i hi => by injection hi with hi; rw [← hi]; exact ⟨h3, h2⟩⟩
    obtain ⟨s, hs1, hs2, hs3⟩ := hst
    have hcx : ({ (H.allocId w.cx).2 with routes := res.T } : Cx) = { w.cx with routes := res.T, idState := s } := by rw [hs1]
    simp only [hcx]
    refine ⟨{ table := h1, queue := h2, linked := ?_, events := hG.events, actions := hG.actions, ids := ?_, past := fun i hi => hs2 _ (hG.past i hi) }, ?_⟩
    · intro y hy e he
      rcases h4 y hy with ⟨z, hz, _, hze⟩ | ⟨_, hye⟩
      · exact hG.linked z hz e (by rw [← hze]; exact he)
      · exact hevs.2 e (by rw [← hr0e, ← hye]; exact he)
    · intro y hy
      rcases h4 y hy with ⟨z, hz, hzi, _⟩ | ⟨hi, _⟩
      · show issued s y.id ∧ _; rw [hzi]; exact ⟨hs2 _ (hG.ids z hz).1, (hG.ids z hz).2⟩
      · exact ⟨(hs3 _ hi).1, fun ho => (hs3 _ hi).2 (hG.past _ ho)⟩
    · rw [view_routes w.cx res.T s h3]
      exact .rule ⟨ev, r0, r, t, hevs.1, hr0, h5, rfl⟩ h6 h7

end WS.Ld
