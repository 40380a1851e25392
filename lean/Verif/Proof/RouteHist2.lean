import Verif.Proof.RouteHist
/-
Deletion, purging and insertion keep the invariants.
-/
namespace WS
open Spec

/-! ### Deletion -/

theorem recomputeHighest_spec (old : Nat) (l : List Route) (n : Nat) (hle : ∀ r ∈ l, old ≤ r.effPriority) :
    (recomputeHighest old l n ≤ n) ∧ (∀ r ∈ l, recomputeHighest old l n ≤ r.effPriority) ∧
    (recomputeHighest old l n = n ∨ ∃ r ∈ l, r.effPriority = recomputeHighest old l n) := by
  induction l generalizing n with
  | nil => simp [recomputeHighest]
  | cons x xs ih =>
    unfold recomputeHighest
    have hxs : ∀ r ∈ xs, old ≤ r.effPriority := fun r hr => hle r (by simp [hr])
    have hx := hle x (by simp)
    split
    · rename_i hlt
      split
      · rename_i hle2
        refine ⟨by omega, ?_, Or.inr ⟨x, by simp, rfl⟩⟩
        intro r hr
        rcases List.mem_cons.1 hr with rfl | hr
        · exact Nat.le_refl _
        · have := hxs r hr; omega
      · obtain ⟨h1, h2, h3⟩ := ih x.effPriority hxs
        refine ⟨by omega, ?_, ?_⟩
        · intro r hr
          rcases List.mem_cons.1 hr with rfl | hr
          · exact h1
          · exact h2 r hr
        · rcases h3 with h3 | ⟨r, hr, h3⟩
          · exact Or.inr ⟨x, by simp, h3.symm⟩
          · exact Or.inr ⟨r, by simp [hr], h3⟩
    · obtain ⟨h1, h2, h3⟩ := ih n hxs
      refine ⟨h1, ?_, ?_⟩
      · intro r hr
        rcases List.mem_cons.1 hr with rfl | hr
        · omega
        · exact h2 r hr
      · rcases h3 with h3 | ⟨r, hr, h3⟩
        · exact Or.inl h3
        · exact Or.inr ⟨r, by simp [hr], h3⟩

theorem removeRule_mem {T : RouteTable} (hn : (T.ents.map (·.id)).Nodup) {r : Route} (hr : r ∈ T.ents) (x : Route) :
    x ∈ (T.removeRule r).ents ↔ x ∈ T.ents ∧ x ≠ r := by
  unfold RouteTable.removeRule
  simp only [List.mem_filter, bne_iff_ne]
  constructor
  · rintro ⟨h1, h2⟩; exact ⟨h1, fun hc => h2 (by rw [hc])⟩
  · rintro ⟨h1, h2⟩; exact ⟨h1, fun hc => h2 (id_inj hn h1 hr hc)⟩

theorem removeRule_list {T : RouteTable} (h : TableInv T) {r : Route} (hr : r ∈ T.ents) :
    (T.removeRule r).purgeList = qWithout T r.id := by
  unfold RouteTable.removeRule
  simp only
  split
  · rfl
  · rename_i h0
    exact (qWithout_eq (notMem_of_zero h hr (by omega))).symm

theorem TableInv.removeRule {T : RouteTable} (h : TableInv T) {r : Route} (hr : r ∈ T.ents) : TableInv (T.removeRule r) := by
  have hmem := removeRule_mem h.core.ids hr
  have hsub : (T.removeRule r).ents.Sublist T.ents := List.filter_sublist
  have hperm := perm_filter_id T.ents h.core.ids r hr
  have hbm : ∀ af, bmCount T.ents af = bmCount (T.removeRule r).ents af + (if r.hasBitmask = true ∧ r.family = af then 1 else 0) := by
    intro af
    rw [bmCount_perm hperm af, bmCount_cons]; rfl
  refine ⟨?_, ?_, ?_⟩
  · constructor
    · exact ⟨List.Pairwise.sublist hsub h.core.sorted.sorted, fun x hx => h.core.sorted.wf x (hsub.subset hx)⟩
    · exact List.Nodup.sublist (hsub.map _) h.core.ids
    · exact fun x hx => h.core.nonzero x (hsub.subset hx)
    · intro id hid
      unfold RouteTable.removeRule at hid
      simp only at hid
      split at hid
      · cases hid
      · rename_i hne
        obtain ⟨x, hx, h1, h2⟩ := h.core.lastAf id hid
        exact ⟨x, (hmem x).2 ⟨hx, fun hc => hne (by rw [hid, ← h1, hc])⟩, h1, h2⟩
    · intro x hx
      unfold RouteTable.removeRule
      simp only
      split
      · exact (recomputeHighest_spec _ _ _ (fun y hy => h.core.hpLe y (List.filter_sublist.subset hy))).2.1 x hx
      · exact h.core.hpLe x (hsub.subset hx)
    · unfold RouteTable.removeRule
      simp only
      split
      · exact (recomputeHighest_spec _ _ _ (fun y hy => h.core.hpLe y (List.filter_sublist.subset hy))).2.2
      · rename_i hne
        rcases h.core.hpEx with h1 | ⟨x, hx, h1⟩
        · exact Or.inl h1
        · exact Or.inr ⟨x, (hmem x).2 ⟨hx, fun hc => hne (by rw [← hc]; exact h1)⟩, h1⟩
    · show ((T.removeRule r).bitmaskAfs.map (·.1)).Nodup
      unfold RouteTable.removeRule
      simp only
      split
      · rename_i hb
        have hpos : 0 < bmCount T.ents r.family := by rw [hbm]; simp [hb]
        obtain ⟨⟨a, n⟩, hp, ha⟩ := List.mem_map.1 (h.core.afsMem _ hpos)
        simp only at ha
        subst ha
        obtain ⟨l', e, h1, _⟩ := downref_ok h.core.afsNodup hp
        rw [e]; exact h1
      · exact h.core.afsNodup
    · intro af n hn
      by_cases hb : r.hasBitmask = true
      · have hpos : 0 < bmCount T.ents r.family := by rw [hbm]; simp [hb]
        obtain ⟨⟨a, k⟩, hp, ha⟩ := List.mem_map.1 (h.core.afsMem _ hpos)
        simp only at ha
        subst ha
        obtain ⟨l', e, _, h2⟩ := downref_ok h.core.afsNodup hp
        have hl : (T.removeRule r).bitmaskAfs = l' := by
          unfold RouteTable.removeRule; simp only [hb, if_true]; rw [e]
        rw [hl, h2] at hn
        have hk := h.core.afsCount _ _ hp
        have hbm' := hbm af
        rcases hn with ⟨h3, h4⟩ | ⟨rfl, rfl, h5⟩
        · have := h.core.afsCount _ _ h4
          rw [if_neg (fun hc => h3 hc.2.symm)] at hbm'
          omega
        · rw [if_pos ⟨hb, rfl⟩] at hbm'
          omega
      · have hl : (T.removeRule r).bitmaskAfs = T.bitmaskAfs := by
          unfold RouteTable.removeRule; simp [hb]
        rw [hl] at hn
        have := h.core.afsCount _ _ hn
        have hbm' := hbm af
        rw [if_neg (fun hc => hb hc.1)] at hbm'
        omega
    · intro af hpos
      have hbm' := hbm af
      have hpos' : 0 < bmCount T.ents af := by omega
      obtain ⟨⟨a, k⟩, hp, ha⟩ := List.mem_map.1 (h.core.afsMem _ hpos')
      simp only at ha
      subst ha
      by_cases hb : r.hasBitmask = true
      · have hposr : 0 < bmCount T.ents r.family := by rw [hbm]; simp [hb]
        obtain ⟨⟨c, m⟩, hq, hc⟩ := List.mem_map.1 (h.core.afsMem _ hposr)
        simp only at hc
        subst hc
        obtain ⟨l', e, _, h2⟩ := downref_ok h.core.afsNodup hq
        have hl : (T.removeRule r).bitmaskAfs = l' := by
          unfold RouteTable.removeRule; simp only [hb, if_true]; rw [e]
        rw [hl, List.mem_map]
        by_cases hca : a = r.family
        · subst hca
          have hm := h.core.afsCount _ _ hq
          rw [if_pos ⟨hb, rfl⟩] at hbm'
          exact ⟨(r.family, m - 1), (h2 _ _).2 (Or.inr ⟨rfl, rfl, by omega⟩), rfl⟩
        · exact ⟨(a, k), (h2 _ _).2 (Or.inl ⟨hca, hp⟩), rfl⟩
      · have hl : (T.removeRule r).bitmaskAfs = T.bitmaskAfs := by
          unfold RouteTable.removeRule; simp [hb]
        rw [hl]; exact List.mem_map.2 ⟨_, hp, rfl⟩
    · exact fun x hx => h.core.inTable x (hsub.subset hx)
    · exact fun x hx => h.core.wildZero x (hsub.subset hx)
    · exact fun x hx => h.core.sens x (hsub.subset hx)
  · rw [removeRule_list h hr]; exact qWithout_nodup h.purge _
  · intro id
    rw [removeRule_list h hr, mem_qWithout, h.purge.mem]
    constructor
    · rintro ⟨⟨x, hx, h1, h2⟩, h3⟩
      exact ⟨x, (hmem x).2 ⟨hx, fun hc => h3 (by rw [← h1, hc])⟩, h1, h2⟩
    · rintro ⟨x, hx, h1, h2⟩
      obtain ⟨h3, h4⟩ := (hmem x).1 hx
      exact ⟨⟨x, h3, h1, h2⟩, fun hc => h4 (id_inj h.core.ids h3 hr (h1.trans hc))⟩

theorem PurgeSorted.removeRule {T : RouteTable} (h : TableInv T) (hs : PurgeSorted T) {r : Route} (hr : r ∈ T.ents) :
    PurgeSorted (T.removeRule r) := by
  unfold PurgeSorted
  rw [removeRule_list h hr]
  have : (qWithout T r.id).Pairwise (fun a b => T.expiry b ≤ T.expiry a) := List.Pairwise.sublist List.filter_sublist hs
  refine List.Pairwise.imp_of_mem ?_ this
  intro a b ha hb hab
  have key : ∀ y ∈ qWithout T r.id, (T.removeRule r).expiry y = T.expiry y := by
    intro y hy
    obtain ⟨h1, h2⟩ := mem_qWithout.1 hy
    obtain ⟨x, hx, h3, _⟩ := (h.purge.mem _).1 h1
    subst h3
    rw [expiry_mem h.core.ids hx,
      expiry_mem (h.removeRule hr).core.ids ((removeRule_mem h.core.ids hr x).2 ⟨hx, fun hc => h2 (by rw [hc])⟩)]
  rw [key a ha, key b hb]; exact hab

theorem has_pending (f : Flags) : f.has RF.PENDING_DELETE = f.getLsbD 15 := Flags.has_bit f 15 (by decide)

theorem keepsKey_orPending (r : Route) : KeepsKey r { r with flags := r.flags ||| RF.PENDING_DELETE } := by
  refine ⟨rfl, rfl, rfl, rfl, rfl, rfl, ?_, rfl⟩
  intro k hk
  simp only [RF.PENDING_DELETE, bit, BitVec.getLsbD_or, BitVec.getLsbD_twoPow]
  have : ¬ 15 = k := by omega
  simp [this]

theorem keepsKey_andNot (r : Route) (m : Flags) (hm : ∀ k, k < 15 → m.getLsbD k = false) : KeepsKey r { r with flags := r.flags &&& ~~~m } := by
  refine ⟨rfl, rfl, rfl, rfl, rfl, rfl, ?_, rfl⟩
  intro k hk
  simp only [BitVec.getLsbD_and, BitVec.getLsbD_not, hm k hk]
  by_cases hk' : k < 32
  · simp [hk']
  · omega

theorem keepsKey_or (r : Route) (m : Flags) (hm : ∀ k, k < 15 → m.getLsbD k = false) : KeepsKey r { r with flags := r.flags ||| m } := by
  refine ⟨rfl, rfl, rfl, rfl, rfl, rfl, ?_, rfl⟩
  intro k hk
  simp only [BitVec.getLsbD_or, hm k hk, Bool.or_false]

theorem twoPow_low (j : Nat) (hj : 15 ≤ j) : ∀ k, k < 15 → (bit j).getLsbD k = false := by
  intro k hk
  unfold bit
  rw [BitVec.getLsbD_twoPow]
  have : ¬ j = k := by omega
  simp [this]

/-- The two outcomes of a deletion. -/
theorem delete0_cases (g : EventConfig) (A : RuleActs) (T : RouteTable) (r : Route) (ares : Flags) (defer : Bool) :
    (defer = true ∧ 0 < r.data.connectionCount ∧ (delete0 g A T r ares defer).2.2 = .deferred ∧
      (((delete0 g A T r ares defer).1 = T.update { r with flags := r.flags ||| RF.PENDING_DELETE } ∧
         r.data.lastHitTime + sixtySeconds ≤ r.data.purgeAfter) ∨
       ((delete0 g A T r ares defer).1 = (T.update { r with flags := r.flags ||| RF.PENDING_DELETE }).setExpiry
          { r with flags := r.flags ||| RF.PENDING_DELETE } (r.data.lastHitTime + sixtySeconds) ∧
        r.data.purgeAfter < r.data.lastHitTime + sixtySeconds))) ∨
    (¬ (defer = true ∧ 0 < r.data.connectionCount) ∧ (delete0 g A T r ares defer).2.2 = .deleted ∧
      (delete0 g A T r ares defer).1 = T.removeRule r) := by
  unfold delete0
  by_cases h : defer = true ∧ r.data.connectionCount > 0
  · rw [if_pos h]
    refine Or.inl ⟨h.1, h.2, rfl, ?_⟩
    by_cases h2 : r.data.purgeAfter < r.data.lastHitTime + sixtySeconds
    · exact Or.inr ⟨by simp only [h2, if_true], h2⟩
    · exact Or.inl ⟨by simp only [h2, if_false], by omega⟩
  · rw [if_neg h]
    exact Or.inr ⟨h, rfl, rfl⟩

theorem TableInv.delete0 {g : EventConfig} {A : RuleActs} {T : RouteTable} (h : TableInv T) {r : Route} (hr : r ∈ T.ents) (ares : Flags)
    (defer : Bool) : TableInv (WS.delete0 g A T r ares defer).1 := by
  have hu := h.update hr (keepsKey_orPending r)
  have hm : ({ r with flags := r.flags ||| RF.PENDING_DELETE } : Route) ∈ (T.update { r with flags := r.flags ||| RF.PENDING_DELETE }).ents :=
    (update_mem (r := r) (r' := { r with flags := r.flags ||| RF.PENDING_DELETE }) hr rfl _).2 (Or.inl rfl)
  rcases delete0_cases g A T r ares defer with ⟨_, _, _, ⟨e, _⟩ | ⟨e, _⟩⟩ | ⟨_, _, e⟩
  · rw [e]; exact hu
  · rw [e]; exact hu.setExpiry hm _
  · rw [e]; exact h.removeRule hr

theorem PurgeSorted.delete0 {g : EventConfig} {A : RuleActs} {T : RouteTable} (h : TableInv T) (hs : PurgeSorted T) {r : Route}
    (hr : r ∈ T.ents) (ares : Flags) (defer : Bool) : PurgeSorted (WS.delete0 g A T r ares defer).1 := by
  have hu := h.update hr (keepsKey_orPending r)
  have hus := hs.update h.core.ids hr (keepsKey_orPending r)
  have hm : ({ r with flags := r.flags ||| RF.PENDING_DELETE } : Route) ∈ (T.update { r with flags := r.flags ||| RF.PENDING_DELETE }).ents :=
    (update_mem (r := r) (r' := { r with flags := r.flags ||| RF.PENDING_DELETE }) hr rfl _).2 (Or.inl rfl)
  rcases delete0_cases g A T r ares defer with ⟨_, _, _, ⟨e, _⟩ | ⟨e, _⟩⟩ | ⟨_, _, e⟩
  · rw [e]; exact hus
  · rw [e]; exact hus.setExpiry hu hm _
  · rw [e]; exact hs.removeRule h hr

/-- Deletion without deferral. -/
theorem delete0_now (g : EventConfig) (A : RuleActs) (T : RouteTable) (r : Route) (ares : Flags) :
    (delete0 g A T r ares false).1 = T.removeRule r := by
  unfold delete0; simp

/-! ### Purging -/

theorem purgeLoop_inv {g : EventConfig} {A : RuleActs} {mode : PurgeMode} {now : Int} (P : RouteTable → Prop)
    (hP : ∀ T r, P T → T.get? r.id = some r → P (T.removeRule r)) (fuel : Nat) (T : RouteTable) (ares : Flags) (n : Nat)
    (h : P T) (x : RouteTable × Flags × Nat) (hx : purgeLoop g A mode now fuel T ares n = some x) : P x.1 := by
  induction fuel generalizing T ares n with
  | zero => cases hx
  | succ fuel ih =>
    unfold purgeLoop at hx
    cases hl : T.purgeList.getLast? with
    | none => rw [hl] at hx; cases hx; exact h
    | some id =>
      rw [hl] at hx
      simp only at hx
      cases hg : T.get? id with
      | none => rw [hg] at hx; cases hx
      | some r =>
        rw [hg] at hx
        simp only at hx
        have hgr : T.get? r.id = some r := by rw [(get?_some hg).2]; exact hg
        split at hx
        · cases hx; exact h
        · split at hx
          · exact ih T ares n h hx
          · rw [delete0_now] at hx
            split at hx
            · exact ih _ _ _ (hP T r h hgr) hx
            · cases hx; exact hP T r h hgr

theorem stalePurge_inv {g : EventConfig} {A : RuleActs} {mode : PurgeMode} {now : Int} {fuel : Nat} (P : RouteTable → Prop)
    (hP : ∀ T r, P T → T.get? r.id = some r → P (T.removeRule r)) {T : RouteTable} {ares : Flags} (h : P T)
    {x : RouteTable × Flags × Except Err Unit} (hx : stalePurge g A mode now fuel T ares = some x) : P x.1 := by
  unfold stalePurge at hx
  cases hl : T.purgeList.getLast? with
  | none => rw [hl] at hx; cases hx; exact h
  | some id =>
    rw [hl] at hx
    simp only at hx
    split at hx
    · cases hx; exact h
    · cases hp : purgeLoop g A mode now fuel T ares 0 with
      | none => rw [hp] at hx; cases hx
      | some y =>
        obtain ⟨T', a', n⟩ := y
        rw [hp] at hx
        cases hx
        exact purgeLoop_inv P hP fuel T ares 0 h _ hp

theorem TableInv.purge' {g : EventConfig} {A : RuleActs} {mode : PurgeMode} {now : Int} {fuel : Nat} {T : RouteTable} {ares : Flags}
    (h : TableInv T) {x : RouteTable × Flags × Except Err Unit} (hx : stalePurge g A mode now fuel T ares = some x) : TableInv x.1 :=
  stalePurge_inv TableInv (fun _ _ h1 h2 => h1.removeRule (get?_some h2).1) h hx

theorem PurgeSorted.purge' {g : EventConfig} {A : RuleActs} {mode : PurgeMode} {now : Int} {fuel : Nat} {T : RouteTable} {ares : Flags}
    (h : TableInv T) (hs : PurgeSorted T) {x : RouteTable × Flags × Except Err Unit}
    (hx : stalePurge g A mode now fuel T ares = some x) : PurgeSorted x.1 :=
  (stalePurge_inv (fun T => TableInv T ∧ PurgeSorted T)
    (fun _ _ h1 h2 => ⟨h1.1.removeRule (get?_some h2).1, h1.2.removeRule h1.1 (get?_some h2).1⟩) ⟨h, hs⟩ hx).2

/-! ### Flushing -/

theorem flush_inv {g : EventConfig} {A : RuleActs} (P : RouteTable → Prop)
    (hP : ∀ T r, P T → r ∈ T.ents → P (T.removeRule r)) (hn : ∀ T, P T → (T.ents.map (·.id)).Nodup)
    (l : List Route) (T : RouteTable) (ares : Flags)
    (h : P T) (hl : ∀ r ∈ l, r ∈ T.ents) (hnd : (l.map (·.id)).Nodup) :
    P (l.foldl (fun (x : RouteTable × Flags) r =>
      let d := delete0 g A x.1 r (x.2 &&& ~~~AR.STOP) false
      (d.1, d.2.1)) (T, ares)).1 ∧
    (l.foldl (fun (x : RouteTable × Flags) r =>
      let d := delete0 g A x.1 r (x.2 &&& ~~~AR.STOP) false
      (d.1, d.2.1)) (T, ares)).1.ents = T.ents.filter (fun x => !(l.map (·.id)).contains x.id) := by
  induction l generalizing T ares with
  | nil =>
    refine ⟨h, ?_⟩
    symm
    apply List.filter_eq_self.2
    simp
  | cons x xs ih =>
    simp only [List.map_cons, List.nodup_cons] at hnd
    simp only [List.foldl_cons]
    rw [delete0_now]
    have hx := hl x (by simp)
    obtain ⟨h1, h2⟩ := ih (T.removeRule x) (delete0 g A T x (ares &&& ~~~AR.STOP) false).2.1 (hP T x h hx)
      (fun r hr => (removeRule_mem (hn T h) hx r).2 ⟨hl r (by simp [hr]), fun hc => hnd.1 (List.mem_map.2 ⟨r, hr, by rw [hc]⟩)⟩) hnd.2
    refine ⟨h1, ?_⟩
    refine h2.trans ?_
    unfold RouteTable.removeRule
    simp only [List.filter_filter]
    apply List.filter_congr
    intro y _
    simp only [List.map_cons, List.contains_cons]
    cases h : xs.map (·.id) |>.contains y.id <;> cases h' : (y.id == x.id) <;> simp_all

theorem flush_empty {g : EventConfig} {A : RuleActs} {T : RouteTable} (h : TableInv T) (ares : Flags) :
    TableInv (flushTable g A T ares).1 ∧ (flushTable g A T ares).1.ents = [] := by
  obtain ⟨h1, h2⟩ := flush_inv (g := g) (A := A) TableInv (fun _ _ h hr => h.removeRule hr) (fun _ h => h.core.ids) T.ents T ares h
    (fun _ hr => hr) h.core.ids
  refine ⟨h1, h2.trans ?_⟩
  apply List.filter_eq_nil_iff.2
  intro a ha
  have : (T.ents.map (·.id)).contains a.id = true := by
    rw [List.contains_iff_mem]; exact List.mem_map.2 ⟨a, ha, rfl⟩
  rw [this]; decide

end WS
