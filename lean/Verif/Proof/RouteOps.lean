import Verif.Model.RouteHistory
import Verif.Proof.Lookup
import Verif.Props.RouteKey
import Verif.Spec.RouteOps
/-
Invariants of the rule table over histories of calls.
-/
namespace WS
open Spec

/-- In-place change that keeps everything the table order and side tables depend on. -/
structure KeepsCore (a b : Route) : Prop where
  id : b.id = a.id
  event : b.event = a.event
  family : b.family = a.family
  proto : b.proto = a.proto
  remote : b.remote = a.remote
  loc : b.loc = a.loc
  flags : ∀ k, k < 15 → b.flags.getLsbD k = a.flags.getLsbD k

theorem KeepsKey.core {a b : Route} (h : KeepsKey a b) : KeepsCore a b :=
  ⟨h.id, h.event, h.family, h.proto, h.remote, h.loc, h.flags⟩

theorem KeepsKey.refl (a : Route) : KeepsKey a a := ⟨rfl, rfl, rfl, rfl, rfl, rfl, fun _ _ => rfl, rfl⟩

theorem KeepsKey.trans {a b c : Route} (h : KeepsKey a b) (h' : KeepsKey b c) : KeepsKey a c :=
  ⟨h'.id.trans h.id, h'.event.trans h.event, h'.family.trans h.family, h'.proto.trans h.proto, h'.remote.trans h.remote,
    h'.loc.trans h.loc, fun k hk => (h'.flags k hk).trans (h.flags k hk), h'.purgeAfter.trans h.purgeAfter⟩

theorem KeepsCore.wf {a b : Route} (h : KeepsCore a b) (hw : a.WF) : b.WF := by
  unfold Route.WF at *; rw [h.remote, h.loc]; exact hw

theorem KeepsCore.prio {a b : Route} (h : KeepsCore a b) : b.effPriority = a.effPriority := by
  unfold Route.effPriority; rw [h.event]

theorem KeepsCore.sameKey {a b : Route} (h : KeepsCore a b) : SameKey a b := by
  refine ⟨h.family.symm, h.proto.symm, ?_, ?_, ?_, ?_, ?_, ?_, ?_, ?_, fun k hk => (h.flags k (by omega)).symm, ?_, ?_⟩ <;>
    first
    | rw [h.remote] | rw [h.loc] | rw [h.event] | (unfold priority; rw [h.event])

theorem KeepsCore.cmp {a b a' b' : Route} (h : KeepsCore a b) (h' : KeepsCore a' b') (hw : a.WF) (hw' : a'.WF) :
    routeKeyCmp b b' = routeKeyCmp a a' := by
  rw [← Props.C01_congr a b b' hw (h.wf hw) (h'.wf hw') h.sameKey]
  rw [Props.C01_swap b' a (h'.wf hw') hw, Props.C01_swap a' a hw' hw]
  rw [Props.C01_congr a' b' a hw' (h'.wf hw') hw h'.sameKey]

theorem hasBitmask_iff (r : Route) : r.hasBitmask = (r.flags.getLsbD 12 || r.flags.getLsbD 13) := by
  unfold Route.hasBitmask
  have : r.flags.has (RF.REMOTE_ADDR_BITMASK ||| RF.LOCAL_ADDR_BITMASK) =
      (r.flags.has RF.REMOTE_ADDR_BITMASK || r.flags.has RF.LOCAL_ADDR_BITMASK) := by
    unfold Flags.has
    rw [BitVec.and_or_distrib_left]
    by_cases h1 : r.flags &&& RF.REMOTE_ADDR_BITMASK = 0#32 <;> by_cases h2 : r.flags &&& RF.LOCAL_ADDR_BITMASK = 0#32
    · simp [h1, h2]
    · simp [h1, h2]
    · simp [h1, h2]
    · have h3 : (r.flags &&& RF.REMOTE_ADDR_BITMASK ||| r.flags &&& RF.LOCAL_ADDR_BITMASK) ≠ 0#32 := by
        intro hc
        rw [BitVec.or_eq_zero_iff] at hc
        exact h1 hc.1
      rw [bne_iff_ne.2 h3, bne_iff_ne.2 h1]; rfl
  rw [this]
  unfold RF.REMOTE_ADDR_BITMASK RF.LOCAL_ADDR_BITMASK
  rw [Flags.has_bit _ _ (by decide), Flags.has_bit _ _ (by decide)]

theorem KeepsCore.bitmask {a b : Route} (h : KeepsCore a b) : b.hasBitmask = a.hasBitmask := by
  rw [hasBitmask_iff, hasBitmask_iff, h.flags 12 (by omega), h.flags 13 (by omega)]

theorem KeepsCore.wildZero {a b : Route} (h : KeepsCore a b) (hz : WildZero a) : WildZero b := by
  refine ⟨?_, ?_, ?_, ?_, ?_, ?_, ?_, ?_⟩ <;> rw [h.flags _ (by omega)] <;> first
    | rw [h.family] | rw [h.remote] | rw [h.proto] | rw [h.loc]
  · exact hz.family
  · exact hz.remoteAddr
  · exact hz.proto
  · exact hz.localPort
  · exact hz.localAddr
  · exact hz.remotePort
  · exact hz.remoteIface
  · exact hz.localIface

theorem KeepsCore.sensical {a b : Route} (h : KeepsCore a b) (hz : Sensical a.flags) : Sensical b.flags := by
  unfold Sensical at *
  rw [h.flags 0 (by omega), h.flags 1 (by omega), h.flags 2 (by omega), h.flags 3 (by omega), h.flags 4 (by omega), h.flags 5 (by omega)]
  exact hz

/-! ### Lists of rules -/

/-- Number of rules with a bitmask address of family `af`. -/
def bmCount (l : List Route) (af : Nat) : Nat := l.countP (fun r => r.hasBitmask && r.family == af)

theorem bmCount_perm {l l' : List Route} (h : l.Perm l') (af : Nat) : bmCount l af = bmCount l' af := h.countP_eq _

theorem bmCount_cons (r : Route) (l : List Route) (af : Nat) :
    bmCount (r :: l) af = bmCount l af + (if r.hasBitmask = true ∧ r.family = af then 1 else 0) := by
  unfold bmCount; rw [List.countP_cons]; simp

theorem perm_filter_id (l : List Route) (hn : (l.map (·.id)).Nodup) (r : Route) (hr : r ∈ l) :
    l.Perm (r :: l.filter (fun x => x.id != r.id)) := by
  induction l with
  | nil => simp at hr
  | cons x xs ih =>
    simp only [List.map_cons, List.nodup_cons] at hn
    rcases List.mem_cons.1 hr with rfl | hr'
    · have : (r :: xs).filter (fun x => x.id != r.id) = xs := by
        rw [List.filter_cons]
        simp only [bne_self_eq_false, Bool.false_eq_true, if_false]
        apply List.filter_eq_self.2
        intro a ha
        rw [bne_iff_ne]; intro hc
        exact hn.1 (List.mem_map.2 ⟨a, ha, hc⟩)
      rw [this]
    · have hx : x.id ≠ r.id := fun hc => hn.1 (List.mem_map.2 ⟨r, hr', hc.symm⟩)
      rw [List.filter_cons, if_pos (by simpa using hx)]
      exact ((ih hn.2 hr').cons x).trans (List.Perm.swap _ _ _)

theorem id_inj {l : List Route} (hn : (l.map (·.id)).Nodup) {a b : Route} (ha : a ∈ l) (hb : b ∈ l) (h : a.id = b.id) : a = b := by
  induction l with
  | nil => simp at ha
  | cons x xs ih =>
    simp only [List.map_cons, List.nodup_cons] at hn
    rcases List.mem_cons.1 ha with rfl | ha' <;> rcases List.mem_cons.1 hb with rfl | hb'
    · rfl
    · exact absurd (List.mem_map.2 ⟨b, hb', h.symm⟩) hn.1
    · exact absurd (List.mem_map.2 ⟨a, ha', h⟩) hn.1
    · exact ih hn.2 ha' hb'

theorem get?_some {T : RouteTable} {id : Nat} {r : Route} (h : T.get? id = some r) : r ∈ T.ents ∧ r.id = id := by
  unfold RouteTable.get? at h
  exact ⟨List.mem_of_find?_eq_some h, by simpa using List.find?_some h⟩

theorem get?_none {T : RouteTable} {id : Nat} (h : T.get? id = none) : ∀ r ∈ T.ents, r.id ≠ id := by
  unfold RouteTable.get? at h
  simpa using h

theorem get?_mem {T : RouteTable} (hn : (T.ents.map (·.id)).Nodup) {r : Route} (hr : r ∈ T.ents) : T.get? r.id = some r := by
  cases h : T.get? r.id with
  | none => exact absurd rfl (get?_none h r hr)
  | some x => obtain ⟨h1, h2⟩ := get?_some h; rw [id_inj hn h1 hr h2]

theorem expiry_mem {T : RouteTable} (hn : (T.ents.map (·.id)).Nodup) {r : Route} (hr : r ∈ T.ents) :
    T.expiry r.id = r.data.purgeAfter := by
  unfold RouteTable.expiry; rw [get?_mem hn hr]

/-! ### The invariants -/

/-- Order, identities and the side tables. -/
structure CoreInv (T : RouteTable) : Prop where
  sorted : SortedTable T.ents
  ids : (T.ents.map (·.id)).Nodup
  nonzero : ∀ r ∈ T.ents, r.id ≠ 0
  lastAf : ∀ id, T.lastAfWildcard = some id → ∃ r ∈ T.ents, r.id = id ∧ r.flags.getLsbD 0 = true
  hpLe : ∀ r ∈ T.ents, T.highestPriority ≤ r.effPriority
  hpEx : T.highestPriority = 65535 ∨ ∃ r ∈ T.ents, r.effPriority = T.highestPriority
  afsNodup : (T.bitmaskAfs.map (·.1)).Nodup
  afsCount : ∀ af n, (af, n) ∈ T.bitmaskAfs → n = bmCount T.ents af ∧ 0 < n
  afsMem : ∀ af, 0 < bmCount T.ents af → af ∈ T.bitmaskAfs.map (·.1)
  inTable : ∀ r ∈ T.ents, r.flags.getLsbD 14 = true
  wildZero : ∀ r ∈ T.ents, WildZero r
  sens : ∀ r ∈ T.ents, Sensical r.flags

/-- The purge queue holds exactly the rules with an expiry, once each. -/
structure PurgeInv (T : RouteTable) : Prop where
  nodup : T.purgeList.Nodup
  mem : ∀ id, id ∈ T.purgeList ↔ ∃ r ∈ T.ents, r.id = id ∧ r.data.purgeAfter ≠ 0

/-- Latest expiry first. -/
def PurgeSorted (T : RouteTable) : Prop := T.purgeList.Pairwise (fun a b => T.expiry b ≤ T.expiry a)

theorem CoreInv.congr {T T' : RouteTable} (h : CoreInv T) (h1 : T'.ents = T.ents) (h2 : T'.lastAfWildcard = T.lastAfWildcard)
    (h3 : T'.highestPriority = T.highestPriority) (h4 : T'.bitmaskAfs = T.bitmaskAfs) : CoreInv T' := by
  obtain ⟨a, b, c, d, e, f, g, i, j, k, l, m⟩ := h
  constructor <;> simp only [h1, h2, h3, h4] <;> assumption

theorem PurgeInv.congr {T T' : RouteTable} (h : PurgeInv T) (h1 : T'.ents = T.ents) (h2 : T'.purgeList = T.purgeList) : PurgeInv T' := by
  obtain ⟨a, b⟩ := h
  constructor <;> simp only [h1, h2] <;> assumption

theorem PurgeSorted.congr {T T' : RouteTable} (h : PurgeSorted T) (h1 : T'.ents = T.ents) (h2 : T'.purgeList = T.purgeList) :
    PurgeSorted T' := by
  unfold PurgeSorted at *
  rw [h2]
  have : T'.expiry = T.expiry := by funext x; unfold RouteTable.expiry RouteTable.get?; rw [h1]
  rw [this]; exact h

/-! ### In-place changes -/

theorem CoreInv.mapKeep {T : RouteTable} (h : CoreInv T) (f : Route → Route) (hf : ∀ x ∈ T.ents, KeepsCore x (f x)) :
    CoreInv { T with ents := T.ents.map f } := by
  have hbm : ∀ af, bmCount (T.ents.map f) af = bmCount T.ents af := by
    intro af
    unfold bmCount
    rw [List.countP_map]
    apply List.countP_congr
    intro x hx
    simp only [Function.comp, (hf x hx).bitmask, (hf x hx).family]
  constructor
  · constructor
    · rw [List.pairwise_map]
      refine List.Pairwise.imp_of_mem ?_ h.sorted.sorted
      intro a b ha hb hab
      rw [(hf a ha).cmp (hf b hb) (h.sorted.wf a ha) (h.sorted.wf b hb)]; exact hab
    · intro r hr
      obtain ⟨x, hx, rfl⟩ := List.mem_map.1 hr
      exact (hf x hx).wf (h.sorted.wf x hx)
  · have : (T.ents.map f).map (·.id) = T.ents.map (·.id) := by
      rw [List.map_map]
      apply List.map_congr_left
      intro x hx; exact (hf x hx).id
    show ((T.ents.map f).map (·.id)).Nodup
    rw [this]; exact h.ids
  · intro r hr
    obtain ⟨x, hx, rfl⟩ := List.mem_map.1 hr
    rw [(hf x hx).id]; exact h.nonzero x hx
  · intro id hid
    obtain ⟨r, hr, h1, h2⟩ := h.lastAf id hid
    exact ⟨f r, List.mem_map.2 ⟨r, hr, rfl⟩, by rw [(hf r hr).id, h1], by rw [(hf r hr).flags 0 (by omega), h2]⟩
  · intro r hr
    obtain ⟨x, hx, rfl⟩ := List.mem_map.1 hr
    rw [(hf x hx).prio]; exact h.hpLe x hx
  · rcases h.hpEx with h1 | ⟨r, hr, h1⟩
    · exact Or.inl h1
    · exact Or.inr ⟨f r, List.mem_map.2 ⟨r, hr, rfl⟩, by rw [(hf r hr).prio]; exact h1⟩
  · exact h.afsNodup
  · intro af n hn; rw [hbm]; exact h.afsCount af n hn
  · intro af hn; rw [hbm] at hn; exact h.afsMem af hn
  · intro r hr
    obtain ⟨x, hx, rfl⟩ := List.mem_map.1 hr
    rw [(hf x hx).flags 14 (by omega)]; exact h.inTable x hx
  · intro r hr
    obtain ⟨x, hx, rfl⟩ := List.mem_map.1 hr
    exact (hf x hx).wildZero (h.wildZero x hx)
  · intro r hr
    obtain ⟨x, hx, rfl⟩ := List.mem_map.1 hr
    exact (hf x hx).sensical (h.sens x hx)

theorem PurgeInv.mapKeep {T : RouteTable} (h : PurgeInv T) (f : Route → Route) (hf : ∀ x ∈ T.ents, KeepsKey x (f x)) :
    PurgeInv { T with ents := T.ents.map f } := by
  refine ⟨h.nodup, ?_⟩
  intro id
  rw [h.mem id]
  constructor
  · rintro ⟨r, hr, h1, h2⟩
    exact ⟨f r, List.mem_map.2 ⟨r, hr, rfl⟩, by rw [(hf r hr).id, h1], by rw [(hf r hr).purgeAfter]; exact h2⟩
  · rintro ⟨r, hr, h1, h2⟩
    obtain ⟨x, hx, rfl⟩ := List.mem_map.1 hr
    exact ⟨x, hx, by rw [← (hf x hx).id, h1], by rw [← (hf x hx).purgeAfter]; exact h2⟩

theorem PurgeSorted.of_expiry {T T' : RouteTable} (h : PurgeSorted T) (hl : T'.purgeList = T.purgeList)
    (he : ∀ x ∈ T.purgeList, T'.expiry x = T.expiry x) : PurgeSorted T' := by
  unfold PurgeSorted at *
  rw [hl]
  refine List.Pairwise.imp_of_mem ?_ h
  intro a b ha hb hab
  rw [he a ha, he b hb]; exact hab

theorem find?_map_id (l : List Route) (f : Route → Route) (hf : ∀ x ∈ l, (f x).id = x.id) (id : Nat) :
    (l.map f).find? (fun r => r.id == id) = (l.find? (fun r => r.id == id)).map f := by
  induction l with
  | nil => rfl
  | cons x xs ih =>
    simp only [List.map_cons, List.find?_cons, hf x (by simp)]
    split
    · rfl
    · exact ih (fun y hy => hf y (by simp [hy]))

theorem expiry_mapKeep {T : RouteTable} (f : Route → Route) (hf : ∀ x ∈ T.ents, KeepsKey x (f x)) (id : Nat) :
    RouteTable.expiry { T with ents := T.ents.map f } id = T.expiry id := by
  unfold RouteTable.expiry RouteTable.get?
  show (match (T.ents.map f).find? _ with | some r => _ | none => _) = _
  rw [find?_map_id T.ents f (fun x hx => (hf x hx).id) id]
  cases h : T.ents.find? (fun r => r.id == id) with
  | none => rfl
  | some r => exact (hf r (List.mem_of_find?_eq_some h)).purgeAfter

/-- Everything together. -/
structure TableInv (T : RouteTable) : Prop where
  core : CoreInv T
  purge : PurgeInv T

theorem TableInv.mapKeep {T : RouteTable} (h : TableInv T) (f : Route → Route) (hf : ∀ x ∈ T.ents, KeepsKey x (f x)) :
    TableInv { T with ents := T.ents.map f } :=
  ⟨h.core.mapKeep f (fun x hx => (hf x hx).core), h.purge.mapKeep f hf⟩

theorem PurgeSorted.mapKeep {T : RouteTable} (h : PurgeSorted T) (f : Route → Route) (hf : ∀ x ∈ T.ents, KeepsKey x (f x)) :
    PurgeSorted { T with ents := T.ents.map f } :=
  h.of_expiry rfl (fun x _ => expiry_mapKeep f hf x)

theorem update_keeps {T : RouteTable} (hn : (T.ents.map (·.id)).Nodup) {r r' : Route} (hr : r ∈ T.ents) (hk : KeepsKey r r') :
    ∀ x ∈ T.ents, KeepsKey x (if x.id = r'.id then r' else x) := by
  intro x hx
  split
  · rename_i hid
    have : x = r := id_inj hn hx hr (hid.trans hk.id)
    subst this; exact hk
  · exact KeepsKey.refl x

theorem update_keepsCore {T : RouteTable} (hn : (T.ents.map (·.id)).Nodup) {r r' : Route} (hr : r ∈ T.ents) (hk : KeepsCore r r') :
    ∀ x ∈ T.ents, KeepsCore x (if x.id = r'.id then r' else x) := by
  intro x hx
  split
  · rename_i hid
    have : x = r := id_inj hn hx hr (hid.trans hk.id)
    subst this; exact hk
  · exact (KeepsKey.refl x).core

theorem TableInv.update {T : RouteTable} (h : TableInv T) {r r' : Route} (hr : r ∈ T.ents) (hk : KeepsKey r r') :
    TableInv (T.update r') := h.mapKeep _ (update_keeps h.core.ids hr hk)

theorem PurgeSorted.update {T : RouteTable} (h : PurgeSorted T) (hn : (T.ents.map (·.id)).Nodup) {r r' : Route} (hr : r ∈ T.ents)
    (hk : KeepsKey r r') : PurgeSorted (T.update r') := h.mapKeep _ (update_keeps hn hr hk)

theorem CoreInv.update {T : RouteTable} (h : CoreInv T) {r r' : Route} (hr : r ∈ T.ents) (hk : KeepsCore r r') :
    CoreInv (T.update r') := h.mapKeep _ (update_keepsCore h.ids hr hk)

theorem update_mem {T : RouteTable} {r r' : Route} (hr : r ∈ T.ents) (hid : r'.id = r.id) (x : Route) :
    x ∈ (T.update r').ents ↔ x = r' ∨ (x ∈ T.ents ∧ x.id ≠ r.id) := by
  unfold RouteTable.update
  simp only [List.mem_map]
  constructor
  · rintro ⟨y, hy, rfl⟩
    split
    · exact Or.inl rfl
    · rename_i h; exact Or.inr ⟨hy, by rw [← hid]; exact h⟩
  · rintro (rfl | ⟨h1, h2⟩)
    · exact ⟨r, hr, by rw [if_pos hid.symm]⟩
    · exact ⟨x, h1, by rw [if_neg (by rw [hid]; exact h2)]⟩

end WS
