import Verif.Proof.RouteOps
/-
Each call of `Model/RouteOps.lean` keeps the invariants of `Proof/RouteOps.lean`.
-/
namespace WS
open Spec

/-! ### Purge queue -/

theorem purgeSplice_perm (e : Nat → Int) (id : Nat) (t : Int) (l : List Nat) : (purgeSplice e id t l).Perm (id :: l) := by
  induction l with
  | nil => exact List.Perm.refl _
  | cons x xs ih =>
    unfold purgeSplice
    split
    · exact List.Perm.refl _
    · exact (ih.cons x).trans (List.Perm.swap _ _ _)

theorem purgeSplice_sorted (e : Nat → Int) (id : Nat) (t : Int) (l : List Nat) (he : e id = t)
    (hl : l.Pairwise (fun a b => e b ≤ e a)) : (purgeSplice e id t l).Pairwise (fun a b => e b ≤ e a) := by
  induction l with
  | nil => simp [purgeSplice]
  | cons x xs ih =>
    have hxs := List.pairwise_cons.1 hl
    unfold purgeSplice
    split
    · rename_i hlt
      refine List.pairwise_cons.2 ⟨?_, hl⟩
      intro y hy
      rcases List.mem_cons.1 hy with rfl | hy
      · omega
      · have := hxs.1 y hy; omega
    · rename_i hge
      refine List.pairwise_cons.2 ⟨?_, ih hxs.2⟩
      intro y hy
      rcases List.mem_cons.1 ((purgeSplice_perm e id t xs).mem_iff.1 hy) with rfl | hy
      · omega
      · exact hxs.1 y hy

theorem purgeSplice_congr (e e' : Nat → Int) (id : Nat) (t : Int) (l : List Nat) (h : ∀ x ∈ l, e x = e' x) :
    purgeSplice e id t l = purgeSplice e' id t l := by
  induction l with
  | nil => rfl
  | cons x xs ih =>
    unfold purgeSplice
    rw [h x (by simp), ih (fun y hy => h y (by simp [hy]))]

/-- The queue without `id`. -/
def qWithout (T : RouteTable) (id : Nat) : List Nat := T.purgeList.filter (fun x => x != id)

theorem mem_qWithout {T : RouteTable} {id x : Nat} : x ∈ qWithout T id ↔ x ∈ T.purgeList ∧ x ≠ id := by
  unfold qWithout; simp

theorem qWithout_eq {T : RouteTable} {id : Nat} (h : id ∉ T.purgeList) : qWithout T id = T.purgeList := by
  unfold qWithout
  apply List.filter_eq_self.2
  intro a ha
  rw [bne_iff_ne]; rintro rfl; exact h ha

theorem notMem_of_zero {T : RouteTable} (h : TableInv T) {r : Route} (hr : r ∈ T.ents) (hz : r.data.purgeAfter = 0) :
    r.id ∉ T.purgeList := by
  intro hc
  obtain ⟨x, hx, h1, h2⟩ := (h.purge.mem _).1 hc
  rw [id_inj h.core.ids hx hr h1] at h2
  exact h2 hz

theorem qWithout_nodup {T : RouteTable} (h : PurgeInv T) (id : Nat) : (qWithout T id).Nodup := h.nodup.filter _

/-- The rule with another expiry. -/
def withExpiry (r : Route) (t : Int) : Route := { r with data := { r.data with purgeAfter := t } }

theorem keepsCore_withExpiry (r : Route) (t : Int) : KeepsCore r (withExpiry r t) := ⟨rfl, rfl, rfl, rfl, rfl, rfl, fun _ _ => rfl⟩

theorem setExpiry_ents (T : RouteTable) (r : Route) (t : Int) : (T.setExpiry r t).ents = (T.update (withExpiry r t)).ents := by
  unfold RouteTable.setExpiry RouteTable.update RouteTable.purgeInsert RouteTable.purgeRemove withExpiry
  by_cases h1 : r.data.purgeAfter = 0 <;> by_cases h2 : t = 0 <;> simp [h1, h2]

theorem setExpiry_side (T : RouteTable) (r : Route) (t : Int) : (T.setExpiry r t).lastAfWildcard = T.lastAfWildcard ∧
    (T.setExpiry r t).highestPriority = T.highestPriority ∧ (T.setExpiry r t).bitmaskAfs = T.bitmaskAfs ∧
    (T.setExpiry r t).maxPurgeableRoutes = T.maxPurgeableRoutes := by
  unfold RouteTable.setExpiry RouteTable.update RouteTable.purgeInsert RouteTable.purgeRemove
  by_cases h1 : r.data.purgeAfter = 0 <;> by_cases h2 : t = 0 <;> simp [h1, h2]

theorem expiry_ents {T T' : RouteTable} (h : T'.ents = T.ents) (x : Nat) : T'.expiry x = T.expiry x := by
  unfold RouteTable.expiry RouteTable.get?; rw [h]

theorem setExpiry_list {T : RouteTable} (h : TableInv T) {r : Route} (hr : r ∈ T.ents) (t : Int) :
    (T.setExpiry r t).purgeList =
      if t = 0 then qWithout T r.id else purgeSplice (T.update (withExpiry r t)).expiry r.id t (qWithout T r.id) := by
  unfold RouteTable.setExpiry
  by_cases h1 : r.data.purgeAfter = 0
  · have hq : qWithout T r.id = T.purgeList := qWithout_eq (notMem_of_zero h hr h1)
    by_cases h2 : t = 0
    · simp [h1, h2, hq, RouteTable.update]
    · simp only [h1, h2, hq, ne_eq, not_true_eq_false, not_false_eq_true, if_false, if_true]
      rfl
  · by_cases h2 : t = 0
    · simp [h1, h2, qWithout, RouteTable.update, RouteTable.purgeRemove]
    · simp only [h1, h2, ne_eq, not_false_eq_true, if_false, if_true]
      rfl

theorem expiry_update_self {T : RouteTable} (h : CoreInv T) {r r' : Route} (hr : r ∈ T.ents) (hk : KeepsCore r r') :
    (T.update r').expiry r.id = r'.data.purgeAfter := by
  have hc := h.update hr hk
  have := expiry_mem (T := T.update r') hc.ids (r := r') ((update_mem hr hk.id r').2 (Or.inl rfl))
  rw [hk.id] at this; exact this

theorem expiry_update_other {T : RouteTable} (h : CoreInv T) {r r' : Route} (hr : r ∈ T.ents) (hk : KeepsCore r r') {x : Route}
    (hx : x ∈ T.ents) (hne : x.id ≠ r.id) : (T.update r').expiry x.id = T.expiry x.id := by
  have hc := h.update hr hk
  rw [expiry_mem hc.ids ((update_mem hr hk.id x).2 (Or.inr ⟨hx, hne⟩)), expiry_mem h.ids hx]

theorem setExpiry_mem {T : RouteTable} (h : TableInv T) {r : Route} (hr : r ∈ T.ents) (t : Int) (id : Nat) :
    id ∈ (T.setExpiry r t).purgeList ↔ (id ∈ T.purgeList ∧ id ≠ r.id) ∨ (t ≠ 0 ∧ id = r.id) := by
  rw [setExpiry_list h hr t]
  split
  · rename_i h0; rw [mem_qWithout]; simp [h0]
  · rename_i h0
    rw [(purgeSplice_perm _ _ _ _).mem_iff, List.mem_cons, mem_qWithout]
    simp [h0, or_comm]

theorem TableInv.setExpiry {T : RouteTable} (h : TableInv T) {r : Route} (hr : r ∈ T.ents) (t : Int) :
    TableInv (T.setExpiry r t) := by
  have hk := keepsCore_withExpiry r t
  have hs := setExpiry_side T r t
  refine ⟨(h.core.update hr hk).congr (setExpiry_ents T r t) hs.1 hs.2.1 hs.2.2.1, ?_, ?_⟩
  · rw [setExpiry_list h hr t]
    split
    · exact qWithout_nodup h.purge _
    · rw [(purgeSplice_perm _ _ _ _).nodup_iff, List.nodup_cons, mem_qWithout]
      exact ⟨fun hc => hc.2 rfl, qWithout_nodup h.purge _⟩
  · intro id
    rw [setExpiry_mem h hr t, setExpiry_ents]
    constructor
    · rintro (⟨h1, h2⟩ | ⟨h1, rfl⟩)
      · obtain ⟨x, hx, h3, h4⟩ := (h.purge.mem _).1 h1
        exact ⟨x, (update_mem hr hk.id x).2 (Or.inr ⟨hx, by rw [h3]; exact h2⟩), h3, h4⟩
      · exact ⟨_, (update_mem hr hk.id _).2 (Or.inl rfl), hk.id, h1⟩
    · rintro ⟨x, hx, h3, h4⟩
      rcases (update_mem hr hk.id x).1 hx with rfl | ⟨h5, h6⟩
      · exact Or.inr ⟨h4, by rw [← h3, hk.id]⟩
      · exact Or.inl ⟨(h.purge.mem _).2 ⟨x, h5, h3, h4⟩, by rw [← h3]; exact h6⟩

theorem pairwise_update {T : RouteTable} (h : TableInv T) {r r' : Route} (hr : r ∈ T.ents) (hk : KeepsCore r r') (hs : PurgeSorted T) :
    (qWithout T r.id).Pairwise (fun a b => (T.update r').expiry b ≤ (T.update r').expiry a) := by
  have : (qWithout T r.id).Pairwise (fun a b => T.expiry b ≤ T.expiry a) := List.Pairwise.sublist List.filter_sublist hs
  refine List.Pairwise.imp_of_mem ?_ this
  intro a b ha hb hab
  have key : ∀ y ∈ qWithout T r.id, (T.update r').expiry y = T.expiry y := by
    intro y hy
    obtain ⟨h1, h2⟩ := mem_qWithout.1 hy
    obtain ⟨x, hx, h3, _⟩ := (h.purge.mem _).1 h1
    subst h3
    exact expiry_update_other h.core hr hk hx h2
  rw [key a ha, key b hb]; exact hab

theorem PurgeSorted.setExpiry {T : RouteTable} (h : TableInv T) (hs : PurgeSorted T) {r : Route} (hr : r ∈ T.ents) (t : Int) :
    PurgeSorted (T.setExpiry r t) := by
  have hk := keepsCore_withExpiry r t
  unfold PurgeSorted
  have he : (T.setExpiry r t).expiry = (T.update (withExpiry r t)).expiry := by
    funext x; exact expiry_ents (setExpiry_ents T r t) x
  rw [he, setExpiry_list h hr t]
  have hp := pairwise_update h hr hk hs
  split
  · exact hp
  · exact purgeSplice_sorted _ _ _ _ (expiry_update_self h.core hr hk) hp

/-! ### Hits -/

theorem hitExpiry_eq {T : RouteTable} (r : Route) (idle lastHit : Int) (ht : lastHit + idle + 60000000 ≠ 0) :
    T.hitExpiry r idle lastHit = T ∨
    (r.data.purgeAfter ≠ 0 ∧
      ((T.purgeList.getLast? = some r.id ∧ T.hitExpiry r idle lastHit = T.update (withExpiry r (lastHit + idle + 60000000))) ∨
       (T.purgeList.getLast? ≠ some r.id ∧ T.hitExpiry r idle lastHit = T.setExpiry r (lastHit + idle + 60000000)))) := by
  unfold RouteTable.hitExpiry
  simp only
  split
  · rename_i h1
    refine Or.inr ⟨h1.1, ?_⟩
    split
    · rename_i h2; exact Or.inl ⟨h2, rfl⟩
    · rename_i h2
      refine Or.inr ⟨h2, ?_⟩
      unfold RouteTable.setExpiry
      rw [if_pos h1.1, if_pos ht]
      rfl
  · exact Or.inl rfl

theorem TableInv.updateExpiry {T : RouteTable} (h : TableInv T) {r : Route} (hr : r ∈ T.ents) (h0 : r.data.purgeAfter ≠ 0) {t : Int}
    (ht : t ≠ 0) : TableInv (T.update (withExpiry r t)) := by
  have hk := keepsCore_withExpiry r t
  refine ⟨h.core.update hr hk, h.purge.nodup, ?_⟩
  intro id
  show id ∈ T.purgeList ↔ _
  rw [h.purge.mem]
  constructor
  · rintro ⟨x, hx, h3, h4⟩
    by_cases hxr : x.id = r.id
    · exact ⟨_, (update_mem hr hk.id _).2 (Or.inl rfl), by rw [hk.id, ← hxr, h3], ht⟩
    · exact ⟨x, (update_mem hr hk.id x).2 (Or.inr ⟨hx, hxr⟩), h3, h4⟩
  · rintro ⟨x, hx, h3, h4⟩
    rcases (update_mem hr hk.id x).1 hx with rfl | ⟨h5, h6⟩
    · exact ⟨r, hr, by rw [← h3, hk.id], h0⟩
    · exact ⟨x, h5, h3, h4⟩

theorem TableInv.hitExpiry {T : RouteTable} (h : TableInv T) {r : Route} (hr : r ∈ T.ents) (idle lastHit : Int)
    (ht : lastHit + idle + 60000000 ≠ 0) : TableInv (T.hitExpiry r idle lastHit) := by
  rcases hitExpiry_eq (T := T) r idle lastHit ht with e | ⟨h0, ⟨_, e⟩ | ⟨_, e⟩⟩
  · rw [e]; exact h
  · rw [e]; exact h.updateExpiry hr h0 ht
  · rw [e]; exact h.setExpiry hr _

theorem PurgeSorted.hitExpiry {T : RouteTable} (h : TableInv T) (hs : PurgeSorted T) {r : Route} (hr : r ∈ T.ents) (idle lastHit : Int)
    (ht : lastHit + idle + 60000000 ≠ 0) (htail : T.purgeList.getLast? ≠ some r.id) : PurgeSorted (T.hitExpiry r idle lastHit) := by
  rcases hitExpiry_eq (T := T) r idle lastHit ht with e | ⟨h0, ⟨e, _⟩ | ⟨_, e⟩⟩
  · rw [e]; exact hs
  · exact absurd e htail
  · rw [e]; exact hs.setExpiry h hr _

/-! ### Bitmask families -/

theorem pair_inj {l : List (Nat × Nat)} (hn : (l.map (·.1)).Nodup) {a m n : Nat} (h1 : (a, m) ∈ l) (h2 : (a, n) ∈ l) : m = n := by
  induction l with
  | nil => simp at h1
  | cons x xs ih =>
    simp only [List.map_cons, List.nodup_cons] at hn
    rcases List.mem_cons.1 h1 with rfl | h1' <;> rcases List.mem_cons.1 h2 with h2' | h2'
    · cases h2'; rfl
    · exact absurd (List.mem_map.2 ⟨_, h2', rfl⟩) hn.1
    · subst h2'; exact absurd (List.mem_map.2 ⟨_, h1', rfl⟩) hn.1
    · exact ih hn.2 h1' h2'

theorem uprefScan_none {af : Nat} {l : List (Nat × Nat)} : uprefScan af l = none ↔ af ∉ l.map (·.1) := by
  induction l with
  | nil => simp [uprefScan]
  | cons x xs ih =>
    obtain ⟨a, n⟩ := x
    unfold uprefScan
    by_cases h : a = af
    · simp [h]; split <;> simp
    · simp only [h, if_false, Option.map_eq_none_iff, List.map_cons, List.mem_cons, not_or]
      rw [ih]
      exact ⟨fun hh => ⟨fun hc => h hc.symm, hh⟩, fun hh => hh.2⟩

theorem uprefScan_ok {af : Nat} {l l' : List (Nat × Nat)} (hn : (l.map (·.1)).Nodup) (h : uprefScan af l = some (.ok l')) :
    l'.map (·.1) = l.map (·.1) ∧ ∃ n, (af, n) ∈ l ∧ n ≠ 65535 ∧
      ∀ a m, (a, m) ∈ l' ↔ (a ≠ af ∧ (a, m) ∈ l) ∨ (a = af ∧ m = n + 1) := by
  induction l generalizing l' with
  | nil => simp [uprefScan] at h
  | cons x xs ih =>
    obtain ⟨b, n⟩ := x
    simp only [List.map_cons, List.nodup_cons] at hn
    unfold uprefScan at h
    by_cases hb : b = af
    · subst hb
      simp only [if_true] at h
      split at h
      · cases h
      · rename_i hne
        cases h
        refine ⟨rfl, n, by simp, hne, ?_⟩
        intro a m
        simp only [List.mem_cons, Prod.mk.injEq]
        constructor
        · rintro (⟨rfl, rfl⟩ | hx)
          · exact Or.inr ⟨rfl, rfl⟩
          · refine Or.inl ⟨?_, Or.inr hx⟩
            rintro rfl; exact hn.1 (List.mem_map.2 ⟨_, hx, rfl⟩)
        · rintro (⟨h1, ⟨rfl, _⟩ | h2⟩ | ⟨rfl, rfl⟩)
          · exact absurd rfl h1
          · exact Or.inr h2
          · exact Or.inl ⟨rfl, rfl⟩
    · simp only [hb, if_false] at h
      cases hu : uprefScan af xs with
      | none => rw [hu] at h; simp at h
      | some r =>
        rw [hu] at h
        cases r with
        | error e => cases h
        | ok ys =>
          simp only [Option.map_some, Except.map, Option.some.injEq, Except.ok.injEq] at h
          subst h
          obtain ⟨h1, k, h2, h3, h4⟩ := ih hn.2 hu
          refine ⟨by simp [h1], k, by simp [h2], h3, ?_⟩
          intro a m
          simp only [List.mem_cons, Prod.mk.injEq, h4]
          constructor
          · rintro (⟨rfl, rfl⟩ | ⟨h5, h6⟩ | ⟨h5, h6⟩)
            · exact Or.inl ⟨hb, Or.inl ⟨rfl, rfl⟩⟩
            · exact Or.inl ⟨h5, Or.inr h6⟩
            · exact Or.inr ⟨h5, h6⟩
          · rintro (⟨h5, ⟨rfl, rfl⟩ | h6⟩ | ⟨h5, h6⟩)
            · exact Or.inl ⟨rfl, rfl⟩
            · exact Or.inr (Or.inl ⟨h5, h6⟩)
            · exact Or.inr (Or.inr ⟨h5, h6⟩)

/-- One more reference. -/
theorem upref_ok {af : Nat} {l l' : List (Nat × Nat)} (hn : (l.map (·.1)).Nodup) (h : upref af l = .ok l') :
    (l'.map (·.1)).Nodup ∧
    ((∃ n, (af, n) ∈ l ∧ ∀ a m, (a, m) ∈ l' ↔ (a ≠ af ∧ (a, m) ∈ l) ∨ (a = af ∧ m = n + 1)) ∨
     (af ∉ l.map (·.1) ∧ ∀ a m, (a, m) ∈ l' ↔ (a ≠ af ∧ (a, m) ∈ l) ∨ (a = af ∧ m = 1))) := by
  unfold upref at h
  cases hu : uprefScan af l with
  | some r =>
    rw [hu] at h
    simp only at h
    subst h
    obtain ⟨h1, n, h2, _, h4⟩ := uprefScan_ok hn hu
    exact ⟨by rw [h1]; exact hn, Or.inl ⟨n, h2, h4⟩⟩
  | none =>
    rw [hu] at h
    simp only at h
    split at h
    · cases h
    · cases h
      have hnm := uprefScan_none.1 hu
      refine ⟨?_, Or.inr ⟨hnm, ?_⟩⟩
      · rw [List.map_append, List.nodup_append]
        refine ⟨hn, by simp, ?_⟩
        intro a ha b hb
        simp only [List.map_cons, List.map_nil, List.mem_singleton] at hb
        subst hb; rintro rfl; exact hnm ha
      · intro a m
        simp only [List.mem_append, List.mem_singleton, Prod.mk.injEq]
        constructor
        · rintro (h1 | ⟨rfl, rfl⟩)
          · refine Or.inl ⟨?_, h1⟩
            rintro rfl; exact hnm (List.mem_map.2 ⟨_, h1, rfl⟩)
          · exact Or.inr ⟨rfl, rfl⟩
        · rintro (⟨_, h1⟩ | ⟨rfl, rfl⟩)
          · exact Or.inl h1
          · exact Or.inr ⟨rfl, rfl⟩

theorem nodup_idx {l : List (Nat × Nat)} (hn : (l.map (·.1)).Nodup) {i j : Nat} {a m n : Nat} (h1 : l[i]? = some (a, m))
    (h2 : l[j]? = some (a, n)) : i = j := by
  have h1' : (l.map (·.1))[i]? = some a := by simp [h1]
  have h2' : (l.map (·.1))[j]? = some a := by simp [h2]
  obtain ⟨hi, e1⟩ := List.getElem?_eq_some_iff.1 h1'
  obtain ⟨hj, e2⟩ := List.getElem?_eq_some_iff.1 h2'
  exact (List.getElem_inj hn).1 (e1.trans e2.symm)

/-- One reference less. -/
theorem downref_ok {af n : Nat} {l : List (Nat × Nat)} (hn : (l.map (·.1)).Nodup) (h : (af, n) ∈ l) :
    ∃ l', downref af l = .ok l' ∧ (l'.map (·.1)).Nodup ∧
      ∀ a m, (a, m) ∈ l' ↔ (a ≠ af ∧ (a, m) ∈ l) ∨ (a = af ∧ m = n - 1 ∧ n - 1 ≠ 0) := by
  unfold downref
  have hf := findIdx?_spec (fun p : Nat × Nat => p.1 == af) l
  cases hi : l.findIdx? (fun p => p.1 == af) with
  | none =>
    exfalso
    rw [List.findIdx?_eq_none_iff] at hi
    have := hi _ h
    simp at this
  | some i =>
    rw [List.findIdx?_eq_some_iff_getElem] at hi
    obtain ⟨hlt, hp, _⟩ := hi
    have hli : l[i]? = some (af, n) := by
      have hx : l[i]? = some l[i] := List.getElem?_eq_getElem hlt
      have h1 : l[i].1 = af := by simpa using hp
      have h2 : (af, l[i].2) ∈ l := by
        have : (af, l[i].2) = l[i] := by rw [← h1]
        rw [this]; exact List.getElem_mem hlt
      rw [hx, ← pair_inj hn h2 h, ← h1]
    have hgd : l.getD i (0, 0) = (af, n) := by rw [List.getD_eq_getElem?_getD, hli]; rfl
    simp only [hgd]
    by_cases h0 : n - 1 = 0
    · rw [if_pos h0]
      have hlen : l.length - 1 < l.length := by omega
      by_cases hil : i < l.length - 1
      · rw [if_pos hil]
        refine ⟨_, rfl, ?_, ?_⟩
        · -- nodup
          rw [List.Nodup, List.pairwise_iff_getElem]
          intro p q hp hq hpq
          simp only [List.length_map, List.length_dropLast, List.length_set] at hp hq
          simp only [List.getElem_map, List.getElem_dropLast, List.getElem_set]
          have hgl : l[l.length - 1]? = some (l.getD (l.length - 1) (0, 0)) := by
            rw [List.getD_eq_getElem?_getD, List.getElem?_eq_getElem hlen]; rfl
          have inj : ∀ (x y : Nat) (u v : Nat × Nat), l[x]? = some u → l[y]? = some v → x ≠ y → u.1 ≠ v.1 := by
            intro x y u v hx hy hne hc
            obtain ⟨u1, u2⟩ := u
            obtain ⟨v1, v2⟩ := v
            simp only at hc; subst hc
            exact hne (nodup_idx hn hx hy)
          split
          · split
            · omega
            · exact inj _ _ _ _ hgl (List.getElem?_eq_getElem (by omega)) (by omega)
          · split
            · exact inj _ _ _ _ (List.getElem?_eq_getElem (by omega)) hgl (by omega)
            · exact inj _ _ _ _ (List.getElem?_eq_getElem (by omega)) (List.getElem?_eq_getElem (by omega)) (by omega)
        · intro a m
          have hgl : l[l.length - 1]? = some (l.getD (l.length - 1) (0, 0)) := by
            rw [List.getD_eq_getElem?_getD, List.getElem?_eq_getElem hlen]; rfl
          rw [List.mem_iff_getElem?]
          constructor
          · rintro ⟨j, hj⟩
            refine Or.inl ?_
            rw [List.getElem?_dropLast] at hj
            simp only [List.length_set] at hj
            split at hj
            · rename_i hjl
              rw [List.getElem?_set] at hj
              split at hj
              · rename_i hij
                rw [← hgl] at hj
                refine ⟨?_, List.mem_of_getElem? hj⟩
                rintro rfl
                have := nodup_idx hn hj hli
                omega
              · rename_i hij
                refine ⟨?_, List.mem_of_getElem? hj⟩
                rintro rfl
                exact hij (nodup_idx hn hli hj)
            · cases hj
          · rintro (⟨h1, h2⟩ | ⟨_, _, h3⟩)
            · obtain ⟨j, hj⟩ := List.mem_iff_getElem?.1 h2
              have hjl : j < l.length := (List.getElem?_eq_some_iff.1 hj).1
              have hji : j ≠ i := by
                rintro rfl; rw [hli] at hj; cases hj; exact h1 rfl
              by_cases hjlast : j = l.length - 1
              · refine ⟨i, ?_⟩
                rw [List.getElem?_dropLast]
                simp only [List.length_set]
                rw [if_pos hil, List.getElem?_set, if_pos rfl, if_pos hlt, ← hgl, ← hjlast, hj]
              · refine ⟨j, ?_⟩
                rw [List.getElem?_dropLast]
                simp only [List.length_set]
                rw [if_pos (by omega), List.getElem?_set, if_neg (fun hc => hji hc.symm), hj]
            · exact absurd h0 h3
      · rw [if_neg hil]
        have hie : i = l.length - 1 := by omega
        refine ⟨_, rfl, ?_, ?_⟩
        · exact List.Nodup.sublist ((List.dropLast_sublist l).map _) hn
        · intro a m
          rw [List.mem_iff_getElem?]
          constructor
          · rintro ⟨j, hj⟩
            rw [List.getElem?_dropLast] at hj
            split at hj
            · rename_i hjl
              refine Or.inl ⟨?_, List.mem_of_getElem? hj⟩
              rintro rfl
              have := nodup_idx hn hj hli
              omega
            · cases hj
          · rintro (⟨h1, h2⟩ | ⟨_, _, h3⟩)
            · obtain ⟨j, hj⟩ := List.mem_iff_getElem?.1 h2
              have hjl : j < l.length := (List.getElem?_eq_some_iff.1 hj).1
              have hji : j ≠ i := by
                rintro rfl; rw [hli] at hj; cases hj; exact h1 rfl
              refine ⟨j, ?_⟩
              rw [List.getElem?_dropLast, if_pos (by omega), hj]
            · exact absurd h0 h3
    · rw [if_neg h0]
      refine ⟨_, rfl, ?_, ?_⟩
      · have : (l.set i (af, n - 1)).map (·.1) = l.map (·.1) := by
          apply List.ext_getElem?
          intro j
          simp only [List.getElem?_map, List.getElem?_set]
          split
          · rename_i hij; subst hij; rw [hli]; simp [hlt]
          · rfl
        rw [this]; exact hn
      · intro a m
        rw [List.mem_iff_getElem?]
        constructor
        · rintro ⟨j, hj⟩
          rw [List.getElem?_set] at hj
          split at hj
          · rename_i hij
            cases hj
            exact Or.inr ⟨rfl, rfl, h0⟩
          · rename_i hij
            refine Or.inl ⟨?_, List.mem_of_getElem? hj⟩
            rintro rfl
            exact hij (nodup_idx hn hli hj)
        · rintro (⟨h1, h2⟩ | ⟨rfl, rfl, _⟩)
          · obtain ⟨j, hj⟩ := List.mem_iff_getElem?.1 h2
            refine ⟨j, ?_⟩
            rw [List.getElem?_set, if_neg, hj]
            rintro rfl; rw [hli] at hj; cases hj; exact h1 rfl
          · exact ⟨i, by rw [List.getElem?_set, if_pos rfl, if_pos hlt]⟩

end WS
