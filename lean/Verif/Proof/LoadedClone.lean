import Verif.Proof.Loaded6
/-
Proofs for C84 and C83 with NO_FLUSH: a clone of a healthy rule table is healthy.
-/
namespace WS.Ld
open WS WS.Conf WS.Spec WS.Spec.Load WS.LT WS.Spec.LT WS.Spec.Ld

/-- What the source's table of bitmask families can hold at all (src/wolfsentry_internal.h: WOLFSENTRY_MAX_BITMASK_MATCHED_AFS entries, 16-bit counts). -/
structure BmFits (T : RouteTable) : Prop where
  room : T.bitmaskAfs.length ≤ maxBitmaskAfs
  counts : ∀ p ∈ T.bitmaskAfs, p.2 ≤ 65535

/-- Half way through the clone of `all`: `l` done. -/
structure Mid (all l : List Route) (T : RouteTable) : Prop where
  ents : T.ents = all
  nodup : (T.bitmaskAfs.map (·.1)).Nodup
  count : ∀ af n, (af, n) ∈ T.bitmaskAfs → n = bmCount l af ∧ 0 < n
  mem : ∀ af, 0 < bmCount l af → af ∈ T.bitmaskAfs.map (·.1)
  last : ∀ id, T.lastAfWildcard = some id → ∃ r ∈ l, r.id = id ∧ r.flags.getLsbD 0 = true
  qnodup : T.purgeList.Nodup
  qmem : ∀ id, id ∈ T.purgeList ↔ ∃ r ∈ l, r.id = id ∧ r.data.purgeAfter ≠ 0
  qsort : PurgeSorted T

theorem bmCount_append (l l' : List Route) (af : Nat) : bmCount (l ++ l') af = bmCount l af + bmCount l' af := by
  unfold bmCount; rw [List.countP_append]

theorem length_le_of_nodup_subset {l l' : List Nat} (h : l.Nodup) (hs : ∀ x ∈ l, x ∈ l') : l.length ≤ l'.length := by
  induction l generalizing l' with
  | nil => simp
  | cons a l ih =>
    rw [List.nodup_cons] at h
    have ha := hs a (by simp)
    have := ih (l' := l'.erase a) h.2 (fun x hx => by
      have hne : x ≠ a := by rintro rfl; exact h.1 hx
      exact (List.mem_erase_of_ne hne).2 (hs x (List.mem_cons_of_mem _ hx)))
    rw [List.length_erase_of_mem ha] at this
    have hp : 0 < l'.length := List.length_pos_of_mem ha
    simp only [List.length_cons]; omega

theorem mid_step {S : RouteTable} (hS : CoreInv S) (hF : BmFits S) {l rest : List Route} {r : Route} {T : RouteTable}
    (hall : S.ents = l ++ r :: rest) (h : Mid S.ents l T) : Mid S.ents (l ++ [r]) (noteClone T r) := by
  -- the three parts one after the other
  have key : ∃ T1 T2 : RouteTable, T1 = (if r.flags.has RF.SA_FAMILY_WILDCARD then { T with lastAfWildcard := some r.id } else T) ∧
      T2 = (if r.hasBitmask then (match upref r.family T1.bitmaskAfs with | .ok l => { T1 with bitmaskAfs := l } | .error _ => T1) else T1) ∧
      noteClone T r = (if r.data.purgeAfter ≠ 0 then T2.purgeInsert r.id r.data.purgeAfter else T2) := ⟨_, _, rfl, rfl, rfl⟩
  obtain ⟨T1, T2, e1, e2, e3⟩ := key
  have b1 : T1.ents = T.ents ∧ T1.bitmaskAfs = T.bitmaskAfs ∧ T1.purgeList = T.purgeList ∧
      (∀ id, T1.lastAfWildcard = some id → ∃ x ∈ l ++ [r], x.id = id ∧ x.flags.getLsbD 0 = true) := by
    subst e1
    split
    · rename_i hw
      refine ⟨rfl, rfl, rfl, fun id hid => ⟨r, by simp, by simpa using hid, ?_⟩⟩
      unfold RF.SA_FAMILY_WILDCARD at hw
      rw [Flags.has_bit _ _ (by decide)] at hw; exact hw
    · exact ⟨rfl, rfl, rfl, fun id hid => by obtain ⟨x, hx, h1⟩ := h.last id hid; exact ⟨x, by simp [hx], h1⟩⟩
  have b2 : T2.ents = T.ents ∧ T2.purgeList = T.purgeList ∧ T2.lastAfWildcard = T1.lastAfWildcard ∧ (T2.bitmaskAfs.map (·.1)).Nodup ∧
      (∀ af n, (af, n) ∈ T2.bitmaskAfs → n = bmCount (l ++ [r]) af ∧ 0 < n) ∧ (∀ af, 0 < bmCount (l ++ [r]) af → af ∈ T2.bitmaskAfs.map (·.1)) := by
    have hone : ∀ af, bmCount (l ++ [r]) af = bmCount l af + (if r.hasBitmask = true ∧ r.family = af then 1 else 0) := by
      intro af; rw [bmCount_append, bmCount_cons]; simp [bmCount]
    by_cases hb : r.hasBitmask = true
    · rw [if_pos hb] at e2
      -- there is room, and the count does not overflow
      have hsrc : ∀ af, 0 < bmCount S.ents af → af ∈ S.bitmaskAfs.map (·.1) := hS.afsMem
      have hcnt : ∀ af, bmCount (l ++ [r]) af ≤ bmCount S.ents af := by
        intro af; rw [hall, show l ++ r :: rest = (l ++ [r]) ++ rest by simp, bmCount_append (l ++ [r])]; omega
      have hmax : ∀ af, bmCount S.ents af ≤ 65535 := by
        intro af
        by_cases h0 : 0 < bmCount S.ents af
        · obtain ⟨p, hp, e⟩ := List.mem_map.1 (hsrc af h0)
          obtain ⟨a, n⟩ := p
          simp only at e; subst e
          have h1 := (hS.afsCount _ _ hp).1
          have h2 : n ≤ 65535 := hF.counts _ hp
          omega
        · omega
      have hok : ∃ l', upref r.family T1.bitmaskAfs = .ok l' := by
        rw [b1.2.1]
        unfold upref
        cases hu : uprefScan r.family T.bitmaskAfs with
        | none =>
          have hni := uprefScan_none.1 hu
          simp only
          rw [if_neg]
          · exact ⟨_, rfl⟩
          · have hsub := length_le_of_nodup_subset (l := r.family :: T.bitmaskAfs.map (·.1)) (l' := S.bitmaskAfs.map (·.1))
              (List.nodup_cons.2 ⟨hni, h.nodup⟩) (fun x hx => by
                apply hsrc
                rcases List.mem_cons.1 hx with rfl | hx
                · have := hcnt r.family; rw [hone, if_pos ⟨hb, rfl⟩] at this; omega
                · obtain ⟨⟨a, n⟩, hp, e⟩ := List.mem_map.1 hx
                  simp only at e; subst e
                  have h1 := h.count _ _ hp
                  have := hcnt a; rw [hone] at this; omega)
            simp only [List.length_cons, List.length_map] at hsub
            have := hF.room; omega
        | some x =>
          cases x with
          | ok l' => exact ⟨l', rfl⟩
          | error e =>
            exfalso
            have : ∀ L : List (Nat × Nat), uprefScan r.family L = some (.error e) → (r.family, 65535) ∈ L := by
              intro L
              induction L with
              | nil => intro h; cases h
              | cons p L ih =>
                obtain ⟨a, n⟩ := p
                intro h
                unfold uprefScan at h
                split at h
                · rename_i ha
                  split at h
                  · rename_i hn; subst ha; subst hn; simp
                  · cases h
                · cases hx : uprefScan r.family L with
                  | none => rw [hx] at h; cases h
                  | some y =>
                    rw [hx] at h
                    cases y with
                    | ok z => cases h
                    | error e' =>
                      have : e' = e := by simpa [Except.map] using h
                      subst this
                      exact List.mem_cons_of_mem _ (ih hx)
            have h1 := (h.count _ _ (this _ hu)).1
            have h2 := hcnt r.family
            rw [hone, if_pos ⟨hb, rfl⟩] at h2
            have := hmax r.family
            omega
      obtain ⟨l', hl'⟩ := hok
      rw [hl'] at e2
      rw [b1.2.1] at hl'
      obtain ⟨n1, n2⟩ := upref_ok h.nodup hl'
      subst e2
      refine ⟨b1.1, b1.2.2.1, rfl, n1, ?_, ?_⟩
      · intro af n hm
        rw [hone]
        rcases n2 with ⟨k, hk, hall'⟩ | ⟨hni, hall'⟩
        · rcases (hall' af n).1 hm with ⟨h1, h2⟩ | ⟨h1, h2⟩
          · rw [if_neg (fun hc => h1 hc.2.symm)]; exact h.count _ _ h2
          · subst h1; rw [if_pos ⟨hb, rfl⟩, ← (h.count _ _ hk).1]; omega
        · rcases (hall' af n).1 hm with ⟨h1, h2⟩ | ⟨h1, h2⟩
          · rw [if_neg (fun hc => h1 hc.2.symm)]; exact h.count _ _ h2
          · subst h1; rw [if_pos ⟨hb, rfl⟩]
            have : bmCount l r.family = 0 := by
              rcases Nat.eq_zero_or_pos (bmCount l r.family) with h0 | h0
              · exact h0
              · exact absurd (h.mem _ h0) hni
            omega
      · intro af hp
        rw [hone] at hp
        by_cases haf : af = r.family
        · subst haf
          rcases n2 with ⟨k, hk, hall'⟩ | ⟨hni, hall'⟩
          · exact List.mem_map.2 ⟨_, (hall' _ (k + 1)).2 (.inr ⟨rfl, rfl⟩), rfl⟩
          · exact List.mem_map.2 ⟨_, (hall' _ 1).2 (.inr ⟨rfl, rfl⟩), rfl⟩
        · rw [if_neg (fun hc => haf hc.2.symm)] at hp
          obtain ⟨⟨a, n⟩, hm, e⟩ := List.mem_map.1 (h.mem af (by omega))
          simp only at e; subst e
          rcases n2 with ⟨k, hk, hall'⟩ | ⟨hni, hall'⟩
          · exact List.mem_map.2 ⟨_, (hall' _ n).2 (.inl ⟨haf, hm⟩), rfl⟩
          · exact List.mem_map.2 ⟨_, (hall' _ n).2 (.inl ⟨haf, hm⟩), rfl⟩
    · rw [if_neg hb] at e2
      subst e2
      refine ⟨b1.1, b1.2.2.1, rfl, by rw [b1.2.1]; exact h.nodup, ?_, ?_⟩
      · intro af n hm; rw [hone, if_neg (fun hc => hb hc.1)]; rw [b1.2.1] at hm; exact h.count _ _ hm
      · intro af hp; rw [hone, if_neg (fun hc => hb hc.1)] at hp; rw [b1.2.1]; exact h.mem _ (by omega)
  have hexp : ∀ U : RouteTable, U.ents = S.ents → U.expiry r.id = r.data.purgeAfter := by
    intro U hU
    have hr : r ∈ S.ents := by rw [hall]; simp
    unfold RouteTable.expiry RouteTable.get?
    rw [hU]
    cases hf : S.ents.find? (fun x => x.id == r.id) with
    | none => exact absurd (List.find?_eq_none.1 hf r hr) (by simp)
    | some y =>
      have h1 := List.mem_of_find?_eq_some hf
      have h2 := List.find?_some hf
      have : y = r := id_inj hS.ids h1 hr (by simpa using h2)
      subst this; rfl
  have hexp2 : T2.expiry = T.expiry := by funext x; unfold RouteTable.expiry RouteTable.get?; rw [b2.1]
  have hnotin : r.id ∉ T.purgeList := by
    intro hc
    obtain ⟨x, hx, e, _⟩ := (h.qmem _).1 hc
    have hnd := hS.ids
    rw [hall, List.map_append, List.nodup_append] at hnd
    exact hnd.2.2 x.id (List.mem_map.2 ⟨x, hx, rfl⟩) r.id (by simp) e
  rw [e3]
  by_cases hp : r.data.purgeAfter ≠ 0
  · rw [if_pos hp]
    have hperm := purgeSplice_perm T2.expiry r.id r.data.purgeAfter T2.purgeList
    refine ⟨b2.1.trans h.ents, b2.2.2.2.1, b2.2.2.2.2.1, b2.2.2.2.2.2, ?_, ?_, ?_, ?_⟩
    · intro id hid
      exact b1.2.2.2 id (by rw [← b2.2.2.1]; exact hid)
    · show (purgeSplice _ _ _ _).Nodup
      rw [hperm.nodup_iff, b2.2.1, List.nodup_cons]
      exact ⟨hnotin, h.qnodup⟩
    · intro id
      show id ∈ purgeSplice _ _ _ _ ↔ _
      rw [hperm.mem_iff, b2.2.1, List.mem_cons, h.qmem]
      constructor
      · rintro (rfl | ⟨x, hx, h1⟩)
        · exact ⟨r, by simp, rfl, hp⟩
        · exact ⟨x, by simp [hx], h1⟩
      · rintro ⟨x, hx, h1, h2⟩
        rcases List.mem_append.1 hx with hx | hx
        · exact .inr ⟨x, hx, h1, h2⟩
        · simp only [List.mem_singleton] at hx; subst hx; exact .inl h1.symm
    · show (purgeSplice _ _ _ _).Pairwise _
      have hex : (T2.purgeInsert r.id r.data.purgeAfter).expiry = T2.expiry := rfl
      rw [hex]
      refine purgeSplice_sorted T2.expiry r.id r.data.purgeAfter T2.purgeList (hexp T2 (b2.1.trans h.ents)) ?_
      rw [hexp2, b2.2.1]; exact h.qsort
  · rw [if_neg hp]
    refine ⟨b2.1.trans h.ents, b2.2.2.2.1, b2.2.2.2.2.1, b2.2.2.2.2.2, ?_, by rw [b2.2.1]; exact h.qnodup, ?_, h.qsort.congr b2.1 b2.2.1⟩
    · intro id hid
      exact b1.2.2.2 id (by rw [← b2.2.2.1]; exact hid)
    · intro id
      rw [b2.2.1, h.qmem]
      constructor
      · rintro ⟨x, hx, h1⟩; exact ⟨x, by simp [hx], h1⟩
      · rintro ⟨x, hx, h1, h2⟩
        rcases List.mem_append.1 hx with hx | hx
        · exact ⟨x, hx, h1, h2⟩
        · simp only [List.mem_singleton] at hx; subst hx; exact absurd h2 hp

theorem mid_fold {S : RouteTable} (hS : CoreInv S) (hF : BmFits S) : ∀ (rest l : List Route) (T : RouteTable), S.ents = l ++ rest → Mid S.ents l T →
    Mid S.ents S.ents (rest.foldl noteClone T) := by
  intro rest
  induction rest with
  | nil => intro l T hall h; rw [List.append_nil] at hall; rw [List.foldl_nil]; rw [← hall] at h; exact h
  | cons r rest ih =>
    intro l T hall h
    rw [List.foldl_cons]
    exact ih (l ++ [r]) _ (by rw [hall]; simp) (mid_step hS hF hall h)

theorem noteClone_hp (T : RouteTable) (r : Route) : (noteClone T r).highestPriority = T.highestPriority := by
  unfold noteClone RouteTable.purgeInsert
  simp only
  repeat' split
  all_goals rfl

theorem fold_hp (l : List Route) (T : RouteTable) : (l.foldl noteClone T).highestPriority = T.highestPriority := by
  induction l generalizing T with
  | nil => rfl
  | cons r l ih => rw [List.foldl_cons, ih, noteClone_hp]

/-- The clone of a healthy rule table, with its rules, is healthy. -/
theorem clone_healthy {S : RouteTable} (hS : TableInv S) (hF : BmFits S) (evs : List Event) :
    TableInv (cloneRoutes .none evs S) ∧ PurgeSorted (cloneRoutes .none evs S) ∧ (cloneRoutes .none evs S).ents = S.ents := by
  have h := mid_fold hS.core hF S.ents [] { maxPurgeableRoutes := S.maxPurgeableRoutes, defaultPolicy := S.defaultPolicy, defaultEvent := S.defaultEvent.bind (sameLabel evs), fallthroughRoute := S.fallthroughRoute, ents := S.ents, highestPriority := S.highestPriority } rfl
    ⟨rfl, .nil, by simp, by simp [bmCount], by simp, .nil, by simp, .nil⟩
  have hhp := fold_hp S.ents { maxPurgeableRoutes := S.maxPurgeableRoutes, defaultPolicy := S.defaultPolicy, defaultEvent := S.defaultEvent.bind (sameLabel evs), fallthroughRoute := S.fallthroughRoute, ents := S.ents, highestPriority := S.highestPriority }
  have e : cloneRoutes .none evs S = S.ents.foldl noteClone { maxPurgeableRoutes := S.maxPurgeableRoutes, defaultPolicy := S.defaultPolicy, defaultEvent := S.defaultEvent.bind (sameLabel evs), fallthroughRoute := S.fallthroughRoute, ents := S.ents, highestPriority := S.highestPriority } := rfl
  rw [e]
  refine ⟨⟨?_, ⟨h.qnodup, fun id => by rw [h.qmem, h.ents]⟩⟩, h.qsort, h.ents⟩
  have c := hS.core
  constructor <;> try rw [h.ents]
  · exact c.sorted
  · exact c.ids
  · exact c.nonzero
  · exact h.last
  · rw [hhp]; exact c.hpLe
  · rw [hhp]; exact c.hpEx
  · exact h.nodup
  · exact h.count
  · exact h.mem
  · exact c.inTable
  · exact c.wildZero
  · exact c.sens

end WS.Ld
