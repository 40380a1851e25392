import Verif.Proof.Table
import Verif.Proof.RouteMatch
/-
Properties C02 (sorted, duplicate-free tables), C03 (finite-map behaviour), C04 (object IDs).
The theorems hold for any family of tables whose comparators are total orders (up to equality of
keys); `C02_route_order`, `C02_label_order`, `C02_number_order` show that the comparators of
wolfSentry's tables are.
-/
namespace WS.Props
open WS Std
variable {κ : Type} (cmp : Nat → κ → κ → Ordering)

/-- Rules that can sit in the route table. -/
abbrev WFRoute := { r : Route // r.WF }

/-- The route table's comparator on well-formed rules (src/routes.c:571-573). -/
def routeCmp (a b : WFRoute) : Ordering := routeKeyCmp a.1 b.1

instance C02_route_order : TransCmp routeCmp := by
  have : routeCmp = fun a b => exactLex a.1 b.1 := by
    funext a b; exact routeKeyCmp_eq a.1 b.1 a.2 b.2
  rw [this]
  exact { eq_swap := OrientedCmp.eq_swap (cmp := exactLex)
          isLE_trans := TransCmp.isLE_trans (cmp := exactLex) }

/-- Events, actions, user values and address families by name are ordered by label
(src/events.c:27-53, src/actions.c:27-49, src/kv.c:31-52, src/addr_families.c:33-56). -/
instance C02_label_order : TransCmp labelCmp := by
  have : labelCmp = fun a b => compare (bytesKey a) (bytesKey b) := by
    funext a b; exact labelCmp_lex a b
  rw [this]
  exact { eq_swap := OrientedCmp.eq_swap (cmp := (compare : List Nat → List Nat → Ordering))
          isLE_trans := TransCmp.isLE_trans (cmp := (compare : List Nat → List Nat → Ordering)) }

/-- Address families by number (src/addr_families.c:27-31). -/
instance C02_number_order : TransCmp (compare : Nat → Nat → Ordering) := inferInstance

/-! ## C02 -/

/-- C02: after any history, walking any table yields strictly increasing keys, and the stored
entry count is the number of entries. -/
theorem C02_sorted [∀ t, TransCmp (cmp t)] (ops : List (StoreOp κ)) (t : Nat) :
    ((storeRun cmp ops).tables t).ents.Pairwise (fun a b => cmp t a.key b.key = .lt) ∧
    ((storeRun cmp ops).tables t).nEnts = ((storeRun cmp ops).tables t).ents.length :=
  ⟨(storeRun_inv cmp ops).sorted t, (storeRun_inv cmp ops).count t⟩

/-- C02: no key is present twice: two positions of a table with equal keys are the same
position. -/
theorem C02_no_duplicates [∀ t, TransCmp (cmp t)] (ops : List (StoreOp κ)) (t i j : Nat) (a b : Ent κ)
    (hi : ((storeRun cmp ops).tables t).ents[i]? = some a)
    (hj : ((storeRun cmp ops).tables t).ents[j]? = some b) (h : cmp t a.key b.key = .eq) : i = j := by
  have hs := (storeRun_inv cmp ops).sorted t
  rw [List.pairwise_iff_getElem] at hs
  obtain ⟨hi1, hi2⟩ := List.getElem?_eq_some_iff.1 hi
  obtain ⟨hj1, hj2⟩ := List.getElem?_eq_some_iff.1 hj
  rcases Nat.lt_trichotomy i j with hlt | heq | hgt
  · have := hs i j hi1 hj1 hlt; rw [hi2, hj2, h] at this; cases this
  · exact heq
  · have := hs j i hj1 hi1 hgt; rw [hi2, hj2, OrientedCmp.eq_symm h] at this; cases this

def demoCmp : Nat → List Byte → List Byte → Ordering := fun _ => labelCmp
instance : ∀ t, TransCmp (demoCmp t) := fun _ => C02_label_order

/-- Without evaluating the allocator (defined by well-founded recursion), the reachable states are
not trivial: two inserts into an empty store give a table of two. -/
theorem demo_two :
    (((storeRun demoCmp [.insertWithId 0 [2#8] 7, .insertWithId 0 [1#8] 9]).tables 0).ents.map (·.id)) = [9, 7] := by
  decide

/-! ## C03 -/

/-- C03: a lookup succeeds with exactly the entry of that table whose key equals the one asked
for. -/
theorem C03_get_iff [∀ t, TransCmp (cmp t)] (ops : List (StoreOp κ)) (t : Nat) (k : κ) (e : Ent κ) :
    tableGet cmp (storeRun cmp ops) t k = .ok e ↔
      e ∈ ((storeRun cmp ops).tables t).ents ∧ cmp t e.key k = .eq :=
  getScan_ok (cmp t) k _ ((storeRun_inv cmp ops).sorted t) e

/-- C03: the only failure of a lookup is `ITEM_NOT_FOUND`. -/
theorem C03_get_error (s : Store κ) (t : Nat) (k : κ) (x : Err) (h : tableGet cmp s t k = .error x) :
    x = .itemNotFound := getScan_err (cmp t) k _ x h

theorem get_of_mem [∀ t, TransCmp (cmp t)] {s s' : Store κ} (h : StoreInv cmp s) (h' : StoreInv cmp s')
    (t : Nat) (k : κ)
    (hm : ∀ x, cmp t x.key k = .eq → (x ∈ (s'.tables t).ents ↔ x ∈ (s.tables t).ents)) :
    tableGet cmp s' t k = tableGet cmp s t k := by
  unfold tableGet
  cases h1 : getScan (cmp t) k (s.tables t).ents with
  | ok e =>
    have := (getScan_ok _ _ _ (h.sorted t) e).1 h1
    exact (getScan_ok _ _ _ (h'.sorted t) e).2 ⟨(hm e this.2).2 this.1, this.2⟩
  | error x =>
    rw [getScan_err _ _ _ _ h1]
    cases h2 : getScan (cmp t) k (s'.tables t).ents with
    | ok e =>
      have := (getScan_ok _ _ _ (h'.sorted t) e).1 h2
      have := (getScan_ok _ _ _ (h.sorted t) e).2 ⟨(hm e this.2).1 this.1, this.2⟩
      rw [h1] at this; cases this
    | error y => rw [getScan_err _ _ _ _ h2]

/-- C03: a successful insertion makes exactly its own key map to the new entry and leaves every
other lookup, in every table, as it was. -/
theorem C03_insert_ok [∀ t, TransCmp (cmp t)] (ops : List (StoreOp κ)) (t : Nat) (k : κ) (e : Ent κ)
    (h : (storeInsert cmp (storeRun cmp ops) t k).1 = .ok e) :
    e.key = k ∧ e.tbl = t ∧
    (∀ k', cmp t k k' = .eq → tableGet cmp (storeRun cmp (ops ++ [.insert t k])) t k' = .ok e) ∧
    (∀ t' k', (t' ≠ t ∨ cmp t k k' ≠ .eq) →
      tableGet cmp (storeRun cmp (ops ++ [.insert t k])) t' k' = tableGet cmp (storeRun cmp ops) t' k') := by
  have hinv := storeRun_inv cmp ops
  have hrun : storeRun cmp (ops ++ [.insert t k]) = (storeInsert cmp (storeRun cmp ops) t k).2 := by
    simp [storeRun, storeStep]
  rw [hrun]
  rcases storeInsert_spec cmp hinv t k with ⟨a, _⟩ | ⟨a, _⟩ | ⟨e', a, b1, b2, _, _, _, _, hi, hm, ho, _⟩
  · rw [a] at h; cases h
  · rw [a] at h; cases h
  · rw [a] at h
    cases h
    refine ⟨b2, b1, ?_, ?_⟩
    · intro k' hk
      exact (getScan_ok _ _ _ (hi.sorted t) e).2 ⟨(hm _).2 (Or.inl rfl), b2 ▸ hk⟩
    · intro t' k' hne
      by_cases ht : t' = t
      · subst ht
        have hne : cmp t' k k' ≠ .eq := by
          rcases hne with h | h
          · exact absurd rfl h
          · exact h
        apply get_of_mem cmp hinv hi
        intro x hx
        rw [hm]
        constructor
        · rintro (rfl | h)
          · exact absurd (b2 ▸ hx) hne
          · exact h
        · exact Or.inr
      · unfold tableGet; rw [ho t' ht]

/-- C03: inserting a key that is present fails, with `ITEM_ALREADY_PRESENT` unless ID allocation
itself failed, and no table changes at all. -/
theorem C03_insert_duplicate [∀ t, TransCmp (cmp t)] (ops : List (StoreOp κ)) (t : Nat) (k : κ)
    (i : Ent κ) (hi : i ∈ ((storeRun cmp ops).tables t).ents) (hk : cmp t i.key k = .eq) :
    ((storeInsert cmp (storeRun cmp ops) t k).1 = .error .itemAlreadyPresent ∨
      (storeInsert cmp (storeRun cmp ops) t k).1 = .error .invalidArg) ∧
    (storeRun cmp (ops ++ [.insert t k])).tables = (storeRun cmp ops).tables ∧
    (storeRun cmp (ops ++ [.insert t k])).byId = (storeRun cmp ops).byId := by
  have hrun : storeRun cmp (ops ++ [.insert t k]) = (storeInsert cmp (storeRun cmp ops) t k).2 := by
    simp [storeRun, storeStep]
  rw [hrun]
  rcases storeInsert_spec cmp (storeRun_inv cmp ops) t k with ⟨a, _, c, _, e⟩ | ⟨a, _, c, _, e⟩ | ⟨e', a, b1, b2, _, _, _, hn, _⟩
  · rw [a, e]; exact ⟨Or.inr rfl, rfl, rfl⟩
  · rw [a, e]; exact ⟨Or.inl rfl, rfl, rfl⟩
  · exact absurd hk (hn i hi)

/-- C03: any failed insertion leaves every table and the by-ID list exactly as they were. -/
theorem C03_insert_failed [∀ t, TransCmp (cmp t)] (ops : List (StoreOp κ)) (t : Nat) (k : κ) (x : Err)
    (h : (storeInsert cmp (storeRun cmp ops) t k).1 = .error x) :
    (storeRun cmp (ops ++ [.insert t k])).tables = (storeRun cmp ops).tables ∧
    (storeRun cmp (ops ++ [.insert t k])).byId = (storeRun cmp ops).byId := by
  have hrun : storeRun cmp (ops ++ [.insert t k]) = (storeInsert cmp (storeRun cmp ops) t k).2 := by
    simp [storeRun, storeStep]
  rw [hrun]
  rcases storeInsert_spec cmp (storeRun_inv cmp ops) t k with ⟨a, _, c, _, e⟩ | ⟨a, _, c, _, e⟩ | ⟨e', a, _⟩
  · rw [e]; exact ⟨rfl, rfl⟩
  · rw [e]; exact ⟨rfl, rfl⟩
  · rw [a] at h; cases h

/-- C03: inserting an absent key succeeds whenever some ID above the counter is free. -/
theorem C03_insert_absent [∀ t, TransCmp (cmp t)] (ops : List (StoreOp κ)) (t : Nat) (k : κ) (j : Nat)
    (habs : ∀ i ∈ ((storeRun cmp ops).tables t).ents, cmp t i.key k ≠ .eq)
    (hj : (storeRun cmp ops).counter < j) (hj2 : j < 4294967296)
    (hfree : ∀ i ∈ (storeRun cmp ops).byId, i.id ≠ j) :
    ∃ e, (storeInsert cmp (storeRun cmp ops) t k).1 = .ok e := by
  rcases storeInsert_spec cmp (storeRun_inv cmp ops) t k with ⟨_, a, _⟩ | ⟨_, ⟨i, hi, hk⟩, _⟩ | ⟨e, a, _⟩
  · obtain ⟨i, hi, hid⟩ := a j hj hj2; exact absurd hid (hfree i hi)
  · exact absurd hk (habs i hi)
  · exact ⟨e, a⟩

/-- C03: deleting a present key removes it and nothing else. -/
theorem C03_delete_present [∀ t, TransCmp (cmp t)] (ops : List (StoreOp κ)) (t : Nat) (k : κ) (e : Ent κ)
    (h : tableGet cmp (storeRun cmp ops) t k = .ok e) :
    (tableDelete cmp (storeRun cmp ops) t k).1 = .ok e ∧
    (∀ k', cmp t k k' = .eq →
      tableGet cmp (storeRun cmp (ops ++ [.delete t k])) t k' = .error .itemNotFound) ∧
    (∀ t' k', (t' ≠ t ∨ cmp t k k' ≠ .eq) →
      tableGet cmp (storeRun cmp (ops ++ [.delete t k])) t' k' = tableGet cmp (storeRun cmp ops) t' k') := by
  have hinv := storeRun_inv cmp ops
  have hrun : storeRun cmp (ops ++ [.delete t k]) = tableDelete1 (storeRun cmp ops) e := by
    simp [storeRun, storeStep, tableDelete]
    unfold storeRun at h; rw [h]
  have hget := (getScan_ok (cmp t) k _ (hinv.sorted t) e).1 h
  have hb := (hinv.mem _ _).1 hget.1
  obtain ⟨d1, d2, d3, d4⟩ := tableDelete1_spec cmp hinv hb.1
  refine ⟨by unfold tableDelete; rw [h], ?_, ?_⟩
  · intro k' hk
    rw [hrun]
    unfold tableGet
    cases hg : getScan (cmp t) k' ((tableDelete1 (storeRun cmp ops) e).tables t).ents with
    | error x => rw [getScan_err _ _ _ _ hg]
    | ok e' =>
      obtain ⟨g1, g2⟩ := (getScan_ok _ _ _ (d1.sorted t) e').1 hg
      obtain ⟨g3, g4⟩ := (d2 t e').1 g1
      have : cmp t e'.key e.key = .eq :=
        TransCmp.eq_trans g2 (TransCmp.eq_trans (OrientedCmp.eq_symm hk) (OrientedCmp.eq_symm hget.2))
      exact absurd (hinv.key_inj cmp g3 hget.1 this) g4
  · intro t' k' hne
    rw [hrun]
    apply get_of_mem cmp hinv d1
    intro x hx
    rw [d2]
    constructor
    · exact fun h => h.1
    · intro h1
      refine ⟨h1, ?_⟩
      rintro rfl
      have ht : t' = t := by rw [← ((hinv.mem _ _).1 h1).2, hb.2]
      rcases hne with h2 | h2
      · exact h2 ht
      · subst ht; exact h2 (TransCmp.eq_trans (OrientedCmp.eq_symm hget.2) hx)

/-- C03: deleting an absent key fails with `ITEM_NOT_FOUND` and changes nothing. -/
theorem C03_delete_absent (s : Store κ) (t : Nat) (k : κ) (x : Err) (h : tableGet cmp s t k = .error x) :
    tableDelete cmp s t k = (.error .itemNotFound, s) := by
  have := C03_get_error cmp s t k x h
  subst this
  unfold tableDelete; rw [h]

/-- C03: flushing a table empties it and leaves the others alone. -/
theorem C03_flush [∀ t, TransCmp (cmp t)] (ops : List (StoreOp κ)) (t : Nat) :
    ((storeRun cmp (ops ++ [.flush t])).tables t).ents = [] ∧
    ∀ t', t' ≠ t → (storeRun cmp (ops ++ [.flush t])).tables t' = (storeRun cmp ops).tables t' := by
  have hrun : storeRun cmp (ops ++ [.flush t]) = tableFlush (storeRun cmp ops) t := by
    simp [storeRun, storeStep]
  rw [hrun]
  exact ⟨(tableFlush_spec cmp (storeRun_inv cmp ops) t).2.1, (tableFlush_spec cmp (storeRun_inv cmp ops) t).2.2.1⟩

/-- C03: filtering keeps exactly the entries the filter accepts. -/
theorem C03_filter [∀ t, TransCmp (cmp t)] (ops : List (StoreOp κ)) (t : Nat) (keep : Ent κ → Bool) (x : Ent κ) :
    x ∈ ((storeRun cmp (ops ++ [.filter t keep])).tables t).ents ↔
      x ∈ ((storeRun cmp ops).tables t).ents ∧ keep x = true := by
  have hrun : storeRun cmp (ops ++ [.filter t keep]) = tableFilter (storeRun cmp ops) t keep := by
    simp [storeRun, storeStep]
  have h := storeRun_inv cmp ops
  rw [hrun]
  unfold tableFilter
  rw [(foldl_delete_spec cmp _ _ h (fun e he => ((h.mem _ _).1 (List.mem_filter.1 he).1).1)
      ((h.nodup cmp t).filter _)).2.1]
  simp only [List.mem_filter, not_and, Bool.not_eq_true', Bool.not_eq_false]
  constructor
  · rintro ⟨a, b⟩; exact ⟨a, b a⟩
  · rintro ⟨a, b⟩; exact ⟨a, fun _ => b⟩

/-- The counters of a table header are consistent. -/
def Balanced (s : Store κ) : Prop :=
  ∀ t, (s.tables t).nInserts = (s.tables t).nEnts + (s.tables t).nDeletes

theorem delete1_balanced {s : Store κ} (h : StoreInv cmp s) {e : Ent κ} (he : e ∈ s.byId)
    (hb : Balanced s) : Balanced (tableDelete1 s e) := by
  intro t
  have hm := (h.mem e.tbl e).2 ⟨he, rfl⟩
  have hp : 0 < (s.tables e.tbl).nEnts := by
    rw [h.count e.tbl]; exact List.length_pos_of_mem hm
  have := hb e.tbl
  have h2 := hb t
  unfold tableDelete1 deleteById1 Store.setTable unlink
  by_cases ht : t = e.tbl
  · subst ht; simp; omega
  · simp [ht]; omega

theorem foldl_delete1_balanced [∀ t, TransCmp (cmp t)] (l : List (Ent κ)) (s : Store κ) (h : StoreInv cmp s)
    (hl : ∀ e ∈ l, e ∈ s.byId) (hn : l.Nodup) (hb : Balanced s) : Balanced (l.foldl tableDelete1 s) := by
  induction l generalizing s with
  | nil => exact hb
  | cons e rest ih =>
    rw [List.nodup_cons] at hn
    obtain ⟨i1, i2, i3, _⟩ := tableDelete1_spec cmp h (hl e List.mem_cons_self)
    exact ih (tableDelete1 s e) i1 (fun x hx => (i3 x).2
      ⟨hl x (List.mem_cons_of_mem _ hx), fun he => hn.1 (he ▸ hx)⟩) hn.2
      (delete1_balanced cmp h (hl e List.mem_cons_self) hb)

theorem tableInsert_balanced {s : Store κ} {e : Ent κ} (hb : Balanced s) : Balanced (tableInsert cmp s e).2 := by
  intro t
  have h2 := hb t
  unfold tableInsert
  split
  · exact h2
  · split
    · exact h2
    · simp only [Store.setTable]
      by_cases ht : t = e.tbl
      · subst ht; simp; omega
      · simp [ht]; omega

theorem insertById_tables {s s' : Store κ} {e : Ent κ} (h : insertById s e = .ok s') : s'.tables = s.tables := by
  unfold insertById at h
  split at h
  · cases h
  · split at h
    · cases h
    · cases h; rfl

theorem flush_tables (l : List (Ent κ)) (s : Store κ) : (l.foldl deleteById1 s).tables = s.tables := by
  induction l generalizing s with
  | nil => rfl
  | cons e rest ih => rw [List.foldl_cons, ih]; rfl

/-- C03, the reported counters (`wolfsentry_table_n_inserts`, `wolfsentry_table_n_deletes`): after
every history, the insertions counted since the table was last flushed are the entries still
present plus the deletions counted since. -/
theorem C03_counters [∀ t, TransCmp (cmp t)] (ops : List (StoreOp κ)) (t : Nat) :
    ((storeRun cmp ops).tables t).nInserts =
      ((storeRun cmp ops).tables t).ents.length + ((storeRun cmp ops).tables t).nDeletes := by
  have hinv := storeRun_inv cmp ops
  rw [← hinv.count t]
  suffices ∀ (ops : List (StoreOp κ)) (s : Store κ), StoreInv cmp s → Balanced s →
      Balanced (ops.foldl (storeStep cmp) s) from
    this ops {} (storeInv_init cmp) (fun _ => rfl) t
  intro ops
  induction ops with
  | nil => intro s _ hb; exact hb
  | cons op rest ih =>
    intro s h hb
    refine ih _ (storeStep_inv cmp s h op) ?_
    cases op with
    | insert t k =>
      simp only [storeStep, storeInsert]
      rcases idAllocate_spec s t k h.idSorted h.ctr with ⟨a1, a2, _⟩ | ⟨c, _, _, _, c4, c5⟩
      · rw [show idAllocate s t k = (.error .invalidArg, { s with counter := 0 }) from Prod.ext a1 a2]
        exact hb
      · rw [show idAllocate s t k = (.ok ⟨c, t, k⟩, (idAllocate s t k).2) from Prod.ext c4 rfl]
        have hb1 : Balanced (idAllocate s t k).2 := by
          intro t'; rw [insertById_tables c5]; exact hb t'
        have := tableInsert_balanced cmp (e := ⟨c, t, k⟩) hb1
        simp only
        split <;> simp_all
    | insertWithId t k id =>
      simp only [storeStep, storeInsertWithId]
      cases hi : insertById s (⟨id % idModulus, t, k⟩ : Ent κ) with
      | error x => exact hb
      | ok s1 =>
        have hb1 : Balanced s1 := by intro t'; rw [insertById_tables hi]; exact hb t'
        have := tableInsert_balanced cmp (e := ⟨id % idModulus, t, k⟩) hb1
        simp only
        split <;> simp_all
    | delete t k =>
      simp only [storeStep, tableDelete, tableGet]
      cases hg : getScan (cmp t) k (s.tables t).ents with
      | error x => exact hb
      | ok e =>
        have := (getScan_ok (cmp t) k _ (h.sorted t) e).1 hg
        exact delete1_balanced cmp h ((h.mem _ _).1 this.1).1 hb
    | deleteById id =>
      simp only [storeStep]
      rcases tableDeleteById_spec s id with ⟨e, hg, he⟩ | ⟨x, _, he⟩
      · rw [he]
        unfold getById at hg
        split at hg
        · cases hg
        · exact delete1_balanced cmp h ((getByIdScan_ok id _ h.idSorted e).1 hg).1 hb
      · rw [he]; exact hb
    | flush t =>
      intro t'
      simp only [storeStep, tableFlush, flush_tables, Store.setTable]
      split
      · rfl
      · exact hb t'
    | filter t keep =>
      simp only [storeStep, tableFilter]
      exact foldl_delete1_balanced cmp _ s h (fun e he => ((h.mem _ _).1 (List.mem_filter.1 he).1).1)
        ((h.nodup cmp t).filter _) hb
/-- Two insertions and one deletion are reported as such. -/
example : ((storeRun demoCmp [.insertWithId 0 [2#8] 7, .insertWithId 0 [1#8] 9, .delete 0 [2#8]]).tables 0).nInserts = 2 ∧
    ((storeRun demoCmp [.insertWithId 0 [2#8] 7, .insertWithId 0 [1#8] 9, .delete 0 [2#8]]).tables 0).nDeletes = 1 := by
  decide +kernel

/-- C03: the cursor seek lands on the first entry not below the key — on the entry itself when
present, otherwise on its successor, or on the last entry when everything is below. -/
theorem C03_seek [∀ t, TransCmp (cmp t)] (ops : List (StoreOp κ)) (t : Nat) (k : κ) :
    let l := ((storeRun cmp ops).tables t).ents
    (∃ as i bs, l = as ++ i :: bs ∧ cursorSeek (cmp t) k l = (some i, cmp t i.key k) ∧
      cmp t i.key k ≠ .lt ∧ (∀ a ∈ as, cmp t a.key k = .lt) ∧ (∀ b ∈ bs, cmp t b.key k = .gt)) ∨
    ((∀ a ∈ l, cmp t a.key k = .lt) ∧ cursorSeek (cmp t) k l = (l.getLast?, .lt)) := by
  intro l
  have hs : l.Pairwise (fun a b => cmp t a.key b.key = .lt) := (storeRun_inv cmp ops).sorted t
  unfold cursorSeek
  cases hf : l.find? (fun i => cmp t i.key k != .lt) with
  | none =>
    right
    rw [List.find?_eq_none] at hf
    exact ⟨fun a ha => by simpa using hf a ha, rfl⟩
  | some i =>
    left
    rw [List.find?_eq_some_iff_append] at hf
    obtain ⟨h1, as, bs, h2, h3⟩ := hf
    refine ⟨as, i, bs, h2, rfl, by simpa using h1, fun a ha => by simpa using h3 a ha, fun b hb => ?_⟩
    rw [h2, List.pairwise_append] at hs
    have hib := (List.pairwise_cons.1 hs.2.1).1 b hb
    have hi : cmp t i.key k ≠ .lt := by simpa using h1
    cases hbk : cmp t b.key k with
    | lt => exact absurd (TransCmp.lt_trans hib hbk) hi
    | eq => exact absurd (TransCmp.lt_of_lt_of_eq hib hbk) hi
    | gt => rfl

/-! ## C04 -/

/-- C04: every live object has a non-zero 32-bit ID, and no two live objects — in whatever tables —
share one. -/
theorem C04_ids_unique [∀ t, TransCmp (cmp t)] (ops : List (StoreOp κ)) :
    (∀ t e, e ∈ ((storeRun cmp ops).tables t).ents → 0 < e.id ∧ e.id < 4294967296) ∧
    (∀ t t' a b, a ∈ ((storeRun cmp ops).tables t).ents → b ∈ ((storeRun cmp ops).tables t').ents →
      a.id = b.id → t = t' ∧ a = b) := by
  have h := storeRun_inv cmp ops
  constructor
  · intro t e he
    exact h.idRange e ((h.mem _ _).1 he).1
  · intro t t' a b ha hb hid
    have ha' := (h.mem _ _).1 ha
    have hb' := (h.mem _ _).1 hb
    have := h.id_inj cmp ha'.1 hb'.1 hid
    subst this
    exact ⟨by rw [← ha'.2, hb'.2], rfl⟩

/-- C04: lookup by ID returns exactly the live object with that ID. -/
theorem C04_get_by_id [∀ t, TransCmp (cmp t)] (ops : List (StoreOp κ)) (id : Nat) (e : Ent κ) :
    getById (storeRun cmp ops) id = .ok e ↔
      e.id = id ∧ ∃ t, e ∈ ((storeRun cmp ops).tables t).ents := by
  have h := storeRun_inv cmp ops
  unfold getById
  by_cases h0 : id = 0
  · simp only [h0, if_true, reduceCtorEq, false_iff, not_and, not_exists]
    intro hid t he
    have := h.idRange e ((h.mem _ _).1 he).1
    omega
  · simp only [h0, if_false]
    rw [getByIdScan_ok id _ h.idSorted]
    constructor
    · rintro ⟨a, b⟩; exact ⟨b, e.tbl, (h.mem _ _).2 ⟨a, rfl⟩⟩
    · rintro ⟨a, t, b⟩; exact ⟨((h.mem _ _).1 b).1, a⟩

/-- C04: otherwise it fails with `INVALID_ARG` for the reserved value and `ITEM_NOT_FOUND` for the
rest. -/
theorem C04_get_by_id_error (s : Store κ) (id : Nat) (x : Err) (h : getById s id = .error x) :
    x = if id = 0 then .invalidArg else .itemNotFound := by
  unfold getById at h
  split at h
  · rename_i h0; simp [h0] at *; exact h.symm
  · rename_i h0; simp only [h0, if_false]; exact getByIdScan_err _ _ _ h

/-- C04: an automatically allocated ID is never one of a live object, whatever the history — wrapped
counter and explicit IDs included. -/
theorem C04_allocated_fresh [∀ t, TransCmp (cmp t)] (ops : List (StoreOp κ)) (t : Nat) (k : κ) (e : Ent κ)
    (h : (storeInsert cmp (storeRun cmp ops) t k).1 = .ok e) :
    0 < e.id ∧ e.id < 4294967296 ∧
    ∀ t' i, i ∈ ((storeRun cmp ops).tables t').ents → i.id ≠ e.id := by
  have hinv := storeRun_inv cmp ops
  rcases storeInsert_spec cmp hinv t k with ⟨a, _⟩ | ⟨a, _⟩ | ⟨e', a, _, _, p, q, r, _⟩
  · rw [a] at h; cases h
  · rw [a] at h; cases h
  · rw [a] at h; cases h
    exact ⟨p, q, fun t' i hi => r i ((hinv.mem _ _).1 hi).1⟩

/-- C04 (and how it was reached): the ID table lists exactly the objects in tables. -/
theorem C04_index_complete [∀ t, TransCmp (cmp t)] (ops : List (StoreOp κ)) (e : Ent κ) :
    e ∈ (storeRun cmp ops).byId ↔ e ∈ ((storeRun cmp ops).tables e.tbl).ents := by
  have h := storeRun_inv cmp ops
  rw [h.mem]; simp

/-- C04, a limit of the implementation: when the 32-bit counter stands at its maximum, the next
automatic insertion fails with `INVALID_ARG`, even into an empty store; the one after that starts
again from 1. -/
theorem C04_wrap_fails_once (s : Store κ) (t : Nat) (k : κ) (hs : s.byId.Pairwise (fun a b => a.id < b.id))
    (h : s.counter = 4294967295) :
    storeInsert cmp s t k = (.error .invalidArg, { s with counter := 0 }) := by
  have hc : s.counter < idModulus := by rw [h]; decide
  unfold storeInsert
  rcases idAllocate_spec s t k hs hc with ⟨a, b, _⟩ | ⟨c, h1, h2, _⟩
  · rw [show idAllocate s t k = (.error .invalidArg, { s with counter := 0 }) from Prod.ext a b]
  · rw [h] at h1
    simp only [idModulus] at h2
    omega

example : ∃ e, (storeInsert demoCmp (storeRun demoCmp [.insertWithId 0 [2#8] 1]) 0 [9#8]).1 = .ok e ∧ e.id ≠ 1 := by
  have habs : ∀ i ∈ ((storeRun demoCmp [.insertWithId 0 [2#8] 1]).tables 0).ents, demoCmp 0 i.key [9#8] ≠ .eq := by decide
  have hfree : ∀ i ∈ (storeRun demoCmp [.insertWithId 0 [2#8] 1]).byId, i.id ≠ 5 := by decide
  obtain ⟨e, he⟩ := C03_insert_absent demoCmp [.insertWithId 0 [2#8] 1] 0 [9#8] 5 habs (by decide) (by decide) hfree
  refine ⟨e, he, ?_⟩
  have := (C04_allocated_fresh demoCmp _ _ _ _ he).2.2 0 ⟨1, 0, [2#8]⟩ (by decide)
  exact Ne.symm this

end WS.Props
