import Verif.Spec.AddrFam
import Verif.Proof.IdBound
import Verif.Props.Table
/-
The address-family tables refine the set of `Spec/AddrFam.lean`.
-/
namespace WS
open WS.Spec Std

instance afCmp_trans (t : Nat) : TransCmp (afCmp t) where
  eq_swap := by
    intro a b
    cases a <;> cases b <;> simp only [afCmp, Ordering.swap]
    · exact OrientedCmp.eq_swap
    · exact OrientedCmp.eq_swap
  isLE_trans := by
    intro a b c
    cases a <;> cases b <;> cases c <;> simp only [afCmp] <;> intro h1 h2 <;>
      first | exact TransCmp.isLE_trans h1 h2 | exact h1 | exact h2 | rfl | (cases h2; done) | (cases h1; done)

theorem afCmp_eq (t : Nat) (a b : AfKey) : afCmp t a b = .eq ↔ a = b := by
  cases a <;> cases b <;> simp [afCmp]
  exact labelCmp_eq_iff _ _

theorem af_get {st : Store AfKey} (h : StoreInv afCmp st) (t : Nat) (k : AfKey) (e : Ent AfKey) :
    tableGet afCmp st t k = .ok e ↔ e ∈ (st.tables t).ents ∧ e.key = k := by
  unfold tableGet
  rw [getScan_ok _ _ _ (h.sorted t), afCmp_eq]

theorem af_key_unique {st : Store AfKey} (h : StoreInv afCmp st) {t : Nat} {a b : Ent AfKey}
    (ha : a ∈ (st.tables t).ents) (hb : b ∈ (st.tables t).ents) (hk : a.key = b.key) : a = b :=
  h.key_inj afCmp ha hb ((afCmp_eq t _ _).2 hk)

/-- The outcome of the two allocations and two insertions. -/
inductive PairOutcome (st : Store AfKey) (n : Nat) (nm : List Byte) : Except Err Unit → Store AfKey → Prop
  | noId (st' : Store AfKey) (c : Nat) (hc : c < idModulus) (h : st' = { st with counter := c }) :
      PairOutcome st n nm (.error .invalidArg) st'
  | dup (st' : Store AfKey)
      (hd : (∃ i ∈ (st.tables tblNum).ents, i.key = .num n) ∨ (∃ i ∈ (st.tables tblName).ents, i.key = .name nm))
      (hi : StoreInv afCmp st') (hm : ∀ t x, x ∈ (st'.tables t).ents ↔ x ∈ (st.tables t).ents) :
      PairOutcome st n nm (.error .itemAlreadyPresent) st'

theorem pair_eq {α β : Type} {p : α × β} {a : α} {b : β} (h1 : p.1 = a) (h2 : p.2 = b) : p = (a, b) :=
  Prod.ext h1 h2

theorem deleteById1_insertById {st st1 : Store AfKey} {e : Ent AfKey} (hs : st.byId.Pairwise (fun a b => a.id < b.id))
    (h : insertById st e = .ok st1) (c : Nat) (hcm : c < idModulus) :
    ∃ c', c' < idModulus ∧ deleteById1 { st1 with counter := c } e = { st with counter := c' } := by
  obtain ⟨h0, l, hl, rfl⟩ := insertById_ok _ _ _ h
  obtain ⟨q1, q2, q3, q4, q5⟩ := idSplice_some e _ _ hs hl
  refine ⟨if (e.id + 1) % idModulus = c then (c + (idModulus - 1)) % idModulus else c, ?_, by
    simp only [deleteById1, q5, Nat.add_sub_cancel]⟩
  split
  · exact Nat.mod_lt _ (by decide)
  · exact hcm

/-- The whole core of `wolfsentry_addr_family_insert`. -/
theorem afInsertCore_cases (s : Af) (h : StoreInv afCmp s.store) (n : Nat) (nm : List Byte) (hd : AfHandlers) :
    (∃ x st', PairOutcome s.store n nm (.error x) st' ∧ afInsertCore s n nm hd = (.error x, { s with store := st' })) ∨
    (∃ e1 e2 st', afInsertCore s n nm hd = (.ok (),
        { store := st', nameOf := fun i => if i = e1.id then e2 else s.nameOf i,
          numOf := fun i => if i = e2.id then e1 else s.numOf i,
          handlers := fun i => if i = e1.id then hd else s.handlers i }) ∧
      e1.key = .num n ∧ e2.key = .name nm ∧ e1.tbl = tblNum ∧ e2.tbl = tblName ∧
      (∀ i ∈ s.store.byId, i.id ≠ e1.id ∧ i.id ≠ e2.id) ∧ StoreInv afCmp st' ∧
      (∀ x, x ∈ (st'.tables tblNum).ents ↔ x = e1 ∨ x ∈ (s.store.tables tblNum).ents) ∧
      (∀ x, x ∈ (st'.tables tblName).ents ↔ x = e2 ∨ x ∈ (s.store.tables tblName).ents) ∧
      (∀ i ∈ (s.store.tables tblNum).ents, i.key ≠ .num n) ∧
      (∀ i ∈ (s.store.tables tblName).ents, i.key ≠ .name nm)) := by
  unfold afInsertCore
  rcases idAllocate_spec s.store tblNum (.num n) h.idSorted h.ctr with ⟨a1, a2, _⟩ | ⟨c1, _, hc1, _, c4, c5⟩
  · rw [show idAllocate s.store tblNum (.num n) = (.error .invalidArg, { s.store with counter := 0 }) from Prod.ext a1 a2]
    exact Or.inl ⟨_, _, .noId _ 0 (by decide) rfl, rfl⟩
  · rw [show idAllocate s.store tblNum (.num n) = (.ok ⟨c1, tblNum, .num n⟩, (idAllocate s.store tblNum (.num n)).2) from Prod.ext c4 rfl]
    simp only
    generalize (idAllocate s.store tblNum (.num n)).2 = st1 at c5
    have hS1 := h.setCounter afCmp c1 hc1
    have c5' := c5
    obtain ⟨h10, l1, hl1, rfl⟩ := insertById_ok _ _ _ c5'
    have q := idSplice_some _ _ _ h.idSorted hl1
    rcases idAllocate_spec ({ s.store with counter := c1, byId := l1, nById := s.store.nById + 1 }) tblName (.name nm) q.1 hc1
      with ⟨a1, a2, _⟩ | ⟨c2, hlt, hc2, _, d4, d5⟩
    · rw [pair_eq a1 a2]
      obtain ⟨c', hc', e'⟩ := deleteById1_insertById (st := { s.store with counter := c1 }) h.idSorted c5 0 (by decide)
      refine Or.inl ⟨_, _, .noId _ c' hc' ?_, rfl⟩
      exact e'
    · rw [pair_eq d4 rfl]
      simp only
      generalize (idAllocate ({ s.store with counter := c1, byId := l1, nById := s.store.nById + 1 }) tblName (AfKey.name nm)).2 = st2 at d5
      have d5' := d5
      obtain ⟨h20, l2, hl2, rfl⟩ := insertById_ok _ _ _ d5'
      have q' := idSplice_some _ _ _ q.1 hl2
      have hS2 := hS1
      rcases tableInsert_spec afCmp hS1 hc1 c5 with ⟨b1, b2, c', b3, b4⟩ | ⟨b1, b2, b3, b4, b5, b6⟩
      · -- duplicate number
        left
        obtain ⟨i, hi, hik⟩ := b2
        have hks : keySplice (afCmp tblNum) ⟨c1, tblNum, .num n⟩ (s.store.tables tblNum).ents = none :=
          (keySplice_none _ _ _ (h.sorted _)).2 ⟨i, hi, hik⟩
        simp only [tableInsert, h10, if_false, hks]
        refine ⟨_, _, .dup _ (Or.inl ⟨i, hi, (afCmp_eq _ _ _).1 hik⟩) ?_ ?_, rfl⟩
        · have : ∃ c', c' < idModulus ∧ deleteById1 (deleteById1 { s.store with counter := c2, byId := l2, nById := s.store.nById + 1 + 1 } ⟨c1, tblNum, .num n⟩) ⟨c2, tblName, .name nm⟩ = { s.store with counter := c' } := by
            simp only [deleteById1, List.filter_filter]
            rw [show (fun a : Ent AfKey => (a.id != c2 && a.id != c1)) = (fun a => (a.id != c1 && a.id != c2)) from
              funext (fun a => Bool.and_comm _ _), ← List.filter_filter, q'.2.2.2.2, q.2.2.2.2]
            refine ⟨_, ?_, rfl⟩
            have : ∀ (p : Prop) [Decidable p] (a b : Nat), a < idModulus → b < idModulus → (if p then a else b) < idModulus := by
              intro p _ a b ha hb; split <;> assumption
            exact this _ _ _ (Nat.mod_lt _ (by decide)) (this _ _ _ (Nat.mod_lt _ (by decide)) hc2)
          obtain ⟨c', hc', e'⟩ := this
          rw [e']; exact h.setCounter afCmp c' hc'
        · intro t x; exact Iff.rfl
      · -- number entered
        have hks : ∃ l, keySplice (afCmp tblNum) ⟨c1, tblNum, .num n⟩ (s.store.tables tblNum).ents = some l := by
          cases hk : keySplice (afCmp tblNum) ⟨c1, tblNum, .num n⟩ (s.store.tables tblNum).ents with
          | some l => exact ⟨l, rfl⟩
          | none =>
            obtain ⟨i, hi, hik⟩ := (keySplice_none _ _ _ (h.sorted _)).1 hk
            exact absurd hik (b2 i hi)
        obtain ⟨l, hks⟩ := hks
        simp only [tableInsert, h10, if_false, hks] at b1 b3 b4 b5 b6
        rw [show tableInsert afCmp { s.store with counter := c2, byId := l2, nById := s.store.nById + 1 + 1 } ⟨c1, tblNum, .num n⟩ =
          (.ok (), Store.setTable { s.store with counter := c2, byId := l2, nById := s.store.nById + 1 + 1 } tblNum
            { s.store.tables tblNum with ents := l, nEnts := (s.store.tables tblNum).nEnts + 1, nInserts := (s.store.tables tblNum).nInserts + 1 }) from by
            simp only [tableInsert, h10, if_false, hks]]
        simp only
        have hS3 := b3.setCounter afCmp c2 hc2
        have hins : insertById { Store.setTable { s.store with counter := c1, byId := l1, nById := s.store.nById + 1 } tblNum
            { s.store.tables tblNum with ents := l, nEnts := (s.store.tables tblNum).nEnts + 1, nInserts := (s.store.tables tblNum).nInserts + 1 } with counter := c2 } ⟨c2, tblName, .name nm⟩ =
          .ok (Store.setTable { s.store with counter := c2, byId := l2, nById := s.store.nById + 1 + 1 } tblNum
            { s.store.tables tblNum with ents := l, nEnts := (s.store.tables tblNum).nEnts + 1, nInserts := (s.store.tables tblNum).nInserts + 1 }) := by
          unfold insertById
          simp only [h20, if_false, Store.setTable, hl2]
        have hfr : ∀ i ∈ s.store.byId, i.id ≠ c1 ∧ i.id ≠ c2 :=
          fun i hi => ⟨q.2.2.2.1 i hi, q'.2.2.2.1 i ((q.2.1 i).2 (Or.inr hi))⟩
        have hnum : ∀ i ∈ (s.store.tables tblNum).ents, i.key ≠ .num n :=
          fun i hi he => b2 i hi ((afCmp_eq _ _ _).2 he)
        rcases tableInsert_spec afCmp hS3 hc2 hins with ⟨g1, g2, c', g3, g4⟩ | ⟨g1, g2, g3, g4, g5, g6⟩
        · left
          rw [pair_eq g1 g4]
          simp only
          obtain ⟨i, hi, hik⟩ := g2
          have hb1 : (⟨c1, tblNum, .num n⟩ : Ent AfKey) ∈ l1 := (q.2.1 _).2 (Or.inl rfl)
          have hdel := tableDelete1_spec afCmp (b3.setCounter afCmp c' g3) (e := ⟨c1, tblNum, .num n⟩) hb1
          refine ⟨_, _, .dup _ (Or.inr ⟨i, ?_, (afCmp_eq _ _ _).1 hik⟩) hdel.1 ?_, rfl⟩
          · have := b5 tblName (by decide)
            simp only [Store.setTable] at this hi
            simpa using hi
          · intro t x
            rw [hdel.2.1 t x]
            by_cases ht : t = tblNum
            · subst ht
              have := b4 x
              constructor
              · rintro ⟨p1, p2⟩
                rcases this.1 p1 with rfl | p
                · exact absurd rfl p2
                · exact p
              · intro p
                refine ⟨this.2 (Or.inr p), ?_⟩
                rintro rfl
                exact (hfr _ ((h.mem _ _).1 p).1).1 rfl
            · have e5 := b5 t ht
              constructor
              · rintro ⟨p1, p2⟩
                have p1' : x ∈ ((Store.setTable { s.store with counter := c1, byId := l1, nById := s.store.nById + 1 } tblNum
            { s.store.tables tblNum with ents := l, nEnts := (s.store.tables tblNum).nEnts + 1, nInserts := (s.store.tables tblNum).nInserts + 1 }).tables t).ents := p1
                rw [e5] at p1'; exact p1'
              · intro p
                refine ⟨?_, ?_⟩
                · show x ∈ ((Store.setTable { s.store with counter := c1, byId := l1, nById := s.store.nById + 1 } tblNum
            { s.store.tables tblNum with ents := l, nEnts := (s.store.tables tblNum).nEnts + 1, nInserts := (s.store.tables tblNum).nInserts + 1 }).tables t).ents
                  rw [e5]; exact p
                · rintro rfl
                  exact (hfr _ ((h.mem _ _).1 p).1).1 rfl
        · right
          rw [pair_eq g1 rfl]
          refine ⟨⟨c1, tblNum, .num n⟩, ⟨c2, tblName, .name nm⟩, _, rfl, rfl, rfl, rfl, rfl, hfr, g3, ?_, ?_, hnum, ?_⟩
          · intro x
            rw [g5 tblNum (fun hc => Nat.zero_ne_one hc)]
            exact b4 x
          · intro x
            have e5 := b5 tblName (by decide)
            have := g4 x
            rw [this]
            constructor
            · rintro (p | p)
              · exact Or.inl p
              · right
                have p' : x ∈ ((Store.setTable { s.store with counter := c1, byId := l1, nById := s.store.nById + 1 } tblNum
            { s.store.tables tblNum with ents := l, nEnts := (s.store.tables tblNum).nEnts + 1, nInserts := (s.store.tables tblNum).nInserts + 1 }).tables tblName).ents := p
                rw [e5] at p'; exact p'
            · rintro (p | p)
              · exact Or.inl p
              · right
                show x ∈ ((Store.setTable { s.store with counter := c1, byId := l1, nById := s.store.nById + 1 } tblNum
            { s.store.tables tblNum with ents := l, nEnts := (s.store.tables tblNum).nEnts + 1, nInserts := (s.store.tables tblNum).nInserts + 1 }).tables tblName).ents
                rw [e5]; exact p
          · intro i hi he
            refine g2 i ?_ ((afCmp_eq _ _ _).2 he)
            have e5 := b5 tblName (by decide)
            show i ∈ ((Store.setTable { s.store with counter := c1, byId := l1, nById := s.store.nById + 1 } tblNum
            { s.store.tables tblNum with ents := l, nEnts := (s.store.tables tblNum).nEnts + 1, nInserts := (s.store.tables tblNum).nInserts + 1 }).tables tblName).ents
            rw [e5]; exact hi

/-- What every reachable state satisfies. -/
structure AfInv (s : Af) : Prop where
  store : StoreInv afCmp s.store
  good : ∀ e, e ∈ (s.store.tables tblNum).ents → ∃ n nm, e.key = .num n ∧ (s.nameOf e.id).key = .name nm ∧
    GoodFamily ⟨n, nm, s.handlers e.id⟩
  fwd : ∀ e, e ∈ (s.store.tables tblNum).ents →
    s.nameOf e.id ∈ (s.store.tables tblName).ents ∧ s.numOf (s.nameOf e.id).id = e
  bwd : ∀ e, e ∈ (s.store.tables tblName).ents →
    s.numOf e.id ∈ (s.store.tables tblNum).ents ∧ s.nameOf (s.numOf e.id).id = e

theorem afInv_init : AfInv {} := by
  refine ⟨storeInv_init _, ?_, ?_, ?_⟩ <;> intro e he <;> cases he

/-- Nothing about the families changes when the two tables keep their members. -/
theorem AfInv.congr {s : Af} (h : AfInv s) {st' : Store AfKey} (hi : StoreInv afCmp st')
    (h0 : ∀ x, x ∈ (st'.tables tblNum).ents ↔ x ∈ (s.store.tables tblNum).ents)
    (h1 : ∀ x, x ∈ (st'.tables tblName).ents ↔ x ∈ (s.store.tables tblName).ents) :
    AfInv { s with store := st' } := by
  refine ⟨hi, ?_, ?_, ?_⟩
  · intro e he; exact h.good e ((h0 e).1 he)
  · intro e he
    have := h.fwd e ((h0 e).1 he)
    exact ⟨(h1 _).2 this.1, this.2⟩
  · intro e he
    have := h.bwd e ((h1 e).1 he)
    exact ⟨(h0 _).2 this.1, this.2⟩

theorem registered_congr {s : Af} {st' : Store AfKey}
    (h0 : ∀ x, x ∈ (st'.tables tblNum).ents ↔ x ∈ (s.store.tables tblNum).ents) :
    registered { s with store := st' } = registered s := by
  funext f
  simp only [registered, h0]

theorem AfInv.oneToOne {s : Af} (h : AfInv s) : OneToOne (registered s) := by
  intro f g hf hg
  obtain ⟨e, he, e1, e2, e3⟩ := hf
  obtain ⟨d, hd, d1, d2, d3⟩ := hg
  have key : e = d → f = g := by
    rintro rfl
    rw [e1] at d1; rw [e2] at d2; rw [e3] at d3
    cases f; cases g
    simp only [AfKey.num.injEq, AfKey.name.injEq] at d1 d2 d3
    subst d1; subst d2; subst d3; rfl
  have a1 : f.number = g.number → e = d := by
    intro hn
    exact af_key_unique h.store he hd (by rw [e1, d1, hn])
  have a2 : f.name = g.name → e = d := by
    intro hn
    have := af_key_unique h.store (h.fwd e he).1 (h.fwd d hd).1 (by rw [e2, d2, hn])
    rw [← (h.fwd e he).2, ← (h.fwd d hd).2, this]
  refine ⟨⟨fun hn => ?_, fun hn => ?_⟩, fun hn => key (a1 hn)⟩
  · rw [key (a1 hn)]
  · rw [key (a2 hn)]

theorem AfInv.regGood {s : Af} (h : AfInv s) {f : Family} (hf : registered s f) : GoodFamily f := by
  obtain ⟨e, he, e1, e2, e3⟩ := hf
  obtain ⟨n, nm, g1, g2, g3⟩ := h.good e he
  rw [g1] at e1; rw [g2] at e2
  simp only [AfKey.num.injEq, AfKey.name.injEq] at e1 e2
  subst e1; subst e2
  rw [e3] at g3
  exact g3

/-- Every entry is a registered family. -/
theorem AfInv.reg_of_mem {s : Af} (h : AfInv s) {e : Ent AfKey} (he : e ∈ (s.store.tables tblNum).ents) :
    ∃ f, registered s f ∧ e.key = .num f.number ∧ (s.nameOf e.id).key = .name f.name ∧ s.handlers e.id = f.h := by
  obtain ⟨n, nm, g1, g2, _⟩ := h.good e he
  exact ⟨⟨n, nm, s.handlers e.id⟩, ⟨e, he, g1, g2, rfl⟩, g1, g2, rfl⟩

theorem AfInv.byNumber {s : Af} (h : AfInv s) (n : Nat) :
    (∃ e f, afGetByNumber s n = .ok e ∧ e ∈ (s.store.tables tblNum).ents ∧ registered s f ∧ f.number = n ∧
      e.key = .num f.number ∧ (s.nameOf e.id).key = .name f.name ∧ s.handlers e.id = f.h) ∨
    (afGetByNumber s n = .error .itemNotFound ∧ ∀ f, registered s f → f.number ≠ n) := by
  unfold afGetByNumber
  cases hg : tableGet afCmp s.store tblNum (.num n) with
  | ok e =>
    left
    obtain ⟨he, hk⟩ := (af_get h.store _ _ _).1 hg
    obtain ⟨f, hf, f1, f2, f3⟩ := h.reg_of_mem he
    have : f.number = n := by rw [hk] at f1; exact (AfKey.num.inj f1).symm
    exact ⟨e, f, rfl, he, hf, this, f1, f2, f3⟩
  | error x =>
    right
    have := getScan_err _ _ _ _ hg
    subst this
    refine ⟨rfl, ?_⟩
    rintro f ⟨e, he, e1, _, _⟩ hn
    have := (af_get h.store tblNum (.num n) e).2 ⟨he, by rw [e1, hn]⟩
    rw [hg] at this; cases this

theorem AfInv.byName {s : Af} (h : AfInv s) (name : Option (List Byte)) :
    (∃ e f, afGetByName s name = .ok e ∧ e ∈ (s.store.tables tblNum).ents ∧ registered s f ∧ some f.name = name ∧
      e.key = .num f.number ∧ (s.nameOf e.id).key = .name f.name ∧ s.handlers e.id = f.h) ∨
    ((∃ x, afGetByName s name = .error x ∧
      (∀ nm, name = some nm → 1 ≤ nm.length → nm.length ≤ 32 → x = .itemNotFound) ∧
      (name = none → x = .invalidArg) ∧ (∀ nm, name = some nm → nm.length = 0 → x = .invalidArg) ∧
      (∀ nm, name = some nm → 32 < nm.length → x = .stringArgTooLong)) ∧
      ∀ f, registered s f → some f.name ≠ name) := by
  unfold afGetByName
  cases name with
  | none =>
    right
    exact ⟨⟨_, rfl, (by intro nm hn; cases hn), fun _ => rfl, (by intro nm hn; cases hn), (by intro nm hn; cases hn)⟩, by intro f _ hc; cases hc⟩
  | some nm =>
    simp only
    by_cases h0 : nm.length = 0
    · right
      rw [if_pos h0]
      refine ⟨⟨_, rfl, ?_, fun _ => rfl, fun _ _ _ => rfl, ?_⟩, ?_⟩
      · intro nm' hn h1; cases hn; omega
      · intro nm' hn h1; cases hn; omega
      · intro f hf hc; cases hc
        have := (h.regGood hf).2.1; omega
    · rw [if_neg h0]
      by_cases h3 : nm.length > 32
      · right
        rw [if_pos h3]
        refine ⟨⟨_, rfl, ?_, (by intro hc; cases hc), ?_, fun _ _ _ => rfl⟩, ?_⟩
        · intro nm' hn h1 h2; cases hn; omega
        · intro nm' hn h1; cases hn; omega
        · intro f hf hc; cases hc
          have := (h.regGood hf).2.2.1; omega
      · rw [if_neg h3]
        cases hg : tableGet afCmp s.store tblName (.name nm) with
        | ok e =>
          left
          obtain ⟨he, hk⟩ := (af_get h.store _ _ _).1 hg
          obtain ⟨b1, b2⟩ := h.bwd e he
          obtain ⟨f, hf, f1, f2, f3⟩ := h.reg_of_mem b1
          have : f.name = nm := by rw [b2, hk] at f2; exact (AfKey.name.inj f2).symm
          exact ⟨_, f, rfl, b1, hf, by rw [this], f1, f2, f3⟩
        | error x =>
          right
          have := getScan_err _ _ _ _ hg
          subst this
          refine ⟨⟨_, rfl, fun _ _ _ _ => rfl, (by intro hc; cases hc), ?_, ?_⟩, ?_⟩
          · intro nm' hn h1; cases hn; exact absurd h1 h0
          · intro nm' hn h1; cases hn; exact absurd h1 h3
          · rintro f ⟨e, he, e1, e2, _⟩ hc
            cases hc
            have := (af_get h.store tblName (.name f.name) (s.nameOf e.id)).2 ⟨(h.fwd e he).1, e2⟩
            rw [hg] at this; cases this

/-- Deleting a pair. -/
theorem AfInv.deletePair {s : Af} (h : AfInv s) {e : Ent AfKey} (he : e ∈ (s.store.tables tblNum).ents) {f : Family}
    (hk : e.key = .num f.number) (hnm : (s.nameOf e.id).key = .name f.name) (hh : s.handlers e.id = f.h) :
    AfInv (afDeletePair s e) ∧ ∀ g, registered (afDeletePair s e) g ↔ registered s g ∧ g ≠ f := by
  obtain ⟨m1, m2⟩ := h.fwd e he
  have p1 := tableDelete1_spec afCmp h.store (e := e) ((h.store.mem _ _).1 he).1
  have hne : s.nameOf e.id ≠ e := by
    intro hc; rw [hc, hk] at hnm; cases hnm
  have hin : s.nameOf e.id ∈ (tableDelete1 s.store e).byId := (p1.2.2.1 _).2 ⟨((h.store.mem _ _).1 m1).1, hne⟩
  have p2 := tableDelete1_spec afCmp p1.1 hin
  have hmem : ∀ t x, x ∈ ((tableDelete1 (tableDelete1 s.store e) (s.nameOf e.id)).tables t).ents ↔
      x ∈ (s.store.tables t).ents ∧ x ≠ e ∧ x ≠ s.nameOf e.id := by
    intro t x; rw [p2.2.1 t x, p1.2.1 t x, and_assoc]
  have hnum : ∀ x, x ∈ (s.store.tables tblNum).ents → x ≠ e → x ≠ s.nameOf e.id ∧ s.nameOf x.id ≠ s.nameOf e.id ∧ s.nameOf x.id ≠ e := by
    intro x hx hxe
    refine ⟨?_, ?_, ?_⟩
    · intro hc
      obtain ⟨n, nm, g1, _⟩ := h.good x hx
      rw [hc, hnm] at g1; cases g1
    · intro hc
      apply hxe
      rw [← (h.fwd x hx).2, ← m2, hc]
    · intro hc
      obtain ⟨n, nm, _, g2, _⟩ := h.good x hx
      rw [hc, hk] at g2; cases g2
  refine ⟨⟨p2.1, ?_, ?_, ?_⟩, ?_⟩
  · intro x hx
    exact h.good x ((hmem _ x).1 hx).1
  · intro x hx
    obtain ⟨a1, a2, a3⟩ := (hmem _ x).1 hx
    have := hnum x a1 a2
    exact ⟨(hmem _ _).2 ⟨(h.fwd x a1).1, this.2.2, this.2.1⟩, (h.fwd x a1).2⟩
  · intro x hx
    obtain ⟨a1, a2, a3⟩ := (hmem _ x).1 hx
    obtain ⟨b1, b2⟩ := h.bwd x a1
    have hb : s.numOf x.id ≠ e := by
      intro hc; apply a3; rw [← b2, hc]
    exact ⟨(hmem _ _).2 ⟨b1, hb, (hnum _ b1 hb).1⟩, b2⟩
  · intro g
    constructor
    · rintro ⟨x, hx, x1, x2, x3⟩
      obtain ⟨a1, a2, a3⟩ := (hmem _ x).1 hx
      refine ⟨⟨x, a1, x1, x2, x3⟩, ?_⟩
      rintro rfl
      exact a2 (af_key_unique h.store a1 he (x1.trans hk.symm))
    · rintro ⟨⟨x, hx, x1, x2, x3⟩, hgf⟩
      have hxe : x ≠ e := by
        rintro rfl
        apply hgf
        rw [hk] at x1; rw [hnm] at x2; rw [hh] at x3
        cases f; cases g
        simp only [AfKey.num.injEq, AfKey.name.injEq] at x1 x2 x3
        subst x1; subst x2; subst x3; rfl
      exact ⟨x, (hmem _ x).2 ⟨hx, hxe, (hnum x hx hxe).1⟩, x1, x2, x3⟩

theorem AfInv.insertCore {s : Af} (h : AfInv s) (n : Nat) (nm : List Byte) (hd : AfHandlers)
    (hgood : GoodFamily ⟨n, nm, hd⟩) :
    AfInv (afInsertCore s n nm hd).2 ∧
    (((afInsertCore s n nm hd).1 = .error .invalidArg ∧ registered (afInsertCore s n nm hd).2 = registered s) ∨
     ((∃ g, registered s g ∧ (g.number = n ∨ g.name = nm)) ∧ (afInsertCore s n nm hd).1 = .error .itemAlreadyPresent ∧
        registered (afInsertCore s n nm hd).2 = registered s) ∨
     ((∀ g, registered s g → g.number ≠ n ∧ g.name ≠ nm) ∧ (afInsertCore s n nm hd).1 = .ok () ∧
        ∀ g, registered (afInsertCore s n nm hd).2 g ↔ registered s g ∨ g = ⟨n, nm, hd⟩)) := by
  rcases afInsertCore_cases s h.store n nm hd with ⟨x, st', hp, he⟩ | ⟨e1, e2, st', he, k1, k2, t1, t2, hf, hi, m1, m2, u1, u2⟩
  · rw [he]
    cases hp with
    | noId _ c hc hst =>
      subst hst
      exact ⟨h.congr (h.store.setCounter afCmp c hc) (fun _ => Iff.rfl) (fun _ => Iff.rfl), Or.inl ⟨rfl, registered_congr (fun _ => Iff.rfl)⟩⟩
    | dup _ hdup hi hm =>
      refine ⟨h.congr hi (hm tblNum) (hm tblName), Or.inr (Or.inl ⟨?_, rfl, registered_congr (hm tblNum)⟩)⟩
      rcases hdup with ⟨i, hi1, hi2⟩ | ⟨i, hi1, hi2⟩
      · obtain ⟨f, hf, f1, _⟩ := h.reg_of_mem hi1
        exact ⟨f, hf, Or.inl (by rw [hi2] at f1; exact (AfKey.num.inj f1).symm)⟩
      · obtain ⟨b1, b2⟩ := h.bwd i hi1
        obtain ⟨f, hf, _, f2, _⟩ := h.reg_of_mem b1
        exact ⟨f, hf, Or.inr (by rw [b2, hi2] at f2; exact (AfKey.name.inj f2).symm)⟩
  · rw [he]
    simp only
    have old0 : ∀ x, x ∈ (s.store.tables tblNum).ents → x.id ≠ e1.id ∧ x.id ≠ e2.id :=
      fun x hx => hf x ((h.store.mem _ _).1 hx).1
    have old1 : ∀ x, x ∈ (s.store.tables tblName).ents → x.id ≠ e1.id ∧ x.id ≠ e2.id :=
      fun x hx => hf x ((h.store.mem _ _).1 hx).1
    refine ⟨⟨hi, ?_, ?_, ?_⟩, Or.inr (Or.inr ⟨?_, trivial, ?_⟩)⟩
    · intro e hem
      rcases (m1 e).1 hem with rfl | hem
      · refine ⟨n, nm, k1, ?_, ?_⟩
        · simp only [if_true]; exact k2
        · simp only [if_true]; exact hgood
      · simp only [if_neg (old0 e hem).1]
        exact h.good e hem
    · intro e hem
      rcases (m1 e).1 hem with rfl | hem
      · simp only [if_true]
        exact ⟨(m2 _).2 (Or.inl rfl), trivial⟩
      · simp only [if_neg (old0 e hem).1]
        have := h.fwd e hem
        simp only [if_neg (old1 _ this.1).2]
        exact ⟨(m2 _).2 (Or.inr this.1), this.2⟩
    · intro e hem
      rcases (m2 e).1 hem with rfl | hem
      · simp only [if_true]
        exact ⟨(m1 _).2 (Or.inl rfl), trivial⟩
      · simp only [if_neg (old1 e hem).2]
        have := h.bwd e hem
        simp only [if_neg (old0 _ this.1).1]
        exact ⟨(m1 _).2 (Or.inr this.1), this.2⟩
    · rintro g ⟨e, hem, g1, g2, _⟩
      refine ⟨?_, ?_⟩
      · rintro rfl; exact u1 e hem g1
      · rintro rfl; exact u2 _ (h.fwd e hem).1 g2
    · intro g
      constructor
      · rintro ⟨e, hem, g1, g2, g3⟩
        rcases (m1 e).1 hem with rfl | hem
        · right
          simp only [if_true] at g2 g3
          rw [k1] at g1; rw [k2] at g2
          cases g
          simp only [AfKey.num.injEq, AfKey.name.injEq] at g1 g2 g3
          subst g1; subst g2; subst g3; rfl
        · left
          simp only [if_neg (old0 e hem).1] at g2 g3
          exact ⟨e, hem, g1, g2, g3⟩
      · rintro (⟨e, hem, g1, g2, g3⟩ | rfl)
        · refine ⟨e, (m1 e).2 (Or.inr hem), g1, ?_, ?_⟩
          · simp only [if_neg (old0 e hem).1]; exact g2
          · simp only [if_neg (old0 e hem).1]; exact g3
        · refine ⟨e1, (m1 _).2 (Or.inl rfl), k1, ?_, ?_⟩
          · simp only [if_true]; exact k2
          · simp only [if_true]

theorem afCheck_cases (a : AfArgs) :
    (∃ nm p f, a.name = some nm ∧ a.parser = some p ∧ a.formatter = some f ∧
       GoodFamily ⟨a.number, nm, ⟨p, f, a.maxBits.toNat⟩⟩ ∧ a.maxBits ≤ 128 ∧
       afCheck a = .ok (nm, ⟨p, f, a.maxBits.toNat⟩)) ∨
    ((∀ nm p f, a.name = some nm → a.parser = some p → a.formatter = some f →
       ¬ (GoodFamily ⟨a.number, nm, ⟨p, f, a.maxBits.toNat⟩⟩)) ∧
      (afCheck a = .error .invalidArg ∨ afCheck a = .error .stringArgTooLong)) := by
  unfold afCheck
  by_cases h0 : a.number = 0
  · right
    rw [if_pos h0]
    exact ⟨fun nm p f _ _ _ hg => hg.1 h0, Or.inl rfl⟩
  rw [if_neg h0]
  cases hp : a.parser with
  | none => right; exact ⟨fun nm p f _ h2 _ => (by cases h2), Or.inl rfl⟩
  | some p =>
    cases hf : a.formatter with
    | none => right; exact ⟨fun nm p f _ _ h3 => (by cases h3), Or.inl rfl⟩
    | some f =>
      simp only
      by_cases hb : a.maxBits ≤ 0 ∨ a.maxBits > 128
      · right
        rw [if_pos hb]
        refine ⟨fun nm p f _ _ _ hg => ?_, Or.inl rfl⟩
        have h1 : 1 ≤ a.maxBits.toNat := hg.2.2.2.1
        have h2 : a.maxBits.toNat ≤ 128 := hg.2.2.2.2
        omega
      · rw [if_neg hb]
        cases hn : a.name with
        | none => right; exact ⟨fun nm p f h1 _ _ => (by cases h1), Or.inl rfl⟩
        | some nm =>
          simp only
          by_cases h1 : nm.length = 0
          · right; rw [if_pos h1]
            refine ⟨fun nm' p f h2 _ _ hg => ?_, Or.inl rfl⟩
            cases h2
            have : 1 ≤ nm.length := hg.2.1
            omega
          · rw [if_neg h1]
            by_cases h2 : nm.length > 32
            · right; rw [if_pos h2]
              refine ⟨fun nm' p f h3 _ _ hg => ?_, Or.inr rfl⟩
              cases h3
              have : nm.length ≤ 32 := hg.2.2.1
              omega
            · left; rw [if_neg h2]
              exact ⟨nm, p, f, rfl, rfl, rfl, ⟨h0, by show 1 ≤ nm.length; omega, by show nm.length ≤ 32; omega, by show 1 ≤ a.maxBits.toNat; omega, by show a.maxBits.toNat ≤ 128; omega⟩, by omega, rfl⟩

/-- Every call keeps the invariant and does what the specification says, or fails for want of an
ID. -/
theorem afStep_spec {s : Af} (h : AfInv s) (op : AfOp) :
    AfInv (afStep s op).2 ∧
    (AfSpecStep (registered s) op (afStep s op).1 (registered (afStep s op).2) ∨
     ((∃ a, op = .install a) ∧ (afStep s op).1 = .error .invalidArg ∧ registered (afStep s op).2 = registered s)) := by
  cases op with
  | install a =>
    simp only [afStep, afInsert]
    rcases afCheck_cases a with ⟨nm, p, f, a1, a2, a3, a4, a5, a6⟩ | ⟨a1, a2⟩
    · rw [a6]
      simp only
      obtain ⟨i, c⟩ := h.insertCore a.number nm ⟨p, f, a.maxBits.toNat⟩ a4
      refine ⟨i, ?_⟩
      rcases c with c | c | c
      · exact Or.inr ⟨⟨a, rfl⟩, c⟩
      · exact Or.inl (Or.inl ⟨nm, p, f, a1, a2, a3, a4, a5, Or.inl c⟩)
      · exact Or.inl (Or.inl ⟨nm, p, f, a1, a2, a3, a4, a5, Or.inr c⟩)
    · rcases a2 with a2 | a2
      · rw [a2]; exact ⟨h, Or.inl (Or.inr ⟨a1, Or.inl rfl, rfl⟩)⟩
      · rw [a2]; exact ⟨h, Or.inl (Or.inr ⟨a1, Or.inr rfl, rfl⟩)⟩
  | removeByNumber n =>
    simp only [afStep, afDeleteByNumber]
    rcases h.byNumber n with ⟨e, f, g, he, hf, hn, k1, k2, k3⟩ | ⟨g, hn⟩
    · rw [g]
      obtain ⟨i, c⟩ := h.deletePair he k1 k2 k3
      exact ⟨i, Or.inl (Or.inl ⟨f, hf, hn, rfl, c⟩)⟩
    · rw [g]; exact ⟨h, Or.inl (Or.inr ⟨hn, rfl, rfl⟩)⟩
  | removeByName name =>
    simp only [afStep, afDeleteByName]
    rcases h.byName name with ⟨e, f, g, he, hf, hn, k1, k2, k3⟩ | ⟨⟨x, g, _⟩, hn⟩
    · rw [g]
      obtain ⟨i, c⟩ := h.deletePair he k1 k2 k3
      exact ⟨i, Or.inl (Or.inl ⟨f, hf, hn, rfl, c⟩)⟩
    · rw [g]; exact ⟨h, Or.inl (Or.inr ⟨hn, ⟨x, rfl⟩, rfl⟩)⟩
  | otherInsert t k =>
    have hinv := storeStep_inv afCmp s.store h.store (.insert (t + 2) (.name k))
    simp only [storeStep] at hinv
    have hm : ∀ t', t' ≠ t + 2 → (storeInsert afCmp s.store (t + 2) (.name k)).2.tables t' = s.store.tables t' := by
      rcases storeInsert_spec afCmp h.store (t + 2) (.name k) with ⟨_, _, c, hc, e⟩ | ⟨_, _, c, hc, e⟩ | ⟨e, _, _, _, _, _, _, _, _, _, h5, _⟩
      · rw [e]; exact fun _ _ => rfl
      · rw [e]; exact fun _ _ => rfl
      · exact h5
    simp only [afStep]
    have e0 : ∀ x, x ∈ ((storeInsert afCmp s.store (t + 2) (.name k)).2.tables tblNum).ents ↔ x ∈ (s.store.tables tblNum).ents := by
      intro x; rw [hm tblNum (by simp only [tblNum]; omega)]
    have e1 : ∀ x, x ∈ ((storeInsert afCmp s.store (t + 2) (.name k)).2.tables tblName).ents ↔ x ∈ (s.store.tables tblName).ents := by
      intro x; rw [hm tblName (by simp only [tblName]; omega)]
    exact ⟨h.congr hinv e0 e1, Or.inl (registered_congr e0)⟩
  | otherDelete t k =>
    have hinv := storeStep_inv afCmp s.store h.store (.delete (t + 2) (.name k))
    simp only [storeStep] at hinv
    have hm : ∀ t', t' ≠ t + 2 → (tableDelete afCmp s.store (t + 2) (.name k)).2.tables t' = s.store.tables t' := by
      intro t' ht'
      unfold tableDelete
      cases hg : tableGet afCmp s.store (t + 2) (.name k) with
      | error x => rfl
      | ok e =>
        have he := ((af_get h.store _ _ _).1 hg).1
        have hb := (h.store.mem _ _).1 he
        exact (tableDelete1_spec afCmp h.store hb.1).2.2.2 t' (by rw [hb.2]; exact ht')
    simp only [afStep]
    have e0 : ∀ x, x ∈ ((tableDelete afCmp s.store (t + 2) (.name k)).2.tables tblNum).ents ↔ x ∈ (s.store.tables tblNum).ents := by
      intro x; rw [hm tblNum (by simp only [tblNum]; omega)]
    have e1 : ∀ x, x ∈ ((tableDelete afCmp s.store (t + 2) (.name k)).2.tables tblName).ents ↔ x ∈ (s.store.tables tblName).ents := by
      intro x; rw [hm tblName (by simp only [tblName]; omega)]
    exact ⟨h.congr hinv e0 e1, Or.inl (registered_congr e0)⟩

theorem afRun_inv (ops : List AfOp) : AfInv (afRun ops) := by
  unfold afRun
  have : ∀ (l : List AfOp) (s : Af), AfInv s → AfInv (l.foldl (fun s op => (afStep s op).2) s) := by
    intro l
    induction l with
    | nil => exact fun s h => h
    | cons op l ih => exact fun s h => ih _ (afStep_spec h op).1
  exact this ops {} afInv_init

/-! ### IDs do not run out in short histories -/

theorem idAllocate_bound {s : Store AfKey} (hs : s.byId.Pairwise (fun a b => a.id < b.id)) (hc : s.counter < idModulus)
    {n : Nat} (h : IdBound s n) (hn : n + 1 < idModulus) (t : Nat) (k : AfKey) :
    ∃ c, c ≤ n + 1 ∧ (idAllocate s t k).1 = .ok ⟨c, t, k⟩ ∧ IdBound (idAllocate s t k).2 (n + 1) ∧
      (idAllocate s t k).2.byId.Pairwise (fun a b => a.id < b.id) ∧ (idAllocate s t k).2.counter < idModulus := by
  rcases idAllocate_spec s t k hs hc with ⟨a1, a2, a3⟩ | ⟨c, c1, c2, c3, c4, c5⟩
  · exfalso
    obtain ⟨i, hi1, hi2⟩ := a3 (n + 1) (by have := h.ctr; omega) hn
    have := h.ids i hi1
    omega
  · have hc : c ≤ n + 1 := by
      apply Nat.le_of_not_lt
      intro hlt
      obtain ⟨i, hi1, hi2⟩ := c3 (n + 1) (by have := h.ctr; omega) hlt
      have := h.ids i hi1
      omega
    obtain ⟨_, l, hl, hs1⟩ := insertById_ok _ _ _ c5
    have q := idSplice_some _ _ _ hs hl
    refine ⟨c, hc, c4, ?_, ?_, ?_⟩
    · rw [hs1]
      refine ⟨hc, ?_⟩
      intro e he
      rcases (q.2.1 e).1 he with rfl | he
      · exact hc
      · exact Nat.le_trans (h.ids e he) (by omega)
    · rw [hs1]; exact q.1
    · rw [hs1]; exact c2

theorem tableInsert_bound {s : Store AfKey} {n : Nat} (h : IdBound s n) (hn : n + 1 < idModulus) (e : Ent AfKey)
    (he : e.id ≤ n) : IdBound (tableInsert afCmp s e).2 n ∧ (e.id ≠ 0 → (tableInsert afCmp s e).1 ≠ .error .invalidArg) := by
  unfold tableInsert
  by_cases h0 : e.id = 0
  · rw [if_pos h0]; exact ⟨h, fun hc => absurd h0 hc⟩
  · rw [if_neg h0]
    split
    · exact ⟨deleteById1_bound h hn e he, fun _ hc => by cases hc⟩
    · exact ⟨⟨h.ctr, h.ids⟩, fun _ hc => by cases hc⟩

theorem idAllocate_ne_zero {s : Store AfKey} (hs : s.byId.Pairwise (fun a b => a.id < b.id)) (hc : s.counter < idModulus)
    {t : Nat} {k : AfKey} {e : Ent AfKey} (h : (idAllocate s t k).1 = .ok e) : e.id ≠ 0 := by
  rcases idAllocate_spec s t k hs hc with ⟨a1, _⟩ | ⟨c, c1, _, _, c4, _⟩
  · rw [a1] at h; cases h
  · rw [c4] at h; cases h; show c ≠ 0; omega

theorem afInsertCore_bound {s : Af} (hi : AfInv s) {n : Nat} (h : IdBound s.store n) (hn : n + 3 < idModulus)
    (k : Nat) (nm : List Byte) (hd : AfHandlers) :
    (afInsertCore s k nm hd).1 ≠ .error .invalidArg ∧ IdBound (afInsertCore s k nm hd).2.store (n + 2) := by
  obtain ⟨c1, hc1, r1, b1, s1, m1⟩ := idAllocate_bound hi.store.idSorted hi.store.ctr h (by omega) tblNum (.num k)
  have z1 := idAllocate_ne_zero hi.store.idSorted hi.store.ctr r1
  unfold afInsertCore
  rw [pair_eq r1 rfl]
  simp only
  obtain ⟨c2, hc2, r2, b2, s2, m2⟩ := idAllocate_bound s1 m1 b1 (by omega) tblName (.name nm)
  have z2 := idAllocate_ne_zero s1 m1 r2
  rw [pair_eq r2 rfl]
  simp only
  obtain ⟨b3, z3⟩ := tableInsert_bound b2 (by omega) ⟨c1, tblNum, .num k⟩ (by show c1 ≤ _; omega)
  generalize idAllocate (idAllocate s.store tblNum (AfKey.num k)).2 tblName (AfKey.name nm) = A at b2 b3 z3
  cases hA : tableInsert afCmp A.2 ⟨c1, tblNum, .num k⟩ with
  | mk r st =>
    rw [hA] at b3 z3
    cases r with
    | error x =>
      simp only
      exact ⟨z3 z1, deleteById1_bound b3 (by omega) _ (by show c2 ≤ _; omega)⟩
    | ok u =>
      simp only
      obtain ⟨b4, z4⟩ := tableInsert_bound b3 (by omega) ⟨c2, tblName, .name nm⟩ (by show c2 ≤ _; omega)
      cases hB : tableInsert afCmp st ⟨c2, tblName, .name nm⟩ with
      | mk r st' =>
        rw [hB] at b4 z4
        cases r with
        | error x =>
          simp only
          exact ⟨z4 z2, tableDelete1_bound b4 (by omega) _ (by show c1 ≤ _; omega)⟩
        | ok u => exact ⟨fun hc => by (cases hc), b4⟩

theorem afStep_bound {s : Af} (hi : AfInv s) {n : Nat} (h : IdBound s.store n) (hn : n + 3 < idModulus) (op : AfOp) :
    IdBound (afStep s op).2.store (n + 2) := by
  have hd : ∀ e, e ∈ (s.store.tables tblNum).ents → IdBound (afDeletePair s e).store (n + 2) := by
    intro e he
    have h1 := h.ids e ((hi.store.mem _ _).1 he).1
    have h2 := h.ids _ ((hi.store.mem _ _).1 (hi.fwd e he).1).1
    exact (tableDelete1_bound (tableDelete1_bound h (by omega) e h1) (by omega) _ h2).mono (by omega)
  cases op with
  | install a =>
    simp only [afStep, afInsert]
    cases afCheck a with
    | error x => exact h.mono (by omega)
    | ok p => exact (afInsertCore_bound hi h hn _ _ _).2
  | removeByNumber k =>
    simp only [afStep, afDeleteByNumber]
    rcases hi.byNumber k with ⟨e, f, g, he, _⟩ | ⟨g, _⟩
    · rw [g]; exact hd e he
    · rw [g]; exact h.mono (by omega)
  | removeByName nm =>
    simp only [afStep, afDeleteByName]
    rcases hi.byName nm with ⟨e, f, g, he, _⟩ | ⟨⟨x, g, _⟩, _⟩
    · rw [g]; exact hd e he
    · rw [g]; exact h.mono (by omega)
  | otherInsert t k =>
    exact ((storeInsert_bound hi.store h (by omega) (t + 2) (.name k)).2 (by omega)).mono (by omega)
  | otherDelete t k =>
    simp only [afStep, tableDelete]
    cases hg : tableGet afCmp s.store (t + 2) (.name k) with
    | error x => exact h.mono (by omega)
    | ok e =>
      have he := ((af_get hi.store _ _ _).1 hg).1
      exact (tableDelete1_bound h (by omega) e (h.ids e ((hi.store.mem _ _).1 he).1)).mono (by omega)

theorem afRun_snoc (ops : List AfOp) (op : AfOp) : afRun (ops ++ [op]) = (afStep (afRun ops) op).2 := by
  unfold afRun; rw [List.foldl_append]; rfl

theorem afRun_bound (ops : List AfOp) (h : 2 * ops.length + 3 < idModulus) :
    IdBound (afRun ops).store (2 * ops.length) := by
  suffices hr : ∀ l : List AfOp, 2 * l.length + 3 < idModulus → IdBound (afRun l.reverse).store (2 * l.length) by
    have := hr ops.reverse (by simpa using h)
    simpa using this
  intro l
  induction l with
  | nil => exact fun _ => ⟨Nat.le_refl _, fun e he => by cases he⟩
  | cons op l ih =>
    intro hl
    simp only [List.length_cons, List.reverse_cons] at hl ⊢
    rw [afRun_snoc]
    exact afStep_bound (afRun_inv _) (ih (by omega)) (by omega) op

end WS
