import Verif.Spec.Kv
import Verif.Proof.Events
import Verif.Proof.IdBound
/-
The user-value store refines the abstract map of `Spec/Kv.lean`.
-/
namespace WS
open WS.Spec Std

/-! ### the content of a store -/

theorem content_some {s : Kv} (h : StoreInv catCmp s.store) (k : List Byte) (o : KvObj) :
    (content s).map k = some o ↔ ∃ e, e ∈ (s.store.tables tblKv).ents ∧ e.key = k ∧ s.obj e.id = o := by
  unfold content
  simp only
  cases hg : tableGet catCmp s.store tblKv k with
  | ok e =>
    have he := (get_cases h tblKv k e).1 hg
    simp only [Option.some.injEq]
    constructor
    · intro ho; exact ⟨e, he.1, he.2, ho⟩
    · rintro ⟨e', he1, he2, he3⟩
      rw [key_unique h he.1 he1 (by rw [he.2, he2])]; exact he3
  | error x =>
    constructor
    · intro hc; cases hc
    · rintro ⟨e', he1, he2, _⟩
      have := (get_cases h tblKv k e').2 ⟨he1, he2⟩
      rw [hg] at this; cases this

theorem content_ext {s : Kv} (h : StoreInv catCmp s.store) (m : List Byte → Option KvObj)
    (hm : ∀ k o, (∃ e, e ∈ (s.store.tables tblKv).ents ∧ e.key = k ∧ s.obj e.id = o) ↔ m k = some o) :
    content s = { map := m, validator := s.validator } := by
  have : (content s).map = m := by
    funext k
    cases hk : m k with
    | none =>
      cases hc : (content s).map k with
      | none => rfl
      | some o =>
        have := (hm k o).1 ((content_some h k o).1 hc)
        rw [hk] at this; cases this
    | some o => exact (content_some h k o).2 ((hm k o).2 hk)
  rw [← this]
  rfl

theorem content_get {s : Kv} (h : StoreInv catCmp s.store) (k : List Byte) :
    (∃ e, tableGet catCmp s.store tblKv k = .ok e ∧ e ∈ (s.store.tables tblKv).ents ∧ e.key = k ∧
      (content s).map k = some (s.obj e.id)) ∨
    (tableGet catCmp s.store tblKv k = .error .itemNotFound ∧ (content s).map k = none) := by
  cases hg : tableGet catCmp s.store tblKv k with
  | ok e =>
    left
    have he := (get_cases h tblKv k e).1 hg
    exact ⟨e, rfl, he.1, he.2, by unfold content; simp only [hg]⟩
  | error x =>
    right
    have := getScan_err _ _ _ _ hg
    subst this
    exact ⟨rfl, by unfold content; simp only [hg]⟩

/-- The invariant. -/
structure KvInv (s : Kv) : Prop where
  store : StoreInv catCmp s.store

/-- A change that leaves the user-value table alone leaves the content alone. -/
theorem content_congr {s s' : Kv} (h : s'.store.tables tblKv = s.store.tables tblKv) (ho : s'.obj = s.obj)
    (hv : s'.validator = s.validator) : content s' = content s := by
  unfold content
  simp only [tableGet, h, ho, hv]

theorem kvInsert1_spec {s : Kv} (h : KvInv s) (k : List Byte) (v : KvVal) :
    KvInv (kvInsert1 s k ⟨v, false⟩).2 ∧
    (((kvInsert1 s k ⟨v, false⟩).1 = .error .invalidArg ∧ content (kvInsert1 s k ⟨v, false⟩).2 = content s ∧
        (storeInsert catCmp s.store tblKv k).1 = .error .invalidArg) ∨
     ((kvInsert1 s k ⟨v, false⟩).1 = .error .itemAlreadyPresent ∧ content (kvInsert1 s k ⟨v, false⟩).2 = content s ∧
        ∃ o, (content s).map k = some o) ∨
     ((kvInsert1 s k ⟨v, false⟩).1 = .ok () ∧ (content s).map k = none ∧
        content (kvInsert1 s k ⟨v, false⟩).2 =
          { content s with map := put (content s).map k (some ⟨v, false⟩) })) := by
  unfold kvInsert1
  rcases storeInsert_spec catCmp h.store tblKv k with ⟨a, _, c, hc, e⟩ | ⟨a, ⟨i, hi, hik⟩, c, hc, e⟩ | ⟨e, a, b1, b2, _, _, hf, hn, hi, hm, ho, _⟩
  · rw [show storeInsert catCmp s.store tblKv k = (.error .invalidArg, (storeInsert catCmp s.store tblKv k).2) from Prod.ext a rfl]
    refine ⟨⟨?_⟩, Or.inl ⟨rfl, ?_, rfl⟩⟩
    · simp only; rw [e]; exact h.store.setCounter catCmp c hc
    · exact content_congr (by simp only; rw [e]) rfl rfl
  · rw [show storeInsert catCmp s.store tblKv k = (.error .itemAlreadyPresent, (storeInsert catCmp s.store tblKv k).2) from Prod.ext a rfl]
    refine ⟨⟨?_⟩, Or.inr (Or.inl ⟨rfl, ?_, ?_⟩)⟩
    · simp only; rw [e]; exact h.store.setCounter catCmp c hc
    · exact content_congr (by simp only; rw [e]) rfl rfl
    · exact ⟨s.obj i.id, (content_some h.store k _).2 ⟨i, hi, (catCmp_eq tblKv _ _).1 hik, rfl⟩⟩
  · rw [show storeInsert catCmp s.store tblKv k = (.ok e, (storeInsert catCmp s.store tblKv k).2) from Prod.ext a rfl]
    have hne : ∀ i ∈ (s.store.tables tblKv).ents, i.key ≠ k := fun i hi' hk => hn i hi' ((catCmp_eq tblKv _ _).2 hk)
    have hfr : ∀ i ∈ (s.store.tables tblKv).ents, i.id ≠ e.id := fun i hi' => hf i ((h.store.mem _ _).1 hi').1
    refine ⟨⟨hi⟩, Or.inr (Or.inr ⟨rfl, ?_, ?_⟩)⟩
    · rcases content_get h.store k with ⟨i, _, h1, h2, _⟩ | ⟨_, h2⟩
      · exact absurd h2 (hne i h1)
      · exact h2
    · refine content_ext (s := Kv.setObj { s with store := (storeInsert catCmp s.store tblKv k).2 } e.id ⟨v, false⟩) hi _ ?_
      intro k' o
      unfold put Kv.setObj
      simp only
      constructor
      · rintro ⟨x, hx, hxk, hxo⟩
        rcases (hm x).1 hx with rfl | hx
        · rw [if_pos (by rw [← hxk, b2])]
          rw [if_pos rfl] at hxo
          rw [hxo]
        · rw [if_neg (by rw [← hxk]; exact hne x hx)]
          rw [if_neg (hfr x hx)] at hxo
          exact (content_some h.store k' o).2 ⟨x, hx, hxk, hxo⟩
      · intro hp
        by_cases hk : k' = k
        · rw [if_pos hk] at hp
          cases hp
          exact ⟨e, (hm e).2 (Or.inl rfl), by rw [b2, hk], by rw [if_pos rfl]⟩
        · rw [if_neg hk] at hp
          obtain ⟨x, hx, hxk, hxo⟩ := (content_some h.store k' o).1 hp
          exact ⟨x, (hm x).2 (Or.inr hx), hxk, by rw [if_neg (hfr x hx)]; exact hxo⟩

theorem content_delete {s : Kv} (h : KvInv s) {e : Ent (List Byte)} (he : e ∈ (s.store.tables tblKv).ents) :
    KvInv { s with store := tableDelete1 s.store e } ∧
    content { s with store := tableDelete1 s.store e } =
      { content s with map := put (content s).map e.key none } := by
  have hb := (h.store.mem _ _).1 he
  obtain ⟨d1, d2, d3, d4⟩ := tableDelete1_spec catCmp h.store hb.1
  refine ⟨⟨d1⟩, content_ext (s := { s with store := tableDelete1 s.store e }) d1 _ ?_⟩
  intro k o
  unfold put
  simp only
  constructor
  · rintro ⟨x, hx, hxk, hxo⟩
    have hx' := (d2 _ x).1 hx
    rw [if_neg (by rw [← hxk]; intro hk; exact hx'.2 (key_unique h.store hx'.1 he hk))]
    exact (content_some h.store k o).2 ⟨x, hx'.1, hxk, hxo⟩
  · intro hp
    by_cases hk : k = e.key
    · rw [if_pos hk] at hp; cases hp
    · rw [if_neg hk] at hp
      obtain ⟨x, hx, hxk, hxo⟩ := (content_some h.store k o).1 hp
      exact ⟨x, (d2 _ x).2 ⟨hx, by intro hxe; rw [hxe] at hxk; exact hk hxk.symm⟩, hxk, hxo⟩

theorem content_setObj {s : Kv} (h : KvInv s) {e : Ent (List Byte)} (he : e ∈ (s.store.tables tblKv).ents) (o' : KvObj) :
    content (s.setObj e.id o') = { content s with map := put (content s).map e.key (some o') } := by
  refine content_ext (s := s.setObj e.id o') h.store _ ?_
  intro k o
  unfold put Kv.setObj
  simp only
  constructor
  · rintro ⟨x, hx, hxk, hxo⟩
    by_cases hid : x.id = e.id
    · have : x = e := h.store.id_inj catCmp ((h.store.mem _ _).1 hx).1 ((h.store.mem _ _).1 he).1 hid
      subst this
      rw [if_pos hxk.symm]
      rw [if_pos rfl] at hxo; rw [hxo]
    · rw [if_neg hid] at hxo
      rw [if_neg (by rw [← hxk]; intro hk; exact hid (by rw [key_unique h.store hx he hk]))]
      exact (content_some h.store k o).2 ⟨x, hx, hxk, hxo⟩
  · intro hp
    by_cases hk : k = e.key
    · rw [if_pos hk] at hp; cases hp
      exact ⟨e, he, hk.symm, by rw [if_pos rfl]⟩
    · rw [if_neg hk] at hp
      obtain ⟨x, hx, hxk, hxo⟩ := (content_some h.store k o).1 hp
      refine ⟨x, hx, hxk, ?_⟩
      rw [if_neg ?_]
      · exact hxo
      · intro hid
        have : x = e := h.store.id_inj catCmp ((h.store.mem _ _).1 hx).1 ((h.store.mem _ _).1 he).1 hid
        subst this; exact hk hxk.symm

/-! ### equal values -/

theorem shl_zero {a : BitVec 64} (h : a <<< 1 = 0#64) : a = 0#64 ∨ a = 0x8000000000000000#64 := by
  have h1 := congrArg BitVec.toNat h
  rw [BitVec.toNat_shiftLeft] at h1
  simp [Nat.shiftLeft_eq] at h1
  have hlt := a.isLt
  have : a.toNat = 0 ∨ a.toNat = 9223372036854775808 := by omega
  rcases this with h | h
  · left; apply BitVec.eq_of_toNat_eq; simp [h]
  · right; apply BitVec.eq_of_toNat_eq; simp [h]

theorem kvValueEq_overwritten {new old : KvVal} (h : kvValueEq new old = true) : Overwritten old new old := by
  unfold kvValueEq at h
  split at h
  all_goals first
    | exact Or.inl rfl
    | (simp only [beq_iff_eq] at h; rw [h]; exact Or.inl rfl)
    | cases h
    | skip
  simp only [f64Eq, Bool.and_eq_true, Bool.or_eq_true, beq_iff_eq] at h
  rcases h.2 with h | h
  · rw [h]; exact Or.inl rfl
  · exact Or.inr ⟨shl_zero h.2, shl_zero h.1, rfl⟩

/-! ### each call -/

theorem put_put (m : List Byte → Option KvObj) (k : List Byte) (a b : Option KvObj) :
    put (put m k a) k b = put m k b := by
  funext k'
  unfold put
  split <;> simp_all

theorem put_same (m : List Byte → Option KvObj) (k : List Byte) (a : Option KvObj) (h : m k = a) : put m k a = m := by
  funext k'
  unfold put
  split
  · rename_i hk; rw [hk, h]
  · rfl

theorem kvSetLocked_spec {s : Kv} (h : KvInv s) (k : List Byte) (v : KvVal) :
    KvInv (kvSetLocked s k ⟨v, false⟩).2 ∧
    (StoreSpec (content s) k v true (kvSetLocked s k ⟨v, false⟩).1 (content (kvSetLocked s k ⟨v, false⟩).2) ∨
     ((kvSetLocked s k ⟨v, false⟩).1 = .error .invalidArg ∧
       (content (kvSetLocked s k ⟨v, false⟩).2 = content s ∨
        ((∃ w, (content s).map k = some ⟨w, false⟩) ∧
         content (kvSetLocked s k ⟨v, false⟩).2 = { content s with map := put (content s).map k none })) ∧
       ∃ st, (storeInsert catCmp st tblKv k).1 = .error .invalidArg ∧
         (st = s.store ∨ ∃ e ∈ (s.store.tables tblKv).ents, st = tableDelete1 s.store e))) := by
  unfold kvSetLocked
  rcases content_get h.store k with ⟨e, hg, he, hek, hc⟩ | ⟨hg, hc⟩
  · rw [hg]
    simp only
    by_cases hro : (s.obj e.id).ro = true
    · rw [if_pos hro]
      refine ⟨h, Or.inl ?_⟩
      unfold StoreSpec
      rw [hc]
      simp only
      rw [if_neg (by decide), if_pos hro]
      exact ⟨trivial, trivial⟩
    · rw [if_neg hro]
      by_cases heq : kvValueEq v (s.obj e.id).val = true
      · rw [if_pos heq]
        refine ⟨h, Or.inl ?_⟩
        unfold StoreSpec
        rw [hc]
        simp only
        rw [if_neg (by decide), if_neg hro]
        refine ⟨trivial, (s.obj e.id).val, kvValueEq_overwritten heq, ?_⟩
        rw [put_same]
        rw [hc]
        have : (s.obj e.id).ro = false := by simpa using hro
        rw [← this]
      · rw [if_neg heq]
        obtain ⟨d1, d2⟩ := content_delete h he
        obtain ⟨i1, i2⟩ := kvInsert1_spec d1 k v
        refine ⟨i1, ?_⟩
        rw [hek] at d2
        rcases i2 with ⟨i2, i3, i4⟩ | ⟨_, _, ⟨o, i3⟩⟩ | ⟨i2, _, i4⟩
        · right
          refine ⟨i2, Or.inr ⟨⟨(s.obj e.id).val, ?_⟩, by rw [i3, d2]⟩, ⟨_, i4, Or.inr ⟨e, he, rfl⟩⟩⟩
          rw [hc]
          have : (s.obj e.id).ro = false := by simpa using hro
          rw [← this]
        · exfalso
          rw [d2] at i3
          simp [put] at i3
        · left
          unfold StoreSpec
          rw [hc]
          simp only
          rw [if_neg (by decide), if_neg hro]
          refine ⟨i2, v, Or.inl rfl, ?_⟩
          rw [i4, d2]
          simp only [put_put]
  · rw [hg]
    simp only
    obtain ⟨i1, i2⟩ := kvInsert1_spec h k v
    refine ⟨i1, ?_⟩
    rcases i2 with ⟨i2, i3, i4⟩ | ⟨_, _, ⟨o, i3⟩⟩ | ⟨i2, _, i4⟩
    · right; exact ⟨i2, Or.inl i3, s.store, i4, Or.inl rfl⟩
    · exfalso; rw [hc] at i3; cases i3
    · left
      unfold StoreSpec
      rw [hc]
      exact ⟨i2, i4⟩

theorem kvCommit_spec {s : Kv} (h : KvInv s) (k : List Byte) (v : KvVal) (ow : Bool) :
    KvInv (kvCommit s k ⟨v, false⟩ ow).2 ∧
    (StoreSpec (content s) k v ow (kvCommit s k ⟨v, false⟩ ow).1 (content (kvCommit s k ⟨v, false⟩ ow).2) ∨
     ((kvCommit s k ⟨v, false⟩ ow).1 = .error .invalidArg ∧
       (content (kvCommit s k ⟨v, false⟩ ow).2 = content s ∨
        (ow = true ∧ (∃ w, (content s).map k = some ⟨w, false⟩) ∧
         content (kvCommit s k ⟨v, false⟩ ow).2 = { content s with map := put (content s).map k none })) ∧
       ∃ st, (storeInsert catCmp st tblKv k).1 = .error .invalidArg ∧
         (st = s.store ∨ ∃ e ∈ (s.store.tables tblKv).ents, st = tableDelete1 s.store e))) := by
  unfold kvCommit
  cases ow with
  | true =>
    simp only [if_true]
    obtain ⟨a, b⟩ := kvSetLocked_spec h k v
    refine ⟨a, ?_⟩
    rcases b with b | ⟨b1, b2 | b2, b3⟩
    · exact Or.inl b
    · exact Or.inr ⟨b1, Or.inl b2, b3⟩
    · exact Or.inr ⟨b1, Or.inr ⟨trivial, b2⟩, b3⟩
  | false =>
    simp only [Bool.false_eq_true, if_false]
    obtain ⟨i1, i2⟩ := kvInsert1_spec h k v
    refine ⟨i1, ?_⟩
    rcases i2 with ⟨i2, i3, i4⟩ | ⟨i2, i4, ⟨o, i3⟩⟩ | ⟨i2, i3, i4⟩
    · right; exact ⟨i2, Or.inl i3, s.store, i4, Or.inl rfl⟩
    · left
      unfold StoreSpec
      rw [i3]
      simp only [if_true]
      exact ⟨i2, i4⟩
    · left
      unfold StoreSpec
      rw [i3]
      exact ⟨i2, i4⟩

theorem kvTypeOk_none (v : KvVal) : kvTypeOk .none v = true := by
  unfold kvTypeOk; cases v <;> rfl

/-- Lookup without a type request. -/
theorem kvFind_none {s : Kv} (h : KvInv s) (a : LabelArg) :
    (∃ e, kvKey a 0 = .error e ∧ kvFind s a .none = .error e) ∨
    (∃ k, kvKey a 0 = .ok k ∧
      ((∃ e, kvFind s a .none = .ok e ∧ e ∈ (s.store.tables tblKv).ents ∧ e.key = k ∧ (content s).map k = some (s.obj e.id)) ∨
       (kvFind s a .none = .error .itemNotFound ∧ (content s).map k = none))) := by
  unfold kvFind
  cases hk : kvKey a 0 with
  | error e => exact Or.inl ⟨e, rfl, rfl⟩
  | ok k =>
    right
    refine ⟨k, rfl, ?_⟩
    rcases content_get h.store k with ⟨e, hg, he, hek, hc⟩ | ⟨hg, hc⟩
    · left
      refine ⟨e, ?_, he, hek, hc⟩
      simp only [hg, kvTypeOk_none, if_true]
    · right
      exact ⟨by simp only [hg], hc⟩

theorem kvMapValidator_spec (s : Kv) (f : KvValidator) (l : List (Ent (List Byte))) :
    (kvMapValidator s f l = .ok () ∧ ∀ e ∈ l, f e.key (s.obj e.id) = .ok ()) ∨
    (∃ e ∈ l, ∃ x, f e.key (s.obj e.id) = .error x ∧ kvMapValidator s f l = .error x) := by
  induction l with
  | nil => left; exact ⟨rfl, by simp⟩
  | cons e rest ih =>
    unfold kvMapValidator
    cases hf : f e.key (s.obj e.id) with
    | error x => right; exact ⟨e, by simp, x, hf, rfl⟩
    | ok u =>
      rcases ih with ⟨h1, h2⟩ | ⟨e', he', x, h1, h2⟩
      · left
        refine ⟨h1, ?_⟩
        intro e' he'
        rcases List.mem_cons.1 he' with rfl | he'
        · exact hf
        · exact h2 e' he'
      · right; exact ⟨e', by simp [he'], x, h1, h2⟩

theorem kvValidate_eq (s : Kv) (k : List Byte) (o : KvObj) : kvValidate s k o = Accepts (content s).validator k o := rfl

/-- Every call does what the specification allows, except when IDs have run out. -/
theorem kvStep_spec {s : Kv} (h : KvInv s) (op : KvOp) :
    KvInv (kvStep s op).2 ∧
    (KvSpecStep (content s) op (kvStep s op).1 (content (kvStep s op).2) ∨
     (OutOfIds (content s) op (kvStep s op).1 (content (kvStep s op).2) ∧
      ∃ st k, (storeInsert catCmp st tblKv k).1 = .error .invalidArg ∧
         (st = s.store ∨ ∃ e ∈ (s.store.tables tblKv).ents, st = tableDelete1 s.store e))) := by
  cases op with
  | store a inp ow =>
    simp only [kvStep, kvStore, KvSpecStep, OutOfIds]
    cases hd : kvDecode a inp with
    | error e => exact ⟨h, Or.inl ⟨rfl, rfl⟩⟩
    | ok kv =>
      obtain ⟨k, v⟩ := kv
      simp only
      rw [← kvValidate_eq]
      cases hv : kvValidate s k ⟨v, false⟩ with
      | error e => exact ⟨h, Or.inl ⟨rfl, rfl⟩⟩
      | ok u =>
        simp only
        obtain ⟨c1, c2⟩ := kvCommit_spec h k v ow
        refine ⟨c1, ?_⟩
        rcases c2 with c2 | ⟨c2, c3, st, c4⟩
        · exact Or.inl c2
        · right
          exact ⟨⟨a, inp, ow, k, v, rfl, hd, c2, c3⟩, st, k, c4⟩
  | delete a =>
    simp only [kvStep, kvDelete, KvSpecStep]
    rcases kvFind_none h a with ⟨e, h1, h2⟩ | ⟨k, h1, ⟨e, h2, he, hek, hc⟩ | ⟨h2, hc⟩⟩
    · rw [h1, h2]; exact ⟨h, Or.inl ⟨rfl, rfl⟩⟩
    · rw [h1, h2]
      simp only [hc]
      by_cases hro : (s.obj e.id).ro = true
      · rw [if_pos hro, if_pos hro]; exact ⟨h, Or.inl ⟨rfl, rfl⟩⟩
      · rw [if_neg hro, if_neg hro]
        obtain ⟨d1, d2⟩ := content_delete h he
        refine ⟨d1, Or.inl ⟨rfl, ?_⟩⟩
        rw [d2, hek]
    · rw [h1, h2]
      simp only [hc]
      exact ⟨h, Or.inl ⟨trivial, trivial⟩⟩
  | setMutability a m =>
    simp only [kvStep, kvSetMutability, KvSpecStep]
    rcases kvFind_none h a with ⟨e, h1, h2⟩ | ⟨k, h1, ⟨e, h2, he, hek, hc⟩ | ⟨h2, hc⟩⟩
    · rw [h1, h2]; exact ⟨h, Or.inl ⟨rfl, rfl⟩⟩
    · rw [h1, h2]
      simp only [hc]
      by_cases h0 : m = 0
      · rw [if_pos h0, if_pos h0]
        refine ⟨⟨h.store⟩, Or.inl ⟨rfl, ?_⟩⟩
        rw [content_setObj h he, hek]
      · rw [if_neg h0, if_neg h0]
        by_cases h1 : m = 1
        · rw [if_pos h1, if_pos h1]
          refine ⟨⟨h.store⟩, Or.inl ⟨rfl, ?_⟩⟩
          rw [content_setObj h he, hek]
        · rw [if_neg h1, if_neg h1]
          exact ⟨h, Or.inl ⟨rfl, rfl⟩⟩
    · rw [h1, h2]
      simp only [hc]
      exact ⟨h, Or.inl ⟨trivial, trivial⟩⟩
  | setValidator v =>
    cases v with
    | none => exact ⟨⟨h.store⟩, Or.inl ⟨rfl, rfl⟩⟩
    | some f =>
      simp only [kvStep, kvSetValidator, KvSpecStep]
      rcases kvMapValidator_spec s f (s.store.tables tblKv).ents with ⟨h1, h2⟩ | ⟨e, he, x, h1, h2⟩
      · rw [h1]
        refine ⟨⟨h.store⟩, Or.inl (Or.inl ⟨rfl, ?_, rfl⟩)⟩
        intro k o ho
        obtain ⟨e, he, hek, heo⟩ := (content_some h.store k o).1 ho
        rw [← hek, ← heo]; exact h2 e he
      · rw [h2]
        refine ⟨h, Or.inl (Or.inr ⟨e.key, s.obj e.id, x, ?_, h1, rfl, rfl⟩)⟩
        exact (content_some h.store _ _).2 ⟨e, he, rfl, rfl⟩
  | flush =>
    simp only [kvStep, KvSpecStep]
    obtain ⟨f1, f2, f3, f4⟩ := tableFlush_spec catCmp h.store tblKv
    refine ⟨⟨f1⟩, Or.inl ⟨trivial, ?_⟩⟩
    refine content_ext (s := { s with store := tableFlush s.store tblKv }) f1 _ ?_
    intro k o
    simp only
    rw [f2]
    simp
  | otherInsert t k =>
    simp only [kvStep, KvSpecStep]
    rcases insert_cases h.store (t + 1) k with ⟨x, a, b, c⟩ | ⟨e, a, _, b, _, _, _, c⟩
    · exact ⟨⟨b⟩, Or.inl (content_congr (by simp only; rw [c]) rfl rfl)⟩
    · exact ⟨⟨b⟩, Or.inl (content_congr (by simp only; rw [c tblKv (by simp [tblKv])]) rfl rfl)⟩
  | otherDelete t k =>
    simp only [kvStep, KvSpecStep]
    rcases delete_cases h.store (t + 1) k with ⟨a, _⟩ | ⟨e, a, _, _, b, _, c⟩
    · rw [a]; exact ⟨h, Or.inl rfl⟩
    · rw [a]
      exact ⟨⟨b⟩, Or.inl (content_congr (by simp only; rw [c tblKv (by simp [tblKv])]) rfl rfl)⟩

theorem kvInv_init : KvInv {} := ⟨storeInv_init catCmp⟩

theorem kvRun_snoc (ops : List KvOp) (op : KvOp) : kvRun (ops ++ [op]) = (kvStep (kvRun ops) op).2 := by
  unfold kvRun; rw [List.foldl_append]; rfl

theorem kvRun_inv (ops : List KvOp) : KvInv (kvRun ops) := by
  unfold kvRun
  suffices hh : ∀ (ops : List KvOp) (s : Kv), KvInv s → KvInv (ops.foldl (fun s op => (kvStep s op).2) s) from hh ops {} kvInv_init
  intro ops
  induction ops with
  | nil => intro s h; exact h
  | cons op rest ih => intro s h; rw [List.foldl_cons]; exact ih _ (kvStep_spec h op).1

/-! ### the ID bound along a history -/

theorem kvInsert1_store (s : Kv) (k : List Byte) (o : KvObj) :
    (kvInsert1 s k o).2.store = (storeInsert catCmp s.store tblKv k).2 := by
  unfold kvInsert1
  rcases storeInsert catCmp s.store tblKv k with ⟨r, st⟩
  cases r <;> rfl

theorem kvStep_bound {s : Kv} (h : KvInv s) {n : Nat} (hb : IdBound s.store n) (hn : n + 2 < idModulus) (op : KvOp) :
    IdBound (kvStep s op).2.store (n + 1) := by
  have hb1 := hb.mono (Nat.le_succ n)
  have hdel : ∀ e ∈ (s.store.tables tblKv).ents, IdBound (tableDelete1 s.store e) n :=
    fun e he => tableDelete1_bound hb (by omega) e (hb.ids e ((h.store.mem _ _).1 he).1)
  cases op with
  | store a inp ow =>
    simp only [kvStep, kvStore]
    cases hd : kvDecode a inp with
    | error e => exact hb1
    | ok kv =>
      simp only
      cases hv : kvValidate s kv.1 ⟨kv.2, false⟩ with
      | error e => exact hb1
      | ok u =>
        simp only [kvCommit]
        split
        · unfold kvSetLocked
          rcases content_get h.store kv.1 with ⟨e, hg, he, hek, hc⟩ | ⟨hg, hc⟩
          · rw [hg]
            simp only
            split
            · exact hb1
            · split
              · exact hb1
              · rw [kvInsert1_store]
                exact (storeInsert_bound (content_delete h he).1.store (hdel e he) (by omega) _ _).2 hn
          · rw [hg]
            simp only
            rw [kvInsert1_store]
            exact (storeInsert_bound h.store hb (by omega) _ _).2 hn
        · rw [kvInsert1_store]
          exact (storeInsert_bound h.store hb (by omega) _ _).2 hn
  | delete a =>
    simp only [kvStep, kvDelete]
    rcases kvFind_none h a with ⟨e, h1, h2⟩ | ⟨k, h1, ⟨e, h2, he, hek, hc⟩ | ⟨h2, hc⟩⟩
    · rw [h2]; exact hb1
    · rw [h2]
      simp only
      split
      · exact hb1
      · exact (hdel e he).mono (Nat.le_succ n)
    · rw [h2]; exact hb1
  | setMutability a m =>
    simp only [kvStep, kvSetMutability]
    cases kvFind s a .none with
    | error e => exact hb1
    | ok e =>
      simp only
      split
      · exact hb1
      · split
        · exact hb1
        · exact hb1
  | setValidator v =>
    cases v with
    | none => exact hb1
    | some f =>
      simp only [kvStep, kvSetValidator]
      cases kvMapValidator s f (s.store.tables tblKv).ents with
      | error e => exact hb1
      | ok u => exact hb1
  | flush => exact (tableFlush_bound h.store hb (by omega) tblKv).mono (Nat.le_succ n)
  | otherInsert t k => exact (storeInsert_bound h.store hb (by omega) _ _).2 hn
  | otherDelete t k =>
    simp only [kvStep]
    rcases delete_cases h.store (t + 1) k with ⟨a, _⟩ | ⟨e, a, he, _, b, _, c⟩
    · rw [a]; exact hb1
    · rw [a]
      exact (tableDelete1_bound hb (by omega) e (hb.ids e ((h.store.mem _ _).1 he).1)).mono (Nat.le_succ n)

theorem kvRun_bound (ops : List KvOp) (h : ops.length + 1 < idModulus) : IdBound (kvRun ops).store ops.length := by
  suffices hh : ∀ (n : Nat) (ops : List KvOp), ops.length = n → n + 1 < idModulus → IdBound (kvRun ops).store n from hh _ ops rfl h
  intro n
  induction n with
  | zero =>
    intro ops hl _
    rw [List.length_eq_zero_iff] at hl
    subst hl
    exact ⟨Nat.le_refl _, by simp [kvRun]⟩
  | succ n ih =>
    intro ops hl hn
    have hne : ops ≠ [] := by intro hc; rw [hc] at hl; cases hl
    rw [← List.dropLast_concat_getLast hne, kvRun_snoc]
    exact kvStep_bound (kvRun_inv _) (ih _ (by rw [List.length_dropLast, hl]; rfl) (by omega)) hn _

end WS
