import Verif.Spec.Events
import Verif.Proof.Table
import Verif.Props.Table
/- Invariants of the catalogue of events and actions. -/
namespace WS
open Std WS.Spec

instance catCmp_trans : ∀ t, TransCmp (catCmp t) := fun _ => Props.C02_label_order

theorem catCmp_eq (t : Nat) (a b : List Byte) : catCmp t a b = .eq ↔ a = b := labelCmp_eq_iff a b

/-- A stored configuration is consistent. -/
def CfgIntOk (i : CfgInt) : Prop := ConfigConsistent i.config

structure CatInv (s : Cat) : Prop where
  store : StoreInv catCmp s.store
  dflt : CfgIntOk s.dflt
  evs : ∀ e ∈ s.events, ∀ i, s.evCfg e.id = some i → CfgIntOk i
  evsNonempty : ∀ e ∈ s.events, e.key ≠ []

theorem and_zero_bits (a b : Flags) (h : ¬ (a &&& b != 0#32) = true) (i : Nat) :
    ¬ (a.getLsbD i = true ∧ b.getLsbD i = true) := by
  intro ⟨h1, h2⟩
  have h0 : a &&& b = 0#32 := by simpa using h
  have := congrArg (fun x => BitVec.getLsbD x i) h0
  simp only [BitVec.getLsbD_and, h1, h2] at this
  simp at this

theorem cfgCheck_ok {p : Plat} {c : Cfg} (h : cfgCheck p c = .ok ()) : ConfigConsistent c := by
  unfold cfgCheck at h
  split at h; · cases h
  rename_i h1
  split at h; · cases h
  rename_i h2
  split at h; · cases h
  rename_i h3
  split at h; · cases h
  rename_i h4
  exact ⟨fun i _ => and_zero_bits _ _ h1 i, fun i _ => and_zero_bits _ _ h2 i,
    fun i _ => and_zero_bits _ _ h3 i, by omega⟩

theorem cfgPad_config (p : Plat) (c : Cfg) : SamePolicy (cfgPad p c).config c ∧
    (cfgPad p c).config.privAlign = c.privAlign := by
  unfold cfgPad SamePolicy
  split <;> simp

theorem consistent_of_same {a b : Cfg} (h : SamePolicy a b) (hb : ConfigConsistent b) : ConfigConsistent a := by
  obtain ⟨h1, h2, h3, h4, h5, h6, h7, h8, h9, h10, h11⟩ := h
  constructor
  · rw [h6, h7]; exact hb.1
  · rw [h8, h9]; exact hb.2
  · rw [h10, h11]; exact hb.3
  · rw [h2]; exact hb.4

theorem cfgLoad_ok {p : Plat} {c : Cfg} {o i : CfgInt} (h : cfgLoad p (some c) o = .ok i) :
    i = cfgPad p c ∧ cfgCheck p c = .ok () := by
  unfold cfgLoad at h
  simp only at h
  cases hc : cfgCheck p c with
  | error e => rw [hc] at h; cases h
  | ok u => rw [hc] at h; cases h; exact ⟨rfl, rfl⟩

theorem cfgPad_ok {p : Plat} {c : Cfg} (h : cfgCheck p c = .ok ()) : CfgIntOk (cfgPad p c) :=
  consistent_of_same (cfgPad_config p c).1 (cfgCheck_ok h)

theorem cfgUpdate_ok {p : Plat} {c : Option Cfg} {o i : CfgInt} (h : cfgUpdate p c o = .ok i) :
    ∃ c', c = some c' ∧ i = cfgCopy c' o ∧ cfgCheck p c' = .ok () := by
  unfold cfgUpdate at h
  cases c with
  | none => cases h
  | some c =>
    simp only at h
    cases hc : cfgCheck p c with
    | error e => rw [hc] at h; cases h
    | ok u => rw [hc] at h; cases h; exact ⟨c, rfl, rfl, hc⟩

theorem cfgCopy_same (c : Cfg) (o : CfgInt) : SamePolicy (cfgCopy c o).config c := by
  simp [cfgCopy, SamePolicy]

theorem labelCheck_ok {a : LabelArg} {t : List Byte} (h : labelCheck a = .ok t) :
    t = a.text ∧ a.effLen ≤ 32 ∧ a.effLen ≠ 0 ∧ a.len ≠ 0 ∧ ∃ m, a.mem = some m := by
  unfold labelCheck at h
  split at h; · cases h
  rename_i h1
  split at h; · cases h
  rename_i h2
  split at h; · cases h
  rename_i h3
  cases h
  refine ⟨rfl, by simpa [maxLabelBytes] using h2, by simpa using h3, ?_, ?_⟩
  · intro h; simp [h] at h1
  · cases hm : a.mem with
    | none => simp [hm] at h1
    | some m => exact ⟨m, rfl⟩

/-! ### membership after each call -/

/-- Insertion into table `t` as far as memberships go. -/
theorem insert_cases {s : Store (List Byte)} (h : StoreInv catCmp s) (t : Nat) (k : List Byte) :
    (∃ x, (storeInsert catCmp s t k).1 = .error x ∧ StoreInv catCmp (storeInsert catCmp s t k).2 ∧
      (storeInsert catCmp s t k).2.tables = s.tables) ∨
    (∃ e, (storeInsert catCmp s t k).1 = .ok e ∧ e.key = k ∧ StoreInv catCmp (storeInsert catCmp s t k).2 ∧
      (∀ t' i, i ∈ (s.tables t').ents → i.id ≠ e.id) ∧
      (∀ i ∈ (s.tables t).ents, i.key ≠ k) ∧
      (∀ x, x ∈ ((storeInsert catCmp s t k).2.tables t).ents ↔ x = e ∨ x ∈ (s.tables t).ents) ∧
      (∀ t', t' ≠ t → (storeInsert catCmp s t k).2.tables t' = s.tables t')) := by
  rcases storeInsert_spec catCmp h t k with ⟨a, _, c, hc, e⟩ | ⟨a, _, c, hc, e⟩ | ⟨e, a, b1, b2, _, _, hf, hn, hi, hm, ho, _⟩
  · left; exact ⟨_, a, by rw [e]; exact h.setCounter catCmp c hc, by rw [e]⟩
  · left; exact ⟨_, a, by rw [e]; exact h.setCounter catCmp c hc, by rw [e]⟩
  · right
    refine ⟨e, a, b2, hi, ?_, ?_, hm, ho⟩
    · intro t' i hi'; exact hf i ((h.mem _ _).1 hi').1
    · intro i hi' hk; exact hn i hi' ((catCmp_eq t _ _).2 hk)

theorem get_cases {s : Store (List Byte)} (h : StoreInv catCmp s) (t : Nat) (k : List Byte) (e : Ent (List Byte)) :
    tableGet catCmp s t k = .ok e ↔ e ∈ (s.tables t).ents ∧ e.key = k := by
  rw [← catCmp_eq t]
  exact getScan_ok (catCmp t) k _ (h.sorted t) e

theorem key_unique {s : Store (List Byte)} (h : StoreInv catCmp s) {t : Nat} {a b : Ent (List Byte)}
    (ha : a ∈ (s.tables t).ents) (hb : b ∈ (s.tables t).ents) (hk : a.key = b.key) : a = b :=
  h.key_inj catCmp ha hb ((catCmp_eq t _ _).2 hk)

theorem delete_cases {s : Store (List Byte)} (h : StoreInv catCmp s) (t : Nat) (k : List Byte) :
    (tableDelete catCmp s t k = (.error .itemNotFound, s) ∧ ∀ x ∈ (s.tables t).ents, x.key ≠ k) ∨
    (∃ e, tableDelete catCmp s t k = (.ok e, tableDelete1 s e) ∧ e ∈ (s.tables t).ents ∧ e.key = k ∧
      StoreInv catCmp (tableDelete1 s e) ∧
      (∀ t' x, x ∈ ((tableDelete1 s e).tables t').ents ↔ x ∈ (s.tables t').ents ∧ x ≠ e) ∧
      (∀ t', t' ≠ t → (tableDelete1 s e).tables t' = s.tables t')) := by
  cases hg : tableGet catCmp s t k with
  | error x =>
    left
    refine ⟨Props.C03_delete_absent catCmp s t k x hg, ?_⟩
    intro y hy hk
    have := (get_cases h t k y).2 ⟨hy, hk⟩
    rw [hg] at this; cases this
  | ok e =>
    right
    have hm := (get_cases h t k e).1 hg
    have hb := (h.mem _ _).1 hm.1
    obtain ⟨d1, d2, d3, d4⟩ := tableDelete1_spec catCmp h hb.1
    refine ⟨e, by unfold tableDelete; rw [hg], hm.1, hm.2, d1, d2, ?_⟩
    intro t' ht'; exact d4 t' (by rw [hb.2]; exact ht')

/-! ### the invariant -/

theorem text_length {a : LabelArg} (h : a.effLen ≠ 0) (hm : ∃ m, a.mem = some m ∧ (a.len < 0 ∨ a.len.toNat ≤ m.length)) :
    a.text ≠ [] := by
  obtain ⟨m, hm, hr⟩ := hm
  unfold LabelArg.effLen at h
  unfold LabelArg.text
  rw [hm] at h ⊢
  simp only at h ⊢
  split
  · rename_i hl; rw [if_pos hl] at h; intro hc; rw [hc] at h; exact h rfl
  · rename_i hl; rw [if_neg hl] at h
    intro hc
    have := congrArg List.length hc
    simp at this
    rcases this with h1 | h1
    · omega
    · subst h1; simp at hr; omega

/-- The caller's obligation for an explicit length: that many bytes are readable. -/
def LabelArg.Readable (a : LabelArg) : Prop := ∀ m, a.mem = some m → 0 ≤ a.len → a.len.toNat ≤ m.length

theorem labelCheck_text {a : LabelArg} {t : List Byte} (h : labelCheck a = .ok t) (hr : a.Readable) : t ≠ [] := by
  obtain ⟨rfl, _, h2, _, m, hm⟩ := labelCheck_ok h
  apply text_length h2
  refine ⟨m, hm, ?_⟩
  by_cases hl : a.len < 0
  · exact Or.inl hl
  · exact Or.inr (hr m hm (by omega))

theorem newEventCfg_ok {p : Plat} {c : Option Cfg} {o : Option CfgInt} (h : newEventCfg p c = .ok o) :
    (c = none ∧ o = none) ∨ ∃ c', c = some c' ∧ o = some (cfgPad p c') ∧ cfgCheck p c' = .ok () := by
  unfold newEventCfg at h
  cases c with
  | none => cases h; exact Or.inl ⟨rfl, rfl⟩
  | some c =>
    simp only at h
    cases hl : cfgLoad p (some c) {} with
    | error e => rw [hl] at h; cases h
    | ok i =>
      rw [hl] at h; cases h
      obtain ⟨rfl, h2⟩ := cfgLoad_ok hl
      exact Or.inr ⟨c, rfl, rfl, h2⟩

/-- The outcomes of `eventInsert`. -/
theorem eventInsert_cases (p : Plat) {s : Cat} (h : CatInv s) (a : LabelArg) (c : Option Cfg) :
    (∃ x, (eventInsert p s a c).1 = .error x ∧ (eventInsert p s a c).2.store.tables = s.store.tables ∧
      (eventInsert p s a c).2.evCfg = s.evCfg ∧ (eventInsert p s a c).2.dflt = s.dflt ∧
      StoreInv catCmp (eventInsert p s a c).2.store) ∨
    (∃ e i, (eventInsert p s a c).1 = .ok e.id ∧ e.key = a.text ∧ labelCheck a = .ok a.text ∧
      labelIsBuiltin a = .ok false ∧ newEventCfg p c = .ok i ∧
      (eventInsert p s a c).2.dflt = s.dflt ∧
      (eventInsert p s a c).2.evCfg = (fun j => if j = e.id then i else s.evCfg j) ∧
      StoreInv catCmp (eventInsert p s a c).2.store ∧
      (∀ t' i, i ∈ (s.store.tables t').ents → i.id ≠ e.id) ∧
      (∀ i ∈ s.events, i.key ≠ a.text) ∧
      (∀ x, x ∈ (eventInsert p s a c).2.events ↔ x = e ∨ x ∈ s.events) ∧
      (∀ t', t' ≠ tblEvents → (eventInsert p s a c).2.store.tables t' = s.store.tables t')) := by
  have key : labelIsBuiltin a = .ok true ∨ (labelIsBuiltin a ≠ .ok true ∧ eventInsert p s a c = eventInsert1 p s a c) := by
    unfold eventInsert
    split
    · left; assumption
    · right; rename_i h1; exact ⟨h1, rfl⟩
  rcases key with h1 | ⟨h1, h1'⟩
  · left; refine ⟨.notPermitted, ?_⟩; unfold eventInsert; rw [h1]; exact ⟨rfl, rfl, rfl, rfl, h.store⟩
  · rw [h1']
    unfold eventInsert1
    cases hl : labelCheck a with
    | error x => left; exact ⟨x, rfl, rfl, rfl, rfl, h.store⟩
    | ok t =>
      obtain ⟨rfl, _, _, hlen, m, hm⟩ := labelCheck_ok hl
      have hb : labelIsBuiltin a = .ok false := by
        have : labelIsBuiltin a = .ok (prefixCompare a.text) := by
          unfold labelIsBuiltin; rw [if_neg]; simp [hm, hlen]
        rw [this] at h1 ⊢
        cases hp : prefixCompare a.text with
        | true => rw [hp] at h1; exact absurd rfl h1
        | false => rfl
      simp only
      cases hn : newEventCfg p c with
      | error x => left; exact ⟨x, rfl, rfl, rfl, rfl, h.store⟩
      | ok i =>
        simp only
        unfold eventInsertTail
        rcases insert_cases h.store tblEvents a.text with ⟨x, b1, b2, b3⟩ | ⟨e, b1, b2, b3, b4, b5, b6, b7⟩
        · left
          rw [show storeInsert catCmp s.store tblEvents a.text = (.error x, (storeInsert catCmp s.store tblEvents a.text).2) from Prod.ext b1 rfl]
          exact ⟨x, rfl, b3, rfl, rfl, b2⟩
        · right
          rw [show storeInsert catCmp s.store tblEvents a.text = (.ok e, (storeInsert catCmp s.store tblEvents a.text).2) from Prod.ext b1 rfl]
          exact ⟨e, i, rfl, b2, trivial, hb, rfl, rfl, rfl, b3, b4, b5, b6, b7⟩

theorem eventGet_ok {s : Cat} (h : CatInv s) (a : LabelArg) (e : Ent (List Byte)) :
    eventGet s a = .ok e ↔ labelCheck a = .ok a.text ∧ e ∈ s.events ∧ e.key = a.text := by
  unfold eventGet
  cases hl : labelCheck a with
  | error x => simp
  | ok t =>
    obtain ⟨rfl, _⟩ := labelCheck_ok hl
    simp only
    rw [get_cases h.store]
    simp [Cat.events]

theorem eventDelete_cases {s : Cat} (h : CatInv s) (a : LabelArg) :
    (∃ x, (eventDelete s a) = (.error x, s)) ∨
    (∃ e, eventDelete s a = (.ok (), { s with store := tableDelete1 s.store e }) ∧ e ∈ s.events ∧ e.key = a.text ∧
      StoreInv catCmp (tableDelete1 s.store e) ∧
      (∀ t' x, x ∈ ((tableDelete1 s.store e).tables t').ents ↔ x ∈ (s.store.tables t').ents ∧ x ≠ e) ∧
      (∀ t', t' ≠ tblEvents → (tableDelete1 s.store e).tables t' = s.store.tables t')) := by
  unfold eventDelete
  cases hg : eventGet s a with
  | error x => left; exact ⟨x, rfl⟩
  | ok e =>
    right
    obtain ⟨_, h2, h3⟩ := (eventGet_ok h a e).1 hg
    have hb := (h.store.mem _ _).1 h2
    obtain ⟨d1, d2, d3, d4⟩ := tableDelete1_spec catCmp h.store hb.1
    exact ⟨e, rfl, h2, h3, d1, d2, fun t' ht' => d4 t' (by rw [hb.2]; exact ht')⟩

theorem eventUpdate_cases (p : Plat) (g : CfgInt) {s : Cat} (h : CatInv s) (a : LabelArg) (c : Option Cfg) :
    (∃ x, eventUpdateConfig p g s a c = (.error x, s)) ∨
    (∃ e i, eventUpdateConfig p g s a c = (.ok (), s.setCfg e.id (some i)) ∧ e ∈ s.events ∧ e.key = a.text ∧
      eventGet s a = .ok e ∧ cfgLoad p c (updateBase g (s.evCfg e.id)) = .ok i) := by
  unfold eventUpdateConfig
  cases hg : eventGet s a with
  | error x => left; exact ⟨x, rfl⟩
  | ok e =>
    simp only
    obtain ⟨_, h2, h3⟩ := (eventGet_ok h a e).1 hg
    cases hl : cfgLoad p c (updateBase g (s.evCfg e.id)) with
    | error x => left; exact ⟨x, rfl⟩
    | ok i => right; exact ⟨e, i, rfl, h2, h3, rfl, hl⟩

theorem actionInsert_cases {s : Cat} (h : CatInv s) (a : LabelArg) :
    (∃ x, (actionInsert s a).1 = .error x ∧ (actionInsert s a).2.store.tables = s.store.tables ∧
      (actionInsert s a).2.evCfg = s.evCfg ∧ (actionInsert s a).2.dflt = s.dflt ∧
      StoreInv catCmp (actionInsert s a).2.store) ∨
    (∃ e, (actionInsert s a).1 = .ok e.id ∧ e.key = a.text ∧ labelCheck a = .ok a.text ∧
      labelIsBuiltin a = .ok false ∧
      (actionInsert s a).2.dflt = s.dflt ∧ (actionInsert s a).2.evCfg = s.evCfg ∧
      StoreInv catCmp (actionInsert s a).2.store ∧
      (∀ i ∈ s.actions, i.key ≠ a.text) ∧
      (∀ x, x ∈ (actionInsert s a).2.actions ↔ x = e ∨ x ∈ s.actions) ∧
      (∀ t', t' ≠ tblActions → (actionInsert s a).2.store.tables t' = s.store.tables t')) := by
  have key : labelIsBuiltin a = .ok true ∨ (labelIsBuiltin a ≠ .ok true ∧ actionInsert s a = actionInsert1 s a) := by
    unfold actionInsert
    split
    · left; assumption
    · right; rename_i h1; exact ⟨h1, rfl⟩
  rcases key with h1 | ⟨h1, h1'⟩
  · left; refine ⟨.notPermitted, ?_⟩; unfold actionInsert; rw [h1]; exact ⟨rfl, rfl, rfl, rfl, h.store⟩
  · rw [h1']
    unfold actionInsert1
    cases hl : labelCheck a with
    | error x => left; exact ⟨x, rfl, rfl, rfl, rfl, h.store⟩
    | ok t =>
      obtain ⟨rfl, _, _, hlen, m, hm⟩ := labelCheck_ok hl
      have hb : labelIsBuiltin a = .ok false := by
        have : labelIsBuiltin a = .ok (prefixCompare a.text) := by
          unfold labelIsBuiltin; rw [if_neg]; simp [hm, hlen]
        rw [this] at h1 ⊢
        cases hp : prefixCompare a.text with
        | true => rw [hp] at h1; exact absurd rfl h1
        | false => rfl
      simp only
      rcases insert_cases h.store tblActions a.text with ⟨x, b1, b2, b3⟩ | ⟨e, b1, b2, b3, b4, b5, b6, b7⟩
      · left
        rw [show storeInsert catCmp s.store tblActions a.text = (.error x, (storeInsert catCmp s.store tblActions a.text).2) from Prod.ext b1 rfl]
        exact ⟨x, rfl, b3, rfl, rfl, b2⟩
      · right
        rw [show storeInsert catCmp s.store tblActions a.text = (.ok e, (storeInsert catCmp s.store tblActions a.text).2) from Prod.ext b1 rfl]
        exact ⟨e, rfl, b2, trivial, hb, rfl, rfl, b3, b5, b6, b7⟩

theorem actionDelete_cases {s : Cat} (h : CatInv s) (a : LabelArg) :
    (∃ x, (actionDelete s a) = (.error x, s)) ∨
    (∃ e, actionDelete s a = (.ok (), { s with store := tableDelete1 s.store e }) ∧ e ∈ s.actions ∧ e.key = a.text ∧
      StoreInv catCmp (tableDelete1 s.store e) ∧
      (∀ t' x, x ∈ ((tableDelete1 s.store e).tables t').ents ↔ x ∈ (s.store.tables t').ents ∧ x ≠ e) ∧
      (∀ t', t' ≠ tblActions → (tableDelete1 s.store e).tables t' = s.store.tables t')) := by
  unfold actionDelete
  cases hl : labelCheck a with
  | error x => left; exact ⟨x, rfl⟩
  | ok t =>
    obtain ⟨rfl, _⟩ := labelCheck_ok hl
    simp only
    rcases delete_cases h.store tblActions a.text with ⟨h1, _⟩ | ⟨e, h1, h2, h3, h4, h5, h6⟩
    · left; rw [h1]; exact ⟨_, rfl⟩
    · right; rw [h1]; exact ⟨e, rfl, h2, h3, h4, h5, h6⟩

theorem defaultUpdate_cases (p : Plat) (s : Cat) (c : Option Cfg) :
    (∃ x, defaultUpdate p s c = (.error x, s)) ∨
    (∃ c', c = some c' ∧ cfgCheck p c' = .ok () ∧ defaultUpdate p s c = (.ok (), { s with dflt := cfgCopy c' s.dflt })) := by
  unfold defaultUpdate
  cases hu : cfgUpdate p c s.dflt with
  | error x => left; exact ⟨x, rfl⟩
  | ok i =>
    obtain ⟨c', rfl, rfl, h2⟩ := cfgUpdate_ok hu
    right; exact ⟨c', rfl, h2, rfl⟩

/-- A call is admissible: labels with explicit length are readable, and the configuration of an
update is not NULL. -/
def CatOp.Ok : CatOp → Prop
  | .eventInsert a _ => a.Readable
  | .eventUpdateConfig _ c => c ≠ none
  | _ => True

theorem CatInv.of_tables {s s' : Cat} (h : CatInv s) (hs : StoreInv catCmp s'.store)
    (he : s'.events = s.events) (hc : s'.evCfg = s.evCfg) (hd : s'.dflt = s.dflt) : CatInv s' := by
  refine ⟨hs, by rw [hd]; exact h.dflt, ?_, ?_⟩
  · rw [he, hc]; exact h.evs
  · rw [he]; exact h.evsNonempty

theorem catStep_inv (p : Plat) (g : CfgInt) {s : Cat} (h : CatInv s) (op : CatOp) (hop : op.Ok) :
    CatInv (catStep p g s op) := by
  cases op with
  | eventInsert a c =>
    rcases eventInsert_cases p h a c with ⟨x, _, h2, h3, h4, h5⟩ | ⟨e, i, h1, h2, h3, h4, h5, h6, h7, h8, h9, h10, h11, h12⟩
    · exact h.of_tables h5 (by simp only [Cat.events, catStep, h2]) h3 h4
    · refine ⟨h8, by simp only [catStep, h6]; exact h.dflt, ?_, ?_⟩
      · intro e' he' i' hi'
        simp only [catStep, h7] at hi'
        simp only [catStep] at he'
        rcases (h11 e').1 he' with rfl | he'
        · simp only [if_true] at hi'
          subst hi'
          rcases newEventCfg_ok h5 with ⟨_, hc⟩ | ⟨c', _, hc, hk⟩
          · cases hc
          · cases hc; exact cfgPad_ok hk
        · rw [if_neg (h9 _ e' he')] at hi'
          exact h.evs e' he' i' hi'
      · intro e' he'
        simp only [catStep] at he'
        rcases (h11 e').1 he' with rfl | he'
        · rw [h2]; exact labelCheck_text h3 hop
        · exact h.evsNonempty e' he'
  | eventDelete a =>
    rcases eventDelete_cases h a with ⟨x, h1⟩ | ⟨e, h1, h2, h3, h4, h5, h6⟩
    · simp only [catStep, h1]; exact h
    · simp only [catStep, h1]
      refine ⟨h4, h.dflt, ?_, ?_⟩
      · intro e' he' i hi
        exact h.evs e' ((h5 _ _).1 he').1 i hi
      · intro e' he'
        exact h.evsNonempty e' ((h5 _ _).1 he').1
  | eventFlush =>
    have hf := tableFlush_spec catCmp h.store tblEvents
    refine ⟨hf.1, h.dflt, ?_, ?_⟩
    · intro e he; simp only [catStep, eventFlush, Cat.events, hf.2.1] at he; cases he
    · intro e he; simp only [catStep, eventFlush, Cat.events, hf.2.1] at he; cases he
  | eventUpdateConfig a c =>
    rcases eventUpdate_cases p g h a c with ⟨x, h1⟩ | ⟨e, i, h1, h2, h3, h3', h4⟩
    · simp only [catStep, h1]; exact h
    · simp only [catStep, h1]
      refine ⟨h.store, h.dflt, ?_, h.evsNonempty⟩
      intro e' he' i' hi'
      simp only [Cat.setCfg] at hi'
      by_cases hid : e'.id = e.id
      · rw [if_pos hid] at hi'
        cases hi'
        cases c with
        | none => exact absurd rfl hop
        | some c => obtain ⟨rfl, hk⟩ := cfgLoad_ok h4; exact cfgPad_ok hk
      · rw [if_neg hid] at hi'
        exact h.evs e' he' i' hi'
  | defaultUpdate c =>
    rcases defaultUpdate_cases p s c with ⟨x, h1⟩ | ⟨c', _, h2, h1⟩
    · simp only [catStep, h1]; exact h
    · simp only [catStep, h1]
      exact ⟨h.store, consistent_of_same (cfgCopy_same c' s.dflt) (cfgCheck_ok h2), h.evs, h.evsNonempty⟩
  | actionInsert a =>
    rcases actionInsert_cases h a with ⟨x, _, h2, h3, h4, h5⟩ | ⟨e, h1, h2, h3, h4, h5, h6, h7, h8, h9, h10⟩
    · exact h.of_tables h5 (by simp only [Cat.events, catStep, h2]) h3 h4
    · exact h.of_tables h7 (by simp only [Cat.events, catStep, h10 tblEvents (by decide)]) h6 h5
  | actionDelete a =>
    rcases actionDelete_cases h a with ⟨x, h1⟩ | ⟨e, h1, h2, h3, h4, h5, h6⟩
    · simp only [catStep, h1]; exact h
    · simp only [catStep, h1]
      exact h.of_tables h4 (by simp only [Cat.events, h6 tblEvents (by decide)]) rfl rfl
  | actionFlush =>
    have hf := tableFlush_spec catCmp h.store tblActions
    exact h.of_tables hf.1 (by simp only [Cat.events, catStep, actionFlush, hf.2.2.1 tblEvents (by decide)]) rfl rfl
  | otherInsert t k =>
    rcases insert_cases h.store (t + 2) k with ⟨x, b1, b2, b3⟩ | ⟨e, b1, b2, b3, b4, b5, b6, b7⟩
    · exact h.of_tables b2 (by simp only [Cat.events, catStep, b3]) rfl rfl
    · exact h.of_tables b3 (by simp only [Cat.events, catStep, b7 tblEvents (by simp [tblEvents])]) rfl rfl
  | otherDelete t k =>
    rcases delete_cases h.store (t + 2) k with ⟨h1, _⟩ | ⟨e, h1, h2, h3, h4, h5, h6⟩
    · simp only [catStep, h1]; exact h
    · simp only [catStep, h1]
      exact h.of_tables h4 (by simp only [Cat.events, h6 tblEvents (by simp [tblEvents])]) rfl rfl

theorem catRun_inv (p : Plat) (g : CfgInt) {s : Cat} (h : CatInv s) (ops : List CatOp) (hops : ∀ o ∈ ops, o.Ok) :
    CatInv (catRun p g s ops) := by
  unfold catRun
  induction ops generalizing s with
  | nil => exact h
  | cons o os ih =>
    exact ih (catStep_inv p g h o (hops o (List.mem_cons_self ..))) (fun o' ho' => hops o' (List.mem_cons_of_mem _ ho'))

theorem zeroCfg_consistent : ConfigConsistent {} := by
  constructor <;> simp

theorem actionInsert1_inv {s : Cat} (h : CatInv s) (a : LabelArg) :
    CatInv (actionInsert1 s a).2 ∧ (actionInsert1 s a).2.events = s.events := by
  unfold actionInsert1
  cases hl : labelCheck a with
  | error x => exact ⟨h, rfl⟩
  | ok t =>
    simp only
    rcases insert_cases h.store tblActions t with ⟨x, b1, b2, b3⟩ | ⟨e, b1, b2, b3, b4, b5, b6, b7⟩
    · rw [show storeInsert catCmp s.store tblActions t = (.error x, (storeInsert catCmp s.store tblActions t).2) from Prod.ext b1 rfl]
      have : ({ s with store := (storeInsert catCmp s.store tblActions t).2 } : Cat).events = s.events := by
        simp only [Cat.events, b3]
      exact ⟨h.of_tables b2 this rfl rfl, this⟩
    · rw [show storeInsert catCmp s.store tblActions t = (.ok e, (storeInsert catCmp s.store tblActions t).2) from Prod.ext b1 rfl]
      have : ({ s with store := (storeInsert catCmp s.store tblActions t).2 } : Cat).events = s.events := by
        simp only [Cat.events, b7 tblEvents (by decide)]
      exact ⟨h.of_tables b3 this rfl rfl, this⟩

theorem catInit_inv {p : Plat} {c : Option Cfg} {bs : List LabelArg} {s : Cat} (h : catInit p c bs = .ok s) :
    CatInv s ∧ s.events = [] := by
  unfold catInit at h
  cases hl : cfgLoad p c {} with
  | error e => rw [hl] at h; cases h
  | ok i =>
    rw [hl] at h
    simp only [Except.ok.injEq] at h
    subst h
    have hi : CfgIntOk i := by
      cases c with
      | none => cases hl; exact zeroCfg_consistent
      | some c => obtain ⟨rfl, hk⟩ := cfgLoad_ok hl; exact cfgPad_ok hk
    have h0 : CatInv { dflt := i } := by
      refine ⟨storeInv_init catCmp, hi, ?_, ?_⟩ <;> intro e he <;> simp [Cat.events] at he
    have : ∀ (bs : List LabelArg) (s : Cat), CatInv s →
        CatInv (bs.foldl (fun s a => (actionInsert1 s a).2) s) ∧
        (bs.foldl (fun s a => (actionInsert1 s a).2) s).events = s.events := by
      intro bs
      induction bs with
      | nil => intro s h; exact ⟨h, rfl⟩
      | cons b bs ih =>
        intro s h
        have hb := actionInsert1_inv h b
        have := ih _ hb.1
        exact ⟨this.1, by simp only [List.foldl_cons]; rw [this.2, hb.2]⟩
    exact this bs _ h0

end WS
