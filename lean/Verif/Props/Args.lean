import Verif.Props.Kv
import Verif.Props.Codec
import Verif.Props.EventGraph
import Verif.Props.RbDict
import Verif.Props.DispatchApi
/-
Argument checks and reported results that the main theorems of C37, C41, C42, C50 and C51 take as
given: size limits of stored user values, the bool getter, accepted private-data layouts, deletion of
events, errors while cloning JSON dictionaries, and what a dispatch reports.
-/
namespace WS.Props
open WS WS.Spec

/-! ## C37: sizes -/

/-- The limits the documentation gives for user values: keys of at most 32 bytes, strings whose
terminated form fits 16384 bytes, byte strings of at most 16384 bytes. -/
def WithinLimits (k : List Byte) (v : KvVal) : Prop :=
  k.length ≤ 32 ∧
  match v with
  | .string s => s.length + 1 ≤ 16384
  | .bytes b => b.length ≤ 16384
  | _ => True

theorem labelArg_text_le (a : LabelArg) : a.text.length ≤ a.effLen := by
  unfold LabelArg.text LabelArg.effLen
  cases a.mem with
  | none => simp
  | some m =>
    simp only
    split
    · exact Nat.le_refl _
    · rw [List.length_take]; exact Nat.min_le_left _ _

theorem kvKey_ok {a : LabelArg} {n : Int} {k : List Byte} (h : kvKey a n = .ok k) :
    k = a.text ∧ k.length ≤ 32 ∧ 0 ≤ n ∧ n ≤ 16384 := by
  unfold kvKey at h
  split at h; · cases h
  split at h; · cases h
  split at h; · cases h
  split at h; · cases h
  cases h
  rename_i h1 h2 h3 h4
  have := labelArg_text_le a
  refine ⟨rfl, ?_, by omega, ?_⟩
  · unfold maxLabelBytes at h4; omega
  · unfold kvMaxValueBytes at h3; omega

theorem map_ok {α β : Type} {x : Except Err α} {f : α → β} {b : β} (h : x.map f = .ok b) : ∃ a, x = .ok a ∧ f a = b := by
  cases x with
  | error e => cases h
  | ok a => exact ⟨a, rfl, by simpa [Except.map] using h⟩

theorem kvDecode_limits {a : LabelArg} {inp : KvInput} {k : List Byte} {v : KvVal} (h : kvDecode a inp = .ok (k, v)) :
    WithinLimits k v := by
  have simple : ∀ (n : Int) (w : KvVal), (kvKey a n).map (·, w) = .ok (k, v) → k.length ≤ 32 ∧ v = w ∧ 0 ≤ n ∧ n ≤ 16384 := by
    intro n w hw
    obtain ⟨k', h1, h2⟩ := map_ok hw
    cases h2
    have := kvKey_ok h1
    exact ⟨this.2.1, rfl, this.2.2⟩
  cases inp with
  | null => obtain ⟨h1, rfl, _⟩ := simple 0 _ h; exact ⟨h1, trivial⟩
  | bool t =>
    cases t <;> first
      | (cases h; done)
      | (obtain ⟨h1, rfl, _⟩ := simple 0 _ h; exact ⟨h1, trivial⟩)
  | uint b => obtain ⟨h1, rfl, _⟩ := simple 0 _ h; exact ⟨h1, trivial⟩
  | sint b => obtain ⟨h1, rfl, _⟩ := simple 0 _ h; exact ⟨h1, trivial⟩
  | double b => obtain ⟨h1, rfl, _⟩ := simple 0 _ h; exact ⟨h1, trivial⟩
  | json t => obtain ⟨h1, rfl, _⟩ := simple 0 _ h; exact ⟨h1, trivial⟩
  | string s =>
    simp only [kvDecode] at h
    split at h; · cases h
    obtain ⟨h1, rfl, _, h2⟩ := simple _ _ h
    have := labelArg_text_le s
    exact ⟨h1, by simp only; omega⟩
  | bytes m n =>
    obtain ⟨h1, rfl, h0, h2⟩ := simple _ _ h
    refine ⟨h1, ?_⟩
    simp only [List.length_take]
    have := Nat.min_le_left n.toNat m.length
    omega
  | base64 s =>
    simp only [kvDecode] at h
    split at h; · cases h
    split at h; · cases h
    rename_i k' hk
    split at h; · cases h
    rename_i out ho
    cases h
    refine ⟨(kvKey_ok hk).2.1, ?_⟩
    have hw := C36_never_overflows (byteNats s.text) (Base64.bufspc (byteNats s.text)) Bool.true
    rw [ho] at hw
    have := (kvKey_ok hk).2.2.2
    simp only [natBytes, List.length_map]
    change out.length ≤ _ at hw
    omega

/-- Where the value of a key after one call comes from: it was there before, or the call stored it. -/
theorem kv_origin {st st' : KvSpec} {op : KvOp} {r : Except Err Unit}
    (h : KvSpecStep st op r st' ∨ OutOfIds st op r st') {k : List Byte} {o' : KvObj} (hm : st'.map k = some o') :
    (∃ o, st.map k = some o ∧ o.val = o'.val) ∨ (∃ a inp ow, op = .store a inp ow ∧ kvDecode a inp = .ok (k, o'.val)) := by
  have same : st' = st → (∃ o, st.map k = some o ∧ o.val = o'.val) := by rintro rfl; exact ⟨o', hm, rfl⟩
  rcases h with h | ⟨a, inp, ow, k', v', rfl, hd, _, h⟩
  · cases op with
    | store a inp ow =>
      simp only [KvSpecStep] at h
      cases hd : kvDecode a inp with
      | error e => rw [hd] at h; exact .inl (same h.2)
      | ok kv =>
        obtain ⟨k', v'⟩ := kv
        rw [hd] at h
        simp only at h
        have stored : ∀ w, (w = v' ∨ ∃ o, st.map k' = some o ∧ w = o.val) → st' = { st with map := put st.map k' (some ⟨w, false⟩) } →
            (∃ o, st.map k = some o ∧ o.val = o'.val) ∨
            (∃ a2 inp2 ow2, KvOp.store a inp ow = .store a2 inp2 ow2 ∧ kvDecode a2 inp2 = .ok (k, o'.val)) := by
          intro w hw hst
          rw [hst] at hm
          simp only [put] at hm
          by_cases hkk : k = k'
          · rw [if_pos hkk] at hm
            cases hm
            subst hkk
            rcases hw with rfl | ⟨o, ho, rfl⟩
            · exact .inr ⟨a, inp, ow, rfl, hd⟩
            · exact .inl ⟨o, ho, rfl⟩
          · rw [if_neg hkk] at hm
            exact .inl ⟨o', hm, rfl⟩
        cases ha : Accepts st.validator k' ⟨v', false⟩ with
        | error e => rw [ha] at h; exact .inl (same h.2)
        | ok u =>
          rw [ha] at h
          simp only [StoreSpec] at h
          cases ho : st.map k' with
          | none => rw [ho] at h; exact stored v' (.inl rfl) h.2
          | some o =>
            rw [ho] at h
            simp only at h
            split at h; · exact .inl (same h.2)
            split at h; · exact .inl (same h.2)
            obtain ⟨_, w, hw, h⟩ := h
            refine stored w ?_ h
            rcases hw with rfl | ⟨_, _, rfl⟩
            · exact .inl rfl
            · exact .inr ⟨o, ho, rfl⟩
    | delete a =>
      simp only [KvSpecStep] at h
      cases hd : kvKey a 0 with
      | error e => rw [hd] at h; exact .inl (same h.2)
      | ok k' =>
        rw [hd] at h
        simp only at h
        cases ho : st.map k' with
        | none => rw [ho] at h; exact .inl (same h.2)
        | some o =>
          rw [ho] at h
          simp only at h
          split at h; · exact .inl (same h.2)
          rw [h.2] at hm
          simp only [put] at hm
          by_cases hkk : k = k'
          · rw [if_pos hkk] at hm; cases hm
          · rw [if_neg hkk] at hm; exact .inl ⟨o', hm, rfl⟩
    | setMutability a m =>
      simp only [KvSpecStep] at h
      cases hd : kvKey a 0 with
      | error e => rw [hd] at h; exact .inl (same h.2)
      | ok k' =>
        rw [hd] at h
        simp only at h
        cases ho : st.map k' with
        | none => rw [ho] at h; exact .inl (same h.2)
        | some o =>
          rw [ho] at h
          simp only at h
          have upd : ∀ b, st' = { st with map := put st.map k' (some { o with ro := b }) } → (∃ o, st.map k = some o ∧ o.val = o'.val) := by
            intro b hb
            rw [hb] at hm
            simp only [put] at hm
            by_cases hkk : k = k'
            · rw [if_pos hkk] at hm; cases hm; subst hkk; exact ⟨o, ho, rfl⟩
            · rw [if_neg hkk] at hm; exact ⟨o', hm, rfl⟩
          split at h; · exact .inl (upd _ h.2)
          split at h; · exact .inl (upd _ h.2)
          exact .inl (same h.2)
    | setValidator f =>
      cases f with
      | none => rw [h.2] at hm; exact .inl ⟨o', hm, rfl⟩
      | some f =>
        rcases h with ⟨_, _, h⟩ | ⟨_, _, _, _, _, _, h⟩
        · rw [h] at hm; exact .inl ⟨o', hm, rfl⟩
        · exact .inl (same h)
    | flush => rw [h.2] at hm; cases hm
    | otherInsert t k' => simp only [KvSpecStep] at h; exact .inl (same h)
    | otherDelete t k' => simp only [KvSpecStep] at h; exact .inl (same h)
  · rcases h with h | ⟨_, _, h⟩
    · exact .inl (same h)
    · rw [h] at hm
      simp only [put] at hm
      by_cases hkk : k = k'
      · rw [if_pos hkk] at hm; cases hm
      · rw [if_neg hkk] at hm; exact .inl ⟨o', hm, rfl⟩

/-- C37: whatever calls were made, everything in the store came from some store call, whose arguments
decode to exactly that key and value. -/
theorem C37_nothing_invented (ops : List KvOp) (k : List Byte) (o : KvObj) (h : (content (kvRun ops)).map k = some o) :
    ∃ a inp ow, KvOp.store a inp ow ∈ ops ∧ kvDecode a inp = .ok (k, o.val) := by
  obtain ⟨l, rfl⟩ : ∃ l : List KvOp, ops = l.reverse := ⟨ops.reverse, by simp⟩
  induction l generalizing o with
  | nil => rw [List.reverse_nil, C37_starts_empty] at h; cases h
  | cons op l ih =>
    rw [List.reverse_cons] at h ⊢
    generalize l.reverse = ops at h ih
    rcases kv_origin (C37_every_outcome ops op) h with ⟨o1, h1, h2⟩ | ⟨a, inp, ow, rfl, h2⟩
    · obtain ⟨a, inp, ow, h3, h4⟩ := ih o1 h1
      exact ⟨a, inp, ow, by simp [h3], by rw [← h2]; exact h4⟩
    · exact ⟨a, inp, ow, by simp, h2⟩

/-- C37: whatever calls were made, every stored key and value is within the documented limits. -/
theorem C37_size_limits (ops : List KvOp) (k : List Byte) (o : KvObj) (h : (content (kvRun ops)).map k = some o) :
    WithinLimits k o.val := by
  obtain ⟨a, inp, ow, _, h2⟩ := C37_nothing_invented ops k o h
  exact kvDecode_limits h2

/-- C37: reading a truth value: the stored one, `WRONG_TYPE` for every other value, `ITEM_NOT_FOUND`
for an absent key. -/
theorem C37_get_bool (ops : List KvOp) (a : LabelArg) (k : List Byte) (hk : kvKey a 0 = .ok k) :
    userGetBool (kvRun ops) a =
      match (content (kvRun ops)).map k with
      | none => .error .itemNotFound
      | some o => if o.val = .true ∨ o.val = .false then .ok o.val else .error .wrongType := by
  unfold userGetBool
  rw [C37_reads ops a k hk]
  unfold ReadSpec
  cases (content (kvRun ops)).map k with
  | none => rfl
  | some o =>
    obtain ⟨v, ro⟩ := o
    cases v <;> simp

/-- The key `"k"` with the truth value: the theorems above apply to it. -/
example : (content (kvRun ([] ++ [.store kArg (.bool .true) false]))).map [0x6b#8] = some ⟨.true, false⟩ := by
  rw [kvRun_snoc, first_store kArg (.bool .true) false [0x6b#8] .true (by decide), storeInsert_first]
  simp only [content, tableGet, Kv.setObj, if_pos, getScan, labelCmp_self]

/-! ## C41: private-data layout -/

theorem and_pred_pow2 (n : Nat) (h0 : n ≠ 0) (h : n &&& (n - 1) = 0) : ∃ k, n = 2 ^ k := by
  induction n using Nat.strongRecOn with
  | _ n ih =>
    have hdiv : (n / 2) &&& ((n - 1) / 2) = 0 := by
      have := congrArg (fun x => x >>> 1) h
      simp only [Nat.shiftRight_and_distrib] at this
      exact this
    rcases Nat.mod_two_eq_zero_or_one n with he | ho
    · have h1 : (n - 1) / 2 = n / 2 - 1 := by omega
      rw [h1] at hdiv
      obtain ⟨k, hk⟩ := ih (n / 2) (by omega) (by omega) hdiv
      exact ⟨k + 1, by rw [Nat.pow_succ]; omega⟩
    · have h1 : (n - 1) / 2 = n / 2 := by omega
      rw [h1, Nat.and_self] at hdiv
      exact ⟨0, by omega⟩

/-- C41: an accepted configuration asks for a sensible private-data layout: no alignment without data;
any alignment is a power of two between the size of a pointer and the size of the data. -/
theorem C41_accepted_layout (p : Plat) (c : Cfg) (h : cfgCheck p c = .ok ()) :
    (c.privSize = 0 → c.privAlign = 0) ∧
    (c.privAlign ≠ 0 → p.ptrSize ≤ c.privAlign ∧ c.privAlign ≤ c.privSize ∧ ∃ k, c.privAlign = 2 ^ k) := by
  unfold cfgCheck at h
  repeat' split at h
  all_goals try (cases h; done)
  rename_i ha _
  unfold alignmentBad at ha
  by_cases hs : c.privSize = 0
  · simp only [hs, beq_self_eq_true, if_true, Bool.not_eq_true, bne_eq_false_iff_eq] at ha
    exact ⟨fun _ => ha, fun hc => absurd ha hc⟩
  · refine ⟨fun hc => absurd hc hs, fun hc => ?_⟩
    have hne : (c.privAlign != 0) = true := by simpa using hc
    rw [if_neg (by simpa using hs), hne, Bool.true_and] at ha
    simp only [Bool.or_eq_true, not_or, decide_eq_true_eq, bne_iff_ne, ne_eq, Classical.not_not] at ha
    exact ⟨by omega, by omega, and_pred_pow2 _ hc ha.1.2⟩

/-- C41: and all such layouts are accepted, if their padded size is at most 65535. -/
theorem C41_sane_layout_accepted (p : Plat) (c : Cfg) (hz : c.privSize = 0 → c.privAlign = 0)
    (h : c.privAlign ≠ 0 → p.ptrSize ≤ c.privAlign ∧ c.privAlign ≤ c.privSize ∧ ∃ k, c.privAlign = 2 ^ k)
    (hsz : c.privSize + c.privAlign ≤ 65535)
    (hf : flagsSensical c.flagsAdd = true) (hc : ConfigConsistent c) : cfgCheck p c = .ok () := by
  have zero : ∀ x y : Flags, (∀ i, i < 32 → ¬ (x.getLsbD i = true ∧ y.getLsbD i = true)) → x &&& y = 0#32 := by
    intro x y hxy
    refine BitVec.eq_of_getLsbD_eq (fun i hi => ?_)
    have := hxy i hi
    rw [BitVec.getLsbD_and]
    cases hx : x.getLsbD i <;> cases hy : y.getLsbD i <;> simp_all
  unfold cfgCheck
  rw [if_neg (by rw [zero _ _ hc.1]; simp), if_neg (by rw [zero _ _ hc.2]; simp), if_neg (by rw [zero _ _ hc.3]; simp),
    if_neg (by have := hc.4; omega), if_neg (by simp [hf])]
  have ha : alignmentBad p c = false := by
    unfold alignmentBad
    by_cases hs : c.privSize = 0
    · simp [hs, hz hs]
    · rw [if_neg (by simpa using hs)]
      by_cases hal : c.privAlign = 0
      · simp [hal]
      · obtain ⟨h1, h2, k, h3⟩ := h hal
        have : c.privAlign &&& (c.privAlign - 1) = 0 := by
          rw [h3, Nat.and_two_pow_sub_one_eq_mod]; exact Nat.mod_self _
        rw [this]
        have e1 : ¬ c.privAlign < p.ptrSize := by omega
        have e2 : ¬ c.privAlign > c.privSize := by omega
        simp [e1, e2]
  rw [if_neg (by rw [ha]; simp), if_neg]
  simp only [Bool.and_eq_true, decide_eq_true_eq, not_and]
  rintro ⟨h1, h2⟩
  have : (c.privSize + (c.privAlign - p.slop c)) % sizeModulus ≤ c.privSize + (c.privAlign - p.slop c) := Nat.mod_le _ _
  omega

example : cfgCheck { dataOffset := 40, ptrSize := 8 } { privSize := 64, privAlign := 16 } = .ok () := by decide
example : cfgCheck { dataOffset := 40, ptrSize := 8 } { privSize := 64, privAlign := 24 } = .error .invalidArg := by decide

/-! ## C42: deleting events -/

theorem eg_get_filter (t : List (EG.Label × Nat)) (l l' : EG.Label) :
    ((t.filter (fun p => p.1 != l)).find? (fun p => p.1 == l')) =
      if l' = l then none else t.find? (fun p => p.1 == l') := by
  induction t with
  | nil => simp
  | cons p t ih =>
    rw [List.filter_cons]
    by_cases hp : p.1 = l
    · rw [if_neg (by simp [hp]), ih, List.find?_cons]
      by_cases hl : l' = l
      · simp [hl]
      · have : (p.1 == l') = false := by rw [hp]; simpa using fun h => hl h.symm
        simp [hl, this]
    · rw [if_pos (by simpa using hp), List.find?_cons, List.find?_cons, ih]
      by_cases hl : l' = l
      · have : (p.1 == l') = false := by rw [hl]; simpa using hp
        rw [this, if_pos hl]
      · simp [hl]

/-- C42: a successful delete frees exactly the label named: it is not found any more and can be created
anew, every other label keeps its event, and no aux-event link or role changes. -/
theorem C42_delete_frees_label (g : EG.G) (l : EG.Label) (h : (EG.delete g l).1 = .ok ()) :
    (EG.delete g l).2.get l = none ∧ (∀ l', l' ≠ l → (EG.delete g l).2.get l' = g.get l') ∧
    (EG.create (EG.delete g l).2 l).1 = .ok g.next ∧
    (EG.delete g l).2.aux = g.aux ∧ (EG.delete g l).2.isSub = g.isSub ∧ (EG.delete g l).2.isParent = g.isParent := by
  unfold EG.delete at h ⊢
  cases hg : g.get l with
  | none => rw [hg] at h; cases h
  | some e =>
    have hnone : ({ g with table := g.table.filter (fun p => p.1 != l) } : EG.G).get l = none := by
      unfold EG.G.get
      rw [show ({ g with table := g.table.filter (fun p => p.1 != l) } : EG.G).table = g.table.filter (fun p => p.1 != l) from rfl,
        eg_get_filter, if_pos rfl]; rfl
    simp only
    refine ⟨hnone, fun l' hl => ?_, ?_, by simp⟩
    · unfold EG.G.get
      rw [show ({ g with table := g.table.filter (fun p => p.1 != l) } : EG.G).table = g.table.filter (fun p => p.1 != l) from rfl,
        eg_get_filter, if_neg hl]
    · unfold EG.create; rw [hnone]

/-- C42: and a delete fails exactly when there is no such event, changing nothing. -/
theorem C42_delete_fails_iff (g : EG.G) (l : EG.Label) :
    (g.get l = none ↔ (EG.delete g l).1 = .error .itemNotFound) ∧ (g.get l = none → (EG.delete g l).2 = g) := by
  unfold EG.delete
  cases g.get l <;> simp

example : (EG.delete (EG.run demoChain) lB).1 = .ok () := by decide

/-! ## C50: errors while cloning -/

section
open WS.Rb
variable {β : Type}

theorem cloneSortedLoop_zero {cmp : Key → Key → Ordering} {new : β} {cloneV : β → Except Int β} (h0 : ∀ v, cloneV v ≠ .error 0)
    (src : List (Key × β)) (allocs : List Bool) (d d' : Dict β) (h : cloneSortedLoop cmp new cloneV src allocs d = some (d', 0)) :
    ∀ e ∈ src, ∃ v', cloneV e.2 = .ok v' := by
  induction src generalizing allocs d with
  | nil => intro e he; cases he
  | cons e src ih =>
    obtain ⟨k, v⟩ := e
    unfold cloneSortedLoop at h
    split at h
    · cases h
    · simp [jsonErrOutOfMemory] at h
    · cases hv : cloneV v with
      | error x =>
        rw [hv] at h
        simp only [Option.some.injEq, Prod.mk.injEq] at h
        exact absurd (h.2 ▸ hv) (h0 v)
      | ok v' =>
        rw [hv] at h
        intro e he
        rcases List.mem_cons.1 he with rfl | he
        · exact ⟨v', hv⟩
        · exact ih _ _ h e he

/-- C50: a clone of a dictionary without maintained order reports success only if every value could be
cloned (`cloneV` reports failure by a non-zero code).  With maintained order this is false:
`C50_clone_error_lost`. -/
theorem C50_clone_success_unordered {cmp : Key → Key → Ordering} [Std.TransCmp cmp] {new : β} {ops : List (Op β)}
    (hn : ops.length < 4294967294) {d d' : Dict β} (h : run cmp new false ops = some d) (cloneV : β → Except Int β)
    (h0 : ∀ v, cloneV v ≠ .error 0) (allocs : List Bool) (hc : cloneDict cmp new cloneV allocs d = some (d', 0)) :
    ∀ e ∈ absRun cmp new ops, ∃ v', cloneV e.2 = .ok v' := by
  obtain ⟨hr, ho, hs⟩ := run_rep' (by omega) h
  have hd : d.order = none := by
    cases hd : d.order with
    | none => rfl
    | some o => rw [hd] at ho; cases ho
  unfold cloneDict at hc
  rw [hd] at hc
  dsimp only at hc
  obtain ⟨es, w1, w2, w3, _⟩ := C50_sorted_walk (σ := List (Key × β)) hn h
  have hfold : ∀ (es acc : List (Key × β)), es.foldlM (m := Except Int) (fun a e => .ok (a ++ [(e.1, e.2)])) acc = .ok (acc ++ es) := by
    intro es
    induction es with
    | nil => intro acc; simp; rfl
    | cons e es ih =>
      intro acc
      rw [List.foldlM_cons]
      show es.foldlM (m := Except Int) _ (acc ++ [(e.1, e.2)]) = _
      rw [ih]; simp
  rw [w3, hfold] at hc
  dsimp only at hc
  rw [List.nil_append] at hc
  intro e he
  exact cloneSortedLoop_zero h0 es allocs _ _ hc e (w1.mem_iff.2 he)

/-- One value that cannot be cloned makes the clone fail with its code. -/
example : (cloneDict defaultCmp (0 : Nat) (fun v => if v = 7 then .error (-2) else .ok v) []
    ⟨.node .black .nil [1#8] 7 (.node .red .nil [2#8] 0 .nil), 2, none⟩).map (·.2) = some (-2) := by decide +kernel
end

/-! ## C51: what a dispatch reports -/

/-- C51: a dispatch that found a rule reports the ID of that rule (none once a handler has taken it out
of the table) and how the rule differs from the traffic, whether or not an action failed; the error of
a failed action is returned and marked in the results. -/
theorem C51_reports_rule {σ : Type} {E : DispEnv σ} {resolve : List Byte → Except Err Event} {w : World σ} {remote loc : SockAddr}
    {flags : Flags} {label : Option (List Byte)} {a : Flags} {fuel : Nat} {res : DispRes σ} {r : Route} {inx : Flags}
    {trig : Option Event} {target : Route}
    (htrig : triggerOf resolve flags label = .ok trig) (htgt : routeInit trig remote loc flags = .ok target)
    (hlk : lookup w.T target false (some a) fuel = some (.ok (r, inx)))
    (h : E.dispatch1 resolve w remote loc flags label a fuel = some res) :
    (∃ r', res.w.T.get? r.id = some r' ∧ res.id = if r'.flags.hasAll RF.IN_TABLE then r.id else 0) ∧
    res.inexact = inx ∧
    (res.ret = .ok .ok ∨ ∃ e, res.ret = .error e ∧ res.ares.hasAll AR.ERROR = true) := by
  unfold DispEnv.dispatch1 at h
  simp only [htrig, htgt, hlk] at h
  split at h; · cases h
  rename_i w2 a2 rs hd
  split at h; · cases h
  rename_i r' hg
  simp only [Option.some.injEq] at h
  subst h
  refine ⟨⟨r', hg, ?_⟩, rfl, ?_⟩
  · simp only
    have : r'.id = r.id := by
      have := List.find?_some (show w2.T.ents.find? (fun x => x.id == r.id) = some r' from hg)
      simpa using this
    rw [this]
  · cases rs with
    | ok u => exact .inl rfl
    | error e =>
      refine .inr ⟨e, rfl, ?_⟩
      unfold Flags.hasAll
      rw [beq_iff_eq]
      refine BitVec.eq_of_getLsbD_eq (fun k hk => ?_)
      rw [BitVec.getLsbD_and, BitVec.getLsbD_or]
      cases AR.ERROR.getLsbD k <;> simp

/-- C51: a trigger label that names no event fails the dispatch with the error of the event lookup;
nothing is looked up, counted or run, and no rule is reported. -/
theorem C51_unknown_trigger {σ : Type} (E : DispEnv σ) (resolve : List Byte → Except Err Event) (w : World σ) (remote loc : SockAddr)
    (flags : Flags) (l : List Byte) (a : Flags) (fuel : Nat) (e : Err) (hl : resolve l = .error e)
    (hf : flags.has RF.PARENT_EVENT_WILDCARD = false) :
    E.dispatch1 resolve w remote loc flags (some l) a fuel = some { w := w, ares := a, id := 0, inexact := 0, ret := .error e } := by
  unfold DispEnv.dispatch1 triggerOf
  simp only [hl, hf, Bool.false_eq_true, if_false]

/-- C51: if the caller allows any event, an unknown label is the same as no label. -/
theorem C51_unknown_trigger_any {σ : Type} (E : DispEnv σ) (resolve : List Byte → Except Err Event) (w : World σ) (remote loc : SockAddr)
    (flags : Flags) (l : List Byte) (a : Flags) (fuel : Nat) (e : Err) (hl : resolve l = .error e)
    (hf : flags.has RF.PARENT_EVENT_WILDCARD = true) :
    E.dispatch1 resolve w remote loc flags (some l) a fuel = E.dispatch1 resolve w remote loc flags none a fuel := by
  unfold DispEnv.dispatch1 triggerOf
  simp only [hl, hf, if_true]

/-- C51: when no rule is found and no post actions are configured, no rule is reported, and the call
says that the default policy was used. -/
theorem C51_no_rule_reported {σ : Type} {E : DispEnv σ} {resolve : List Byte → Except Err Event} {w : World σ} {remote loc : SockAddr}
    {flags : Flags} {label : Option (List Byte)} {a : Flags} {fuel : Nat} {res : DispRes σ} {e : Err}
    {trig : Option Event} {target : Route}
    (htrig : triggerOf resolve flags label = .ok trig) (htgt : routeInit trig remote loc flags = .ok target)
    (hlk : lookup w.T target false (some a) fuel = some (.error e))
    (hp : ∀ x, trig.or w.T.defaultEvent = some x → x.postActions = [])
    (h : E.dispatch1 resolve w remote loc flags label a fuel = some res) :
    res.id = 0 ∧ res.ret = .ok .usedFallback ∧ res.ares.hasAll AR.FALLTHROUGH = true ∧ res.w = w := by
  unfold DispEnv.dispatch1 at h
  simp only [htrig, htgt, hlk] at h
  have hp' : hasPostActions (trig.or w.T.defaultEvent) = false := by
    unfold hasPostActions
    cases hx : trig.or w.T.defaultEvent with
    | none => rfl
    | some x => simp [hp x hx]
  rw [hp'] at h
  simp only [Bool.false_eq_true, if_false, Option.some.injEq] at h
  subst h
  refine ⟨rfl, rfl, ?_, rfl⟩
  unfold Flags.hasAll useFallback
  rw [beq_iff_eq]
  refine BitVec.eq_of_getLsbD_eq (fun k hk => ?_)
  simp only
  rw [BitVec.getLsbD_and, BitVec.getLsbD_or, BitVec.getLsbD_or]
  cases AR.FALLTHROUGH.getLsbD k <;> simp

/-- Traffic that rule 1 of `worldF` describes: its ID is reported; with an unknown trigger label the
call is refused. -/
example : (envQuiet.dispatch (fun _ => .error .itemNotFound) (worldF 0 {}) { family := 2, proto := 6, ep := ruleA.remote }
      { family := 2, proto := 6, ep := ruleA.loc } (bit 10) none 5).map (fun x => (x.id, decide (x.ret = .ok .ok))) = some (1, true) := by decide
example : (envQuiet.dispatch (fun _ => .error .itemNotFound) (worldF 0 {}) { family := 2, proto := 6, ep := ruleA.remote }
      { family := 2, proto := 6, ep := ruleA.loc } (bit 10) (some [120]) 5).map (fun x => (x.id, decide (x.ret = .error .itemNotFound))) =
    some (0, true) := by decide

end WS.Props
