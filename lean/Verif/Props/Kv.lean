import Verif.Proof.Kv
import Verif.Props.Events
/-
Properties C37 (the user-value store is a map), C38 (read-only values), C39 (validator).
Histories start from a new context: `kvRun ops` is the state after the calls `ops`, and
`content` (Spec/Kv.lean) is what lookups see in it.
-/
namespace WS.Props
open WS WS.Spec Std

/-- The key `"k"`. -/
def kArg : LabelArg := { mem := some [0x6b#8, 0#8], len := -1 }
/-- The key `"kk"`, as two of the three bytes `"kkz"`. -/
def kkArg : LabelArg := { mem := some [0x6b#8, 0x6b#8, 0x7a#8], len := 2 }

/-! ## C37 -/

/-- C37: a new context has no user values and no validator. -/
theorem C37_starts_empty : content (kvRun []) = { map := fun _ => none, validator := none } := rfl

/-- C37: after every history short of 2^32 − 2 calls, every further call returns exactly what the
map of `Spec/Kv.lean` allows and changes the map exactly as it allows: the value store is a map from
keys to typed values; storing an existing key without overwriting fails with
`ITEM_ALREADY_PRESENT`; every failing call leaves the map unchanged. -/
theorem C37_is_a_map_partial (ops : List KvOp) (op : KvOp) (h : ops.length + 2 < 4294967296) :
    KvSpecStep (content (kvRun ops)) op (kvStep (kvRun ops) op).1 (content (kvRun (ops ++ [op]))) := by
  rw [kvRun_snoc]
  have hinv := kvRun_inv ops
  rcases (kvStep_spec hinv op).2 with h1 | ⟨_, st, k, h2, h3⟩
  · exact h1
  · exfalso
    have hb := kvRun_bound ops (by simp only [idModulus]; omega)
    rcases h3 with rfl | ⟨e, he, rfl⟩
    · exact (storeInsert_bound hinv.store hb (by simp only [idModulus]; omega) tblKv k).1 h2
    · exact (storeInsert_bound (content_delete hinv he).1.store
        (tableDelete1_bound hb (by simp only [idModulus]; omega) e (hb.ids e ((hinv.store.mem _ _).1 he).1))
        (by simp only [idModulus]; omega) tblKv k).1 h2

/-- C37, without any bound on the history: the only other outcome is a store failing with
`INVALID_ARG` because object IDs ran out. -/
theorem C37_every_outcome (ops : List KvOp) (op : KvOp) :
    KvSpecStep (content (kvRun ops)) op (kvStep (kvRun ops) op).1 (content (kvRun (ops ++ [op]))) ∨
    OutOfIds (content (kvRun ops)) op (kvStep (kvRun ops) op).1 (content (kvRun (ops ++ [op]))) := by
  rw [kvRun_snoc]
  rcases (kvStep_spec (kvRun_inv ops) op).2 with h1 | ⟨h1, _⟩
  · exact Or.inl h1
  · exact Or.inr h1

theorem kvTypeOk_iff (t : KvType) (v : KvVal) :
    kvTypeOk t v = true ↔ (t = .none ∨ t = v.type ∨ (t = .uint ∧ NonNegSigned v)) := by
  unfold kvTypeOk NonNegSigned
  cases t <;> cases v <;> simp [KvVal.type]

/-- C37: a read with a valid key returns the value and its type as recorded in the map, with
`ITEM_NOT_FOUND` for absent keys and `WRONG_TYPE` for a mismatched request. -/
theorem C37_reads (ops : List KvOp) (a : LabelArg) (k : List Byte) (hk : kvKey a 0 = .ok k) (t : KvType) :
    kvGet (kvRun ops) a t = ReadSpec (content (kvRun ops)) k t := by
  unfold kvGet kvFind ReadSpec
  rw [hk]
  simp only
  rcases content_get (kvRun_inv ops).store k with ⟨e, hg, _, _, hc⟩ | ⟨hg, hc⟩
  · rw [hg, hc]
    simp only
    by_cases hok : kvTypeOk t ((kvRun ops).obj e.id).val = true
    · rw [if_pos hok, if_pos ((kvTypeOk_iff _ _).1 hok)]; rfl
    · rw [if_neg hok, if_neg (fun hc => hok ((kvTypeOk_iff _ _).2 hc))]; rfl
  · rw [hg, hc]; rfl

/-- C37: `get_type` reports the type of the stored value. -/
theorem C37_get_type (ops : List KvOp) (a : LabelArg) (k : List Byte) (hk : kvKey a 0 = .ok k) :
    userGetType (kvRun ops) a =
      match (content (kvRun ops)).map k with
      | none => .error .itemNotFound
      | some o => .ok o.val.type := by
  unfold userGetType
  rw [C37_reads ops a k hk]
  unfold ReadSpec
  cases (content (kvRun ops)).map k with
  | none => rfl
  | some o => simp; rfl

/-- The call may set or remove the value under `k`. -/
def Touches (k : List Byte) (op : KvOp) : Prop :=
  match op with
  | .store a inp _ => ∃ v, kvDecode a inp = .ok (k, v)
  | .delete a => kvKey a 0 = .ok k
  | .flush => True
  | _ => False

/-- Calls that do not touch `k` leave its value alone. -/
theorem untouched_value {st st' : KvSpec} {op : KvOp} {r : Except Err Unit} {k : List Byte} {v : KvVal} {ro : Bool}
    (h : KvSpecStep st op r st' ∨ OutOfIds st op r st') (hn : ¬ Touches k op) (hm : st.map k = some ⟨v, ro⟩) :
    ∃ ro', st'.map k = some ⟨v, ro'⟩ := by
  rcases h with h | ⟨a, inp, ow, k', v', rfl, hd, _, h⟩
  · cases op with
    | store a inp ow =>
      simp only [KvSpecStep] at h
      cases hd : kvDecode a inp with
      | error e => rw [hd] at h; rw [h.2]; exact ⟨ro, hm⟩
      | ok kv =>
        obtain ⟨k', v'⟩ := kv
        have hkk : k ≠ k' := by rintro rfl; exact hn ⟨v', hd⟩
        rw [hd] at h
        simp only at h
        cases ha : Accepts st.validator k' ⟨v', false⟩ with
        | error e => rw [ha] at h; rw [h.2]; exact ⟨ro, hm⟩
        | ok u =>
          rw [ha] at h
          simp only [StoreSpec] at h
          cases ho : st.map k' with
          | none => rw [ho] at h; rw [h.2]; exact ⟨ro, by simp only [put, if_neg hkk]; exact hm⟩
          | some o =>
            rw [ho] at h
            simp only at h
            split at h
            · rw [h.2]; exact ⟨ro, hm⟩
            · split at h
              · rw [h.2]; exact ⟨ro, hm⟩
              · obtain ⟨_, w, _, h⟩ := h
                rw [h]; exact ⟨ro, by simp only [put, if_neg hkk]; exact hm⟩
    | delete a =>
      simp only [KvSpecStep] at h
      cases hd : kvKey a 0 with
      | error e => rw [hd] at h; rw [h.2]; exact ⟨ro, hm⟩
      | ok k' =>
        have hkk : k ≠ k' := by rintro rfl; exact hn hd
        rw [hd] at h
        simp only at h
        cases ho : st.map k' with
        | none => rw [ho] at h; rw [h.2]; exact ⟨ro, hm⟩
        | some o =>
          rw [ho] at h
          simp only at h
          split at h
          · rw [h.2]; exact ⟨ro, hm⟩
          · rw [h.2]; exact ⟨ro, by simp only [put, if_neg hkk]; exact hm⟩
    | setMutability a m =>
      simp only [KvSpecStep] at h
      cases hd : kvKey a 0 with
      | error e => rw [hd] at h; rw [h.2]; exact ⟨ro, hm⟩
      | ok k' =>
        rw [hd] at h
        simp only at h
        cases ho : st.map k' with
        | none => rw [ho] at h; rw [h.2]; exact ⟨ro, hm⟩
        | some o =>
          rw [ho] at h
          simp only at h
          have hov : k = k' → o.val = v := by rintro rfl; rw [hm] at ho; cases ho; rfl
          split at h
          · rw [h.2]
            simp only [put]
            by_cases hkk : k = k'
            · rw [if_pos hkk, hov hkk]; exact ⟨_, rfl⟩
            · rw [if_neg hkk]; exact ⟨ro, hm⟩
          · split at h
            · rw [h.2]
              simp only [put]
              by_cases hkk : k = k'
              · rw [if_pos hkk, hov hkk]; exact ⟨_, rfl⟩
              · rw [if_neg hkk]; exact ⟨ro, hm⟩
            · rw [h.2]; exact ⟨ro, hm⟩
    | setValidator f =>
      cases f with
      | none => rw [h.2]; exact ⟨ro, hm⟩
      | some f =>
        rcases h with ⟨_, _, h⟩ | ⟨_, _, _, _, _, _, h⟩
        · rw [h]; exact ⟨ro, hm⟩
        · rw [h]; exact ⟨ro, hm⟩
    | flush => exact absurd trivial hn
    | otherInsert t k' => simp only [KvSpecStep] at h; rw [h]; exact ⟨ro, hm⟩
    | otherDelete t k' => simp only [KvSpecStep] at h; rw [h]; exact ⟨ro, hm⟩
  · have hkk : k ≠ k' := by rintro rfl; exact hn ⟨v', hd⟩
    rcases h with h | ⟨_, _, h⟩
    · rw [h]; exact ⟨ro, hm⟩
    · rw [h]; exact ⟨ro, by simp only [put, if_neg hkk]; exact hm⟩

theorem untouched_values (post : List KvOp) (pre : List KvOp) (k : List Byte) (v : KvVal)
    (hn : ∀ op ∈ post, ¬ Touches k op) (hm : ∃ ro, (content (kvRun pre)).map k = some ⟨v, ro⟩) :
    ∃ ro, (content (kvRun (pre ++ post))).map k = some ⟨v, ro⟩ := by
  induction post generalizing pre with
  | nil => rw [List.append_nil]; exact hm
  | cons op rest ih =>
    have := ih (pre ++ [op]) (fun o ho => hn o (by simp [ho])) (by
      obtain ⟨ro, hm⟩ := hm
      exact untouched_value (C37_every_outcome pre op) (hn op (by simp)) hm)
    rw [List.append_assoc, List.singleton_append] at this
    exact this

/-- C37: after a successful store of `v` under `k`, and any further calls that neither store to nor
delete `k` nor flush the context, a read of `k` with the type of `v` returns `v` (when overwriting
one floating-point zero by another, a zero). -/
theorem C37_get_returns_last_store (pre post : List KvOp) (a a' : LabelArg) (inp : KvInput) (ow : Bool)
    (k : List Byte) (v : KvVal) (hd : kvDecode a inp = .ok (k, v)) (hk : kvKey a' 0 = .ok k)
    (hok : (kvStep (kvRun pre) (.store a inp ow)).1 = .ok ()) (hpost : ∀ op ∈ post, ¬ Touches k op) :
    ∃ w, kvGet (kvRun (pre ++ .store a inp ow :: post)) a' v.type = .ok w ∧
      (w = v ∨ (IsFloatZero v ∧ IsFloatZero w)) := by
  have hstep : ∃ w ro, (content (kvRun (pre ++ [.store a inp ow]))).map k = some ⟨w, ro⟩ ∧ w.type = v.type ∧
      (w = v ∨ (IsFloatZero v ∧ IsFloatZero w)) := by
    rcases C37_every_outcome pre (.store a inp ow) with h | ⟨_, _, _, _, _, _, _, h, _⟩
    · simp only [KvSpecStep, hd] at h
      cases ha : Accepts (content (kvRun pre)).validator k ⟨v, false⟩ with
      | error e => rw [ha] at h; rw [hok] at h; cases h.1
      | ok u =>
        rw [ha] at h
        simp only [StoreSpec] at h
        cases ho : (content (kvRun pre)).map k with
        | none =>
          rw [ho] at h
          exact ⟨v, false, by rw [h.2]; simp [put], rfl, Or.inl rfl⟩
        | some o =>
          rw [ho] at h
          simp only at h
          split at h
          · rw [hok] at h; cases h.1
          · split at h
            · rw [hok] at h; cases h.1
            · obtain ⟨_, w, hw, h⟩ := h
              refine ⟨w, false, by rw [h]; simp [put], ?_, ?_⟩
              · rcases hw with rfl | ⟨h1, h2, h3⟩
                · rfl
                · subst h3
                  cases hv : v <;> rw [hv] at h2 <;> try exact h2.elim
                  rename_i b
                  generalize o.val = ov at h1
                  cases ov <;> first | exact h1.elim | rfl
              · rcases hw with rfl | ⟨h1, h2, h3⟩
                · exact Or.inl rfl
                · subst h3; exact Or.inr ⟨h2, h1⟩
    · rw [hok] at h; cases h
  obtain ⟨w, ro, h1, h2, h3⟩ := hstep
  obtain ⟨ro', h4⟩ := untouched_values post _ k w hpost ⟨ro, h1⟩
  rw [List.append_assoc, List.singleton_append] at h4
  refine ⟨w, ?_, h3⟩
  rw [C37_reads _ a' k hk]
  unfold ReadSpec
  rw [h4]
  simp only
  rw [if_pos (Or.inr (Or.inl h2.symm))]

/-- The history used in the examples: store 7 under `"k"`, then a string under `"kk"`. -/
def demoOps : List KvOp := [.store kkArg (.string inArg) true]

example : kvDecode kArg (.uint 7#64) = .ok ([0x6b#8], .uint 7#64) := by decide
example : kvDecode kkArg (.string inArg) = .ok ([0x6b#8, 0x6b#8], .string [0x69#8, 0x6e#8]) := by decide
theorem first_store (a : LabelArg) (inp : KvInput) (ow : Bool) (k : List Byte) (v : KvVal) (hd : kvDecode a inp = .ok (k, v)) :
    kvStep (kvRun []) (.store a inp ow) =
      (.ok (), ({ store := (storeInsert catCmp {} tblKv k).2 } : Kv).setObj 1 ⟨v, false⟩) := by
  simp only [kvStep, kvStore, hd, kvRun, List.foldl, kvValidate, kvCommit]
  cases ow
  · simp only [Bool.false_eq_true, if_false, kvInsert1]
    rw [storeInsert_first]
  · simp only [if_true, kvSetLocked, tableGet, getScan, kvInsert1]
    rw [storeInsert_first]

example : ∃ w, kvGet (kvRun ([] ++ .store kArg (.uint 7#64) false :: demoOps)) kArg .uint = .ok w ∧
    (w = .uint 7#64 ∨ (IsFloatZero (.uint 7#64) ∧ IsFloatZero w)) :=
  C37_get_returns_last_store [] demoOps kArg kArg (.uint 7#64) false [0x6b#8] (.uint 7#64) (by decide) (by decide)
    (by rw [first_store kArg _ false _ _ (by decide : _ = Except.ok ([0x6b#8], KvVal.uint 7#64))])
    (by
      intro op hop
      simp only [demoOps, List.mem_singleton] at hop
      subst hop
      rintro ⟨v, hv⟩
      have h2 : kvDecode kkArg (.string inArg) = .ok ([0x6b#8, 0x6b#8], .string [0x69#8, 0x6e#8]) := by decide
      rw [h2] at hv
      simp at hv)

/-! ### findings about C37 -/

/-- The state after one store and `n` refused stores of the same key: the counter has moved, nothing
else. -/
def burned (k : List Byte) (v : KvVal) (c : Nat) : Kv :=
  ({ store := { tables := fun t' => if t' = tblKv then { ents := [⟨1, tblKv, k⟩], nEnts := 1, nInserts := 1 } else {},
                byId := [⟨1, tblKv, k⟩], nById := 1, counter := c } } : Kv).setObj 1 ⟨v, false⟩

theorem labelCmp_self (k : List Byte) : catCmp tblKv k k = .eq := (catCmp_eq tblKv k k).2 rfl

theorem burned_step (k : List Byte) (v : KvVal) (a : LabelArg) (inp : KvInput) (c : Nat) (hc : 1 ≤ c) (hc2 : c + 1 < idModulus)
    (hd : kvDecode a inp = .ok (k, v)) :
    kvStep (burned k v c) (.store a inp false) = (.error .itemAlreadyPresent, burned k v (c + 1)) := by
  simp only [kvStep, kvStore, hd]
  have hv : kvValidate (burned k v c) k ⟨v, false⟩ = .ok () := rfl
  rw [hv]
  simp only [kvCommit, Bool.false_eq_true, if_false, kvInsert1]
  have : storeInsert catCmp (burned k v c).store tblKv k = (.error .itemAlreadyPresent, (burned k v (c + 1)).store) := by
    unfold storeInsert
    rw [idAllocate]
    have hm : (c + 1) % idModulus = c + 1 := Nat.mod_eq_of_lt hc2
    have h1 : 1 < c + 1 := by omega
    have h2 : ¬ (1 = c + 1) := by omega
    have h3 : c ≠ 0 := by omega
    have h4 : ¬ ((c + 1 + 1) % idModulus = c + 1) := by simp only [idModulus] at *; omega
    simp [burned, Kv.setObj, insertById, idSplice, hm, tableInsert, keySplice, labelCmp_self, deleteById1, h4, h3, show 0 < c from hc]
  rw [this]
  rfl

theorem burned_run (k : List Byte) (v : KvVal) (a : LabelArg) (inp : KvInput) (hd : kvDecode a inp = .ok (k, v)) (n : Nat)
    (hn : n + 1 < idModulus) :
    kvRun (.store a inp false :: List.replicate n (.store a inp false)) = burned k v (n + 1) := by
  induction n with
  | zero =>
    show kvRun ([] ++ [.store a inp false]) = _
    rw [kvRun_snoc, first_store a inp false k v hd, storeInsert_first]
    rfl
  | succ n ih =>
    rw [List.replicate_succ', ← List.cons_append, kvRun_snoc, ih (by omega), burned_step k v a inp (n + 1) (by omega) hn hd]

/-- Finding: an overwriting store deletes the old value before it allocates an ID for the new one.
After a history that has used up the 32-bit IDs, the store fails and the old value is lost. -/
theorem C37_failed_overwrite_loses_value :
    ∃ (ops : List KvOp) (k : List Byte) (o : KvObj),
      (content (kvRun ops)).map k = some o ∧
      (kvStep (kvRun ops) (.store kArg (.uint 8#64) true)).1 = .error .invalidArg ∧
      (content (kvRun (ops ++ [.store kArg (.uint 8#64) true]))).map k = none := by
  refine ⟨.store kArg (.uint 7#64) false :: List.replicate 4294967294 (.store kArg (.uint 7#64) false), [0x6b#8],
    ⟨.uint 7#64, false⟩, ?_⟩
  have hd : kvDecode kArg (.uint 7#64) = .ok ([0x6b#8], .uint 7#64) := by decide
  have hd8 : kvDecode kArg (.uint 8#64) = .ok ([0x6b#8], .uint 8#64) := by decide
  rw [kvRun_snoc, burned_run [0x6b#8] (.uint 7#64) kArg _ hd 4294967294 (by decide)]
  have hstep : kvStep (burned [0x6b#8] (.uint 7#64) 4294967295) (.store kArg (.uint 8#64) true) =
      (.error .invalidArg, { burned [0x6b#8] (.uint 7#64) 0 with
        store := { tableDelete1 (burned [0x6b#8] (.uint 7#64) 4294967295).store ⟨1, tblKv, [0x6b#8]⟩ with counter := 0 } }) := by
    simp only [kvStep, kvStore, hd8]
    have hv : kvValidate (burned [0x6b#8] (.uint 7#64) 4294967295) [0x6b#8] ⟨.uint 8#64, false⟩ = .ok () := rfl
    rw [hv]
    simp only [kvCommit, if_true, kvSetLocked]
    have hg : tableGet catCmp (burned [0x6b#8] (.uint 7#64) 4294967295).store tblKv [0x6b#8] = .ok ⟨1, tblKv, [0x6b#8]⟩ := by
      simp only [tableGet, burned, Kv.setObj, if_pos, getScan, labelCmp_self]
    rw [hg]
    simp only
    have hro : ((burned [0x6b#8] (.uint 7#64) 4294967295).obj 1).ro = false := rfl
    have hval : ((burned [0x6b#8] (.uint 7#64) 4294967295).obj 1).val = .uint 7#64 := rfl
    rw [hro, hval]
    have hne : kvValueEq (.uint 8#64) (.uint 7#64) = false := by decide
    rw [hne]
    simp only [Bool.false_eq_true, if_false, kvInsert1]
    have : storeInsert catCmp (tableDelete1 (burned [0x6b#8] (.uint 7#64) 4294967295).store ⟨1, tblKv, [0x6b#8]⟩) tblKv [0x6b#8]
        = (.error .invalidArg, { tableDelete1 (burned [0x6b#8] (.uint 7#64) 4294967295).store ⟨1, tblKv, [0x6b#8]⟩ with counter := 0 }) := by
      unfold storeInsert
      rw [idAllocate]
      simp [tableDelete1, deleteById1, burned, Kv.setObj, Store.setTable, insertById, idModulus]
    rw [this]
    rfl
  refine ⟨?_, by rw [hstep], ?_⟩
  · simp only [content, tableGet, burned, Kv.setObj, if_pos, getScan, labelCmp_self]
  · rw [hstep]
    simp [content, tableGet, burned, Kv.setObj, getScan, tableDelete1, deleteById1, Store.setTable, unlink]

/-- Finding: `wolfsentry_user_value_get_json` asks for a string, so no JSON value is ever returned:
reading a stored JSON value is `WRONG_TYPE`. -/
theorem C37_get_json_wrong_type (ops : List KvOp) (a : LabelArg) (k : List Byte) (hk : kvKey a 0 = .ok k) (j : Nat) (ro : Bool)
    (hm : (content (kvRun ops)).map k = some ⟨.json j, ro⟩) : userGetJson (kvRun ops) a = .error .wrongType := by
  unfold userGetJson
  rw [C37_reads ops a k hk]
  unfold ReadSpec
  rw [hm]
  simp only
  rw [if_neg]
  simp [KvVal.type]

/-- Finding: overwriting `0.0` by `-0.0` succeeds and leaves `0.0` in place. -/
theorem C37_negative_zero_not_stored :
    (kvStep (kvRun [.store kArg (.double 0#64) true]) (.store kArg (.double 0x8000000000000000#64) true)).1 = .ok () ∧
    (content (kvRun [.store kArg (.double 0#64) true, .store kArg (.double 0x8000000000000000#64) true])).map [0x6b#8] =
      some ⟨.float 0#64, false⟩ := by
  have hd : kvDecode kArg (.double 0#64) = .ok ([0x6b#8], .float 0#64) := by decide
  have hd8 : kvDecode kArg (.double 0x8000000000000000#64) = .ok ([0x6b#8], .float 0x8000000000000000#64) := by decide
  have h1 : kvRun [.store kArg (.double 0#64) true] = burned [0x6b#8] (.float 0#64) 1 := by
    show kvRun ([] ++ [_]) = _
    rw [kvRun_snoc, first_store kArg _ true _ _ hd, storeInsert_first]; rfl
  have hstep : kvStep (burned [0x6b#8] (.float 0#64) 1) (.store kArg (.double 0x8000000000000000#64) true) =
      (.ok (), burned [0x6b#8] (.float 0#64) 1) := by
    simp only [kvStep, kvStore, hd8]
    have hv : kvValidate (burned [0x6b#8] (.float 0#64) 1) [0x6b#8] ⟨.float 0x8000000000000000#64, false⟩ = .ok () := rfl
    rw [hv]
    simp only [kvCommit, if_true, kvSetLocked]
    have hg : tableGet catCmp (burned [0x6b#8] (.float 0#64) 1).store tblKv [0x6b#8] = .ok ⟨1, tblKv, [0x6b#8]⟩ := by
      simp only [tableGet, burned, Kv.setObj, if_pos, getScan, labelCmp_self]
    rw [hg]
    simp only
    have hro : ((burned [0x6b#8] (.float 0#64) 1).obj 1).ro = false := rfl
    have hval : ((burned [0x6b#8] (.float 0#64) 1).obj 1).val = .float 0#64 := rfl
    rw [hro, hval]
    have hne : kvValueEq (.float 0x8000000000000000#64) (.float 0#64) = true := by decide
    rw [hne]
    simp only [Bool.false_eq_true, if_false, if_true]
  refine ⟨by rw [h1, hstep], ?_⟩
  show (content (kvRun ([.store kArg (.double 0#64) true] ++ [_]))).map _ = _
  rw [kvRun_snoc, h1, hstep]
  simp only [content, tableGet, burned, Kv.setObj, if_pos, getScan, labelCmp_self]

/-! ## C38 -/

/-- The call may lift the protection of `k`: it makes `k` writable, or flushes the context. -/
def Unprotects (k : List Byte) (op : KvOp) : Prop :=
  (∃ a, op = .setMutability a 1 ∧ kvKey a 0 = .ok k) ∨ op = .flush

theorem protected_step {st st' : KvSpec} {op : KvOp} {r : Except Err Unit} {k : List Byte} {v : KvVal}
    (h : KvSpecStep st op r st' ∨ OutOfIds st op r st') (hn : ¬ Unprotects k op) (hm : st.map k = some ⟨v, true⟩) :
    st'.map k = some ⟨v, true⟩ := by
  rcases h with h | ⟨a, inp, ow, k', v', rfl, hd, _, h⟩
  · cases op with
    | store a inp ow =>
      simp only [KvSpecStep] at h
      cases hd : kvDecode a inp with
      | error e => rw [hd] at h; rw [h.2]; exact hm
      | ok kv =>
        obtain ⟨k', v'⟩ := kv
        rw [hd] at h
        simp only at h
        cases ha : Accepts st.validator k' ⟨v', false⟩ with
        | error e => rw [ha] at h; rw [h.2]; exact hm
        | ok u =>
          rw [ha] at h
          simp only [StoreSpec] at h
          cases ho : st.map k' with
          | none =>
            have hkk : k ≠ k' := by rintro rfl; rw [hm] at ho; cases ho
            rw [ho] at h; rw [h.2]; simp only [put, if_neg hkk]; exact hm
          | some o =>
            rw [ho] at h
            simp only at h
            split at h
            · rw [h.2]; exact hm
            · split at h
              · rw [h.2]; exact hm
              · rename_i hro
                have hkk : k ≠ k' := by rintro rfl; rw [hm] at ho; cases ho; exact hro rfl
                obtain ⟨_, w, _, h⟩ := h
                rw [h]; simp only [put, if_neg hkk]; exact hm
    | delete a =>
      simp only [KvSpecStep] at h
      cases hd : kvKey a 0 with
      | error e => rw [hd] at h; rw [h.2]; exact hm
      | ok k' =>
        rw [hd] at h
        simp only at h
        cases ho : st.map k' with
        | none => rw [ho] at h; rw [h.2]; exact hm
        | some o =>
          rw [ho] at h
          simp only at h
          split at h
          · rw [h.2]; exact hm
          · rename_i hro
            have hkk : k ≠ k' := by rintro rfl; rw [hm] at ho; cases ho; exact hro rfl
            rw [h.2]; simp only [put, if_neg hkk]; exact hm
    | setMutability a m =>
      simp only [KvSpecStep] at h
      cases hd : kvKey a 0 with
      | error e => rw [hd] at h; rw [h.2]; exact hm
      | ok k' =>
        rw [hd] at h
        simp only at h
        cases ho : st.map k' with
        | none => rw [ho] at h; rw [h.2]; exact hm
        | some o =>
          rw [ho] at h
          simp only at h
          have hov : k = k' → o.val = v := by rintro rfl; rw [hm] at ho; cases ho; rfl
          split at h
          · rw [h.2]
            simp only [put]
            by_cases hkk : k = k'
            · rw [if_pos hkk, hov hkk]
            · rw [if_neg hkk]; exact hm
          · split at h
            · rename_i hm1
              rw [h.2]
              simp only [put]
              by_cases hkk : k = k'
              · exfalso; apply hn; left; exact ⟨a, by rw [hm1], by rw [hd, hkk]⟩
              · rw [if_neg hkk]; exact hm
            · rw [h.2]; exact hm
    | setValidator f =>
      cases f with
      | none => rw [h.2]; exact hm
      | some f =>
        rcases h with ⟨_, _, h⟩ | ⟨_, _, _, _, _, _, h⟩
        · rw [h]; exact hm
        · rw [h]; exact hm
    | flush => exact absurd (Or.inr rfl) hn
    | otherInsert t k' => simp only [KvSpecStep] at h; rw [h]; exact hm
    | otherDelete t k' => simp only [KvSpecStep] at h; rw [h]; exact hm
  · rcases h with h | ⟨_, ⟨w, hw⟩, h⟩
    · rw [h]; exact hm
    · have hkk : k ≠ k' := by rintro rfl; rw [hm] at hw; cases hw
      rw [h]; simp only [put, if_neg hkk]; exact hm

/-- C38: once a value is read-only, it keeps its value, its type and its protection over any
sequence of calls (stores with and without overwriting, deletes, mutability changes of other keys,
validator changes, other objects coming and going), until it is made writable or the whole context
is flushed. -/
theorem C38_read_only_frozen (pre post : List KvOp) (k : List Byte) (v : KvVal)
    (hm : (content (kvRun pre)).map k = some ⟨v, true⟩) (hpost : ∀ op ∈ post, ¬ Unprotects k op) :
    (content (kvRun (pre ++ post))).map k = some ⟨v, true⟩ := by
  induction post generalizing pre with
  | nil => rw [List.append_nil]; exact hm
  | cons op rest ih =>
    have := ih (pre ++ [op]) (protected_step (C37_every_outcome pre op) (hpost op (by simp)) hm)
      (fun o ho => hpost o (by simp [ho]))
    rw [List.append_assoc, List.singleton_append] at this
    exact this

/-- C38: deleting a read-only value fails with `NOT_PERMITTED`, and so does overwriting it (with
valid arguments and a value the validator accepts). -/
theorem C38_calls_refused (ops : List KvOp) (a : LabelArg) (k : List Byte) (v : KvVal)
    (hm : (content (kvRun ops)).map k = some ⟨v, true⟩) :
    (kvKey a 0 = .ok k → (kvStep (kvRun ops) (.delete a)).1 = .error .notPermitted) ∧
    (∀ inp w, kvDecode a inp = .ok (k, w) → Accepts (content (kvRun ops)).validator k ⟨w, false⟩ = .ok () →
      (kvStep (kvRun ops) (.store a inp true)).1 = .error .notPermitted) := by
  have hinv := kvRun_inv ops
  constructor
  · intro hk
    rcases C37_every_outcome ops (.delete a) with h | ⟨_, _, _, _, _, h, _⟩
    · simp only [KvSpecStep, hk, hm] at h
      exact h.1
    · cases h
  · intro inp w hd ha
    simp only [kvStep, kvStore, hd]
    rw [kvValidate_eq, ha]
    simp only [kvCommit, if_true, kvSetLocked]
    rcases content_get hinv.store k with ⟨e, hg, _, _, hc⟩ | ⟨hg, hc⟩
    · rw [hm] at hc
      injection hc with hc
      rw [hg]
      simp only
      rw [← hc]
      simp
    · rw [hm] at hc; cases hc

/-- C38: `get_mutability` reports the protection. -/
theorem C38_mutability_reported (ops : List KvOp) (a : LabelArg) (k : List Byte) (o : KvObj) (hk : kvKey a 0 = .ok k)
    (hm : (content (kvRun ops)).map k = some o) : userGetMutability (kvRun ops) a = .ok (!o.ro) := by
  unfold userGetMutability
  rcases kvFind_none (kvRun_inv ops) a with ⟨e, h1, _⟩ | ⟨k', h1, ⟨e, h2, _, _, hc⟩ | ⟨_, hc⟩⟩
  · rw [hk] at h1; cases h1
  · rw [hk] at h1; injection h1 with h1; subst h1
    rw [hm] at hc; injection hc with hc
    rw [h2, hc]; rfl
  · rw [hk] at h1; injection h1 with h1; subst h1
    rw [hm] at hc; cases hc

theorem readonly_example : (content (kvRun [.store kArg (.uint 7#64) false, .setMutability kArg 0])).map [0x6b#8] =
    some ⟨.uint 7#64, true⟩ := by
  have h := C37_every_outcome [.store kArg (.uint 7#64) false] (.setMutability kArg 0)
  have h1 : (content (kvRun [.store kArg (.uint 7#64) false])).map [0x6b#8] = some ⟨.uint 7#64, false⟩ := by
    have hd : kvDecode kArg (.uint 7#64) = .ok ([0x6b#8], .uint 7#64) := by decide
    have := burned_run [0x6b#8] (.uint 7#64) kArg (.uint 7#64) hd 0 (by decide)
    simp only [List.replicate] at this
    rw [this]
    simp only [content, tableGet, burned, Kv.setObj, if_pos, getScan, labelCmp_self]
  have hk : kvKey kArg 0 = .ok [0x6b#8] := by decide
  rcases h with h | ⟨_, _, _, _, _, h, _⟩
  · simp only [KvSpecStep, hk, h1] at h
    rw [if_pos trivial] at h
    show (content (kvRun ([.store kArg (.uint 7#64) false] ++ [.setMutability kArg 0]))).map [0x6b#8] = _
    rw [h.2]
    simp [put]
  · cases h

example : ¬ Unprotects [0x6b#8] (.delete kArg) := by
  rintro (⟨a, h, _⟩ | h) <;> cases h

/-- Finding: flushing a context (`wolfsentry_context_flush`) does remove read-only values. -/
theorem C38_flush_removes_read_only :
    (content (kvRun ([.store kArg (.uint 7#64) false, .setMutability kArg 0] ++ [.flush]))).map [0x6b#8] = none := by
  rcases C37_every_outcome [.store kArg (.uint 7#64) false, .setMutability kArg 0] .flush with h | ⟨_, _, _, _, _, h, _⟩
  · simp only [KvSpecStep] at h
    rw [h.2]
  · cases h

/-! ## C39 -/

/-- The validator gives the same verdict whether or not the pair is marked read-only. -/
def IgnoresReadonly (f : KvValidator) : Prop := ∀ k v, f k ⟨v, true⟩ = .ok () ↔ f k ⟨v, false⟩ = .ok ()

/-- Every stored pair satisfies `f`. -/
def AllSatisfy (st : KvSpec) (f : KvValidator) : Prop := ∀ k o, st.map k = some o → f k o = .ok ()

theorem validated_step {st st' : KvSpec} {op : KvOp} {r : Except Err Unit}
    (h : KvSpecStep st op r st' ∨ OutOfIds st op r st')
    (hro : ∀ f, st.validator = some f → (∀ a m, op ≠ .setMutability a m) ∨ IgnoresReadonly f)
    (hv : ∀ f, st.validator = some f → AllSatisfy st f) : ∀ f, st'.validator = some f → AllSatisfy st' f := by
  rcases h with h | ⟨a, inp, ow, k', v', rfl, hd, _, h⟩
  · cases op with
    | store a inp ow =>
      simp only [KvSpecStep] at h
      cases hd : kvDecode a inp with
      | error e => rw [hd] at h; rw [h.2]; exact hv
      | ok kv =>
        obtain ⟨k', v'⟩ := kv
        rw [hd] at h
        simp only at h
        cases ha : Accepts st.validator k' ⟨v', false⟩ with
        | error e => rw [ha] at h; rw [h.2]; exact hv
        | ok u =>
          rw [ha] at h
          simp only [StoreSpec] at h
          have hput : ∀ w, (∀ f, st.validator = some f → f k' ⟨w, false⟩ = .ok ()) → st' = { st with map := put st.map k' (some ⟨w, false⟩) } →
              ∀ f, st'.validator = some f → AllSatisfy st' f := by
            intro w hw hst f hf k o hko
            rw [hst] at hf hko
            simp only [put] at hko
            by_cases hkk : k = k'
            · rw [if_pos hkk] at hko; cases hko; rw [hkk]; exact hw f hf
            · rw [if_neg hkk] at hko; exact hv f hf k o hko
          have hnew : ∀ f, st.validator = some f → f k' ⟨v', false⟩ = .ok () := by
            intro f hf; rw [hf] at ha; exact ha
          cases ho : st.map k' with
          | none => rw [ho] at h; exact hput v' hnew h.2
          | some o =>
            rw [ho] at h
            simp only at h
            split at h
            · rw [h.2]; exact hv
            · split at h
              · rw [h.2]; exact hv
              · rename_i hroo
                obtain ⟨_, w, hw, h⟩ := h
                refine hput w ?_ h
                intro f hf
                rcases hw with rfl | ⟨_, _, rfl⟩
                · exact hnew f hf
                · have := hv f hf k' o ho
                  have ho' : o.ro = false := by simpa using hroo
                  rw [← ho']; exact this
    | delete a =>
      simp only [KvSpecStep] at h
      cases hd : kvKey a 0 with
      | error e => rw [hd] at h; rw [h.2]; exact hv
      | ok k' =>
        rw [hd] at h
        simp only at h
        cases ho : st.map k' with
        | none => rw [ho] at h; rw [h.2]; exact hv
        | some o =>
          rw [ho] at h
          simp only at h
          split at h
          · rw [h.2]; exact hv
          · rw [h.2]
            intro f hf k o' hko
            simp only [put] at hko
            split at hko
            · cases hko
            · exact hv f hf k o' hko
    | setMutability a m =>
      simp only [KvSpecStep] at h
      cases hd : kvKey a 0 with
      | error e => rw [hd] at h; rw [h.2]; exact hv
      | ok k' =>
        rw [hd] at h
        simp only at h
        cases ho : st.map k' with
        | none => rw [ho] at h; rw [h.2]; exact hv
        | some o =>
          rw [ho] at h
          simp only at h
          have hput : ∀ b, st' = { st with map := put st.map k' (some { o with ro := b }) } →
              ∀ f, st'.validator = some f → AllSatisfy st' f := by
            intro b hst f hf k o' hko
            rw [hst] at hf hko
            simp only [put] at hko
            have hig := (hro f hf).resolve_left (fun hc => hc a m rfl)
            by_cases hkk : k = k'
            · rw [if_pos hkk] at hko
              cases hko
              rw [hkk]
              have := hv f hf k' o ho
              obtain ⟨ov, oro⟩ := o
              cases b <;> cases oro
              · exact this
              · exact (hig _ _).1 this
              · exact (hig _ _).2 this
              · exact this
            · rw [if_neg hkk] at hko; exact hv f hf k o' hko
          split at h
          · exact hput true h.2
          · split at h
            · exact hput false h.2
            · rw [h.2]; exact hv
    | setValidator g =>
      cases g with
      | none => rw [h.2]; intro f hf; cases hf
      | some g =>
        rcases h with ⟨_, hall, h⟩ | ⟨_, _, _, _, _, _, h⟩
        · rw [h]; intro f hf; cases hf; exact hall
        · rw [h]; exact hv
    | flush =>
      simp only [KvSpecStep] at h
      rw [h.2]; intro f _ k o hko; cases hko
    | otherInsert t k' => simp only [KvSpecStep] at h; rw [h]; exact hv
    | otherDelete t k' => simp only [KvSpecStep] at h; rw [h]; exact hv
  · rcases h with h | ⟨_, _, h⟩
    · rw [h]; exact hv
    · rw [h]
      intro f hf k o hko
      simp only [put] at hko
      split at hko
      · cases hko
      · exact hv f hf k o hko

theorem validator_installed (ops : List KvOp) (f : KvValidator) (h : (content (kvRun ops)).validator = some f) :
    .setValidator (some f) ∈ ops := by
  suffices hh : ∀ (n : Nat) (ops : List KvOp), ops.length = n → (content (kvRun ops)).validator = some f →
      .setValidator (some f) ∈ ops from hh _ ops rfl h
  intro n
  induction n with
  | zero => intro ops hl h; rw [List.length_eq_zero_iff] at hl; subst hl; cases h
  | succ n ih =>
    intro ops hl h
    have hne : ops ≠ [] := by intro hc; rw [hc] at hl; cases hl
    rw [← List.dropLast_concat_getLast hne] at h ⊢
    generalize hop : ops.getLast hne = op at h
    have hlen : ops.dropLast.length = n := by rw [List.length_dropLast, hl]; rfl
    rw [List.mem_append]
    by_cases heq : op = .setValidator (some f)
    · right; rw [heq]; simp
    · left
      apply ih _ hlen
      rw [kvRun_snoc] at h
      generalize kvRun ops.dropLast = s at h ⊢
      show s.validator = some f
      change (kvStep s op).2.validator = some f at h
      have hins : ∀ (s : Kv) k o, (kvInsert1 s k o).2.validator = s.validator := by
        intro s k o
        unfold kvInsert1
        rcases storeInsert catCmp s.store tblKv k with ⟨r, st⟩
        cases r <;> rfl
      cases op with
      | store a inp ow =>
        simp only [kvStep, kvStore] at h
        split at h
        · exact h
        · split at h
          · exact h
          · simp only [kvCommit] at h
            split at h
            · simp only [kvSetLocked] at h
              split at h
              · rw [hins] at h; exact h
              · split at h
                · exact h
                · split at h
                  · exact h
                  · rw [hins] at h; exact h
            · rw [hins] at h; exact h
      | delete a =>
        simp only [kvStep, kvDelete] at h
        split at h
        · exact h
        · split at h <;> exact h
      | setMutability a m =>
        simp only [kvStep, kvSetMutability] at h
        split at h
        · exact h
        · split at h
          · exact h
          · split at h <;> exact h
      | setValidator g =>
        cases g with
        | none => cases h
        | some g =>
          simp only [kvStep, kvSetValidator] at h
          split at h
          · exact h
          · exfalso; apply heq
            simp only [Option.some.injEq] at h
            rw [h]
      | flush => exact h
      | otherInsert t k => exact h
      | otherDelete t k => exact h

/-- C39: in the state after any history, if a validator `f` is installed, every stored pair
satisfies `f`: whatever was stored before it was installed, whatever was stored since, and however
often validators were changed.  (For histories that change the read-only mark, the validators must
not look at that mark: see `C39_set_mutability_not_validated`.  Calls run one after the other: see
`C39_concurrent_store_not_validated`.) -/
theorem C39_validator_invariant_partial (ops : List KvOp)
    (hro : (∀ a m, .setMutability a m ∉ ops) ∨ ∀ f, .setValidator (some f) ∈ ops → IgnoresReadonly f)
    (f : KvValidator) (hf : (content (kvRun ops)).validator = some f) (k : List Byte) (o : KvObj)
    (hk : (content (kvRun ops)).map k = some o) : f k o = .ok () := by
  suffices hh : ∀ (n : Nat) (ops : List KvOp), ops.length = n →
      ((∀ a m, .setMutability a m ∉ ops) ∨ ∀ f, .setValidator (some f) ∈ ops → IgnoresReadonly f) →
      ∀ f, (content (kvRun ops)).validator = some f → AllSatisfy (content (kvRun ops)) f from
    hh _ ops rfl hro f hf k o hk
  intro n
  induction n with
  | zero => intro ops hl _ f hf; rw [List.length_eq_zero_iff] at hl; subst hl; cases hf
  | succ n ih =>
    intro ops hl hro
    have hne : ops ≠ [] := by intro hc; rw [hc] at hl; cases hl
    rw [← List.dropLast_concat_getLast hne] at hro ⊢
    generalize ops.getLast hne = op at hro ⊢
    have hlen : ops.dropLast.length = n := by rw [List.length_dropLast, hl]; rfl
    refine validated_step (C37_every_outcome ops.dropLast op) ?_ (ih _ hlen ?_)
    · intro f hf
      rcases hro with hro | hro
      · left; intro a m he; exact hro a m (by simp [he])
      · right; exact hro f (List.mem_append_left _ (validator_installed _ f hf))
    · rcases hro with hro | hro
      · left; intro a m hc; exact hro a m (List.mem_append_left _ hc)
      · right; intro f hc; exact hro f (List.mem_append_left _ hc)

/-- C39: installing a validator succeeds only if everything already stored satisfies it, and a
failing installation changes nothing. -/
theorem C39_install (ops : List KvOp) (f : KvValidator) :
    ((kvStep (kvRun ops) (.setValidator (some f))).1 = .ok () →
      AllSatisfy (content (kvRun ops)) f ∧ (content (kvRun (ops ++ [.setValidator (some f)]))).validator = some f) ∧
    (∀ e, (kvStep (kvRun ops) (.setValidator (some f))).1 = .error e →
      content (kvRun (ops ++ [.setValidator (some f)])) = content (kvRun ops)) := by
  rcases C37_every_outcome ops (.setValidator (some f)) with h | ⟨_, _, _, _, _, h, _⟩
  · simp only [KvSpecStep] at h
    rcases h with ⟨h1, h2, h3⟩ | ⟨_, _, e, _, _, h1, h3⟩
    · exact ⟨fun _ => ⟨h2, by rw [h3]⟩, fun e he => by rw [h1] at he; cases he⟩
    · exact ⟨fun he => (by rw [h1] at he; cases he), fun _ _ => h3⟩
  · cases h

/-- C39: a value the validator rejects is not stored: the call returns the validator's error and
the whole state is untouched. -/
theorem C39_rejected_store (s : Kv) (f : KvValidator) (a : LabelArg) (inp : KvInput) (ow : Bool) (k : List Byte) (v : KvVal) (e : Err)
    (hf : s.validator = some f) (hd : kvDecode a inp = .ok (k, v)) (hr : f k ⟨v, false⟩ = .error e) :
    kvStep s (.store a inp ow) = (.error e, s) := by
  simp only [kvStep, kvStore, hd, kvValidate, hf, hr]

/-- A validator that wants small unsigned integers. -/
def smallUint : KvValidator := fun _ o =>
  match o.val with
  | .uint b => if b.toNat < 10 then .ok () else .error .badValue
  | _ => .error .badValue

theorem smallUint_ignores : IgnoresReadonly smallUint := by
  intro k v; cases v <;> simp [smallUint]

example : (content (kvRun [.store kArg (.uint 7#64) false, .setMutability kArg 0, .setValidator (some smallUint)])).validator =
    some smallUint := by
  have h := C37_is_a_map_partial [.store kArg (.uint 7#64) false, .setMutability kArg 0] (.setValidator (some smallUint)) (by decide)
  simp only [KvSpecStep] at h
  rcases h with ⟨_, _, h⟩ | ⟨k, o, e, hk, he, _, _⟩
  · show (content (kvRun ([.store kArg (.uint 7#64) false, .setMutability kArg 0] ++ [.setValidator (some smallUint)]))).validator = _
    rw [h]
  · exfalso
    have h2 := C37_is_a_map_partial [.store kArg (.uint 7#64) false] (.setMutability kArg 0) (by decide)
    have hd : kvDecode kArg (.uint 7#64) = .ok ([0x6b#8], .uint 7#64) := by decide
    have hkk : kvKey kArg 0 = .ok [0x6b#8] := by decide
    have h1 := C37_is_a_map_partial [] (.store kArg (.uint 7#64) false) (by decide)
    simp only [KvSpecStep, hd, C37_starts_empty, Accepts, StoreSpec] at h1
    simp only [List.nil_append] at h1
    simp only [KvSpecStep, hkk, h1.2, put, if_pos] at h2
    rw [show ([.store kArg (.uint 7#64) false, .setMutability kArg 0] : List KvOp) = [.store kArg (.uint 7#64) false] ++ [.setMutability kArg 0] from rfl, h2.2] at hk
    simp only [put] at hk
    by_cases hkk : k = [0x6b#8]
    · rw [if_pos hkk] at hk; cases hk; revert he; simp [smallUint]
    · rw [if_neg hkk, if_neg hkk] at hk; cases hk

/-- A validator that does not want protected values. -/
def noProtected : KvValidator := fun _ o => if o.ro then .error .notPermitted else .ok ()

/-- Finding: changing the read-only mark does not consult the validator, so a validator that looks
at the mark is bypassed. -/
theorem C39_set_mutability_not_validated :
    ∃ (ops : List KvOp) (f : KvValidator) (k : List Byte) (o : KvObj) (e : Err),
      (content (kvRun ops)).validator = some f ∧ (content (kvRun ops)).map k = some o ∧ f k o = .error e := by
  refine ⟨([] ++ [.setValidator (some noProtected)]) ++ [.store kArg (.uint 7#64) false] ++ [.setMutability kArg 0], noProtected, [0x6b#8],
    ⟨.uint 7#64, true⟩, .notPermitted, ?_⟩
  have h0 := C37_is_a_map_partial [] (.setValidator (some noProtected)) (by decide)
  simp only [KvSpecStep, C37_starts_empty] at h0
  have h0' : content (kvRun ([] ++ [.setValidator (some noProtected)])) = { map := fun _ => none, validator := some noProtected } := by
    rcases h0 with ⟨_, _, h⟩ | ⟨_, _, _, h, _⟩
    · exact h
    · cases h
  have hd : kvDecode kArg (.uint 7#64) = .ok ([0x6b#8], .uint 7#64) := by decide
  have hk : kvKey kArg 0 = .ok [0x6b#8] := by decide
  have h1 := C37_is_a_map_partial ([] ++ [.setValidator (some noProtected)]) (.store kArg (.uint 7#64) false) (by decide)
  have ha : Accepts (some noProtected) [0x6b#8] ⟨.uint 7#64, false⟩ = .ok () := by decide
  simp only [KvSpecStep, hd, h0', ha, StoreSpec] at h1
  have h2 := C37_is_a_map_partial (([] ++ [.setValidator (some noProtected)]) ++ [.store kArg (.uint 7#64) false]) (.setMutability kArg 0) (by decide)
  simp only [KvSpecStep, hk, h1.2, put, if_pos] at h2
  rw [h2.2]
  exact ⟨rfl, by simp [put], by decide⟩

/-- Finding: `wolfsentry_kv_insert` and `wolfsentry_kv_set` call the validator before they take the
lock (src/kv.c:174-180, 233-238).  If another thread installs a validator between the two, a pair it
rejects ends up in the store: the validation is done in the state before the installation, the
locked part (`kvCommit`) in the state after it. -/
theorem C39_concurrent_store_not_validated :
    ∃ (f : KvValidator) (k : List Byte) (o : KvObj) (e : Err) (s s1 s2 : Kv),
      s = kvRun [] ∧
      kvValidate s k o = .ok () ∧                       -- thread A validates
      kvStep s (.setValidator (some f)) = (.ok (), s1) ∧ -- thread B installs `f`
      kvCommit s1 k o true = (.ok (), s2) ∧              -- thread A gets the lock and stores
      (content s2).validator = some f ∧ (content s2).map k = some o ∧ f k o = .error e := by
  have hc : kvCommit { kvRun [] with validator := some fun _ _ => .error .badValue } [0x6b#8] ⟨.uint 7#64, false⟩ true =
      (.ok (), { burned [0x6b#8] (.uint 7#64) 1 with validator := some fun _ _ => .error .badValue }) := by
    simp only [kvRun, List.foldl, kvCommit, if_true, kvSetLocked, tableGet, getScan, kvInsert1]
    rw [storeInsert_first]
    rfl
  refine ⟨fun _ _ => .error .badValue, [0x6b#8], ⟨.uint 7#64, false⟩, .badValue, kvRun [], _, _, rfl, rfl, rfl, hc, rfl, ?_, rfl⟩
  simp only [content, tableGet, burned, Kv.setObj, if_pos, getScan, labelCmp_self]

end WS.Props
