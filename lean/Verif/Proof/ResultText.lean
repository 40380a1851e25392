import Verif.Spec.ResultText
import Verif.Props.Codec
/-
Lemmas for C80 and C81.
-/
namespace WS.RT
open WS.Spec.RT

/-- The arrays hold the texts registered first. -/
structure Agree (r : Reg) (ops : List Op) : Prop where
  errors : ∀ k, k ≤ 127 → r.errors k = codeText ops (-((k : Int) + 128))
  successes : ∀ k, k ≤ 127 → r.successes k = codeText ops ((k : Int) + 128)
  sources : ∀ k, k ≤ 15 → r.sources k = sourceText ops ((k : Int) + 112)

theorem codeText_snoc (ops : List Op) (o : Op) (c : Int) :
    codeText (ops ++ [o]) c = (codeText ops c).or
      (match o with | .code i t => if i = c then t else none | .source _ _ => none) := by
  unfold codeText
  rw [List.filterMap_append, List.head?_append]
  congr 1
  cases o with
  | source i t => rfl
  | code i t =>
    simp only [List.filterMap_cons, List.filterMap_nil]
    split
    · next h => simp [h]
    · next h => simp [h]

theorem sourceText_snoc (ops : List Op) (o : Op) (c : Int) :
    sourceText (ops ++ [o]) c = (sourceText ops c).or
      (match o with | .source i t => if i = c then t else none | .code _ _ => none) := by
  unfold sourceText
  rw [List.filterMap_append, List.head?_append]
  congr 1
  cases o with
  | code i t => rfl
  | source i t =>
    simp only [List.filterMap_cons, List.filterMap_nil]
    split
    · next h => simp [h]
    · next h => simp [h]

theorem step_agree {r : Reg} {ops : List Op} (h : Agree r ops) (o : Op) : Agree (step r o).2 (ops ++ [o]) := by
  cases o with
  | source i t =>
    have hc : ∀ c, codeText (ops ++ [.source i t]) c = codeText ops c := by
      intro c; rw [codeText_snoc]; simp
    refine ⟨?_, ?_, ?_⟩
    · intro k hk; rw [hc, ← h.errors k hk]; simp only [step, setSource]; repeat' split
      all_goals rfl
    · intro k hk; rw [hc, ← h.successes k hk]; simp only [step, setSource]; repeat' split
      all_goals rfl
    · intro k hk
      rw [sourceText_snoc, ← h.sources k hk]
      simp only [step, setSource]
      split
      · rw [if_neg (by omega)]; simp
      · split
        · next hn =>
          by_cases hi : i = (k : Int) + 112
          · subst hi
            rw [show ((k : Int) + 112 - 112).toNat = k by omega] at hn
            cases hs : r.sources k with
            | none => exact absurd hs hn
            | some x => simp
          · rw [if_neg hi]; simp
        · next hn =>
          simp only [put]
          by_cases hi : i = (k : Int) + 112
          · subst hi
            rw [show ((k : Int) + 112 - 112).toNat = k by omega] at hn ⊢
            simp only [if_true]
            rw [Classical.not_not.1 hn]; simp
          · rw [if_neg hi, if_neg (by omega)]; simp
  | code i t =>
    have hc : ∀ c, sourceText (ops ++ [.code i t]) c = sourceText ops c := by
      intro c; rw [sourceText_snoc]; simp
    refine ⟨?_, ?_, ?_⟩
    · intro k hk
      rw [codeText_snoc, ← h.errors k hk]
      simp only [step, setError]
      split
      · split
        · rw [if_neg (by omega)]; simp
        · split
          · next hn =>
            by_cases hi : i = -((k : Int) + 128)
            · subst hi
              rw [show (-(-((k : Int) + 128) + 128)).toNat = k by omega] at hn
              cases hs : r.errors k with
              | none => exact absurd hs hn
              | some x => simp
            · rw [if_neg hi]; simp
          · next hn =>
            simp only [put]
            by_cases hi : i = -((k : Int) + 128)
            · subst hi
              rw [show (-(-((k : Int) + 128) + 128)).toNat = k by omega] at hn ⊢
              simp only [if_true]
              rw [Classical.not_not.1 hn]; simp
            · rw [if_neg hi, if_neg (by omega)]; simp
      · next hi =>
        rw [show (if i = -((k : Int) + 128) then t else none) = none from if_neg (by omega), Option.or_none]
        repeat' split
        all_goals rfl
    · intro k hk
      rw [codeText_snoc, ← h.successes k hk]
      simp only [step, setError]
      split
      · next hi =>
        rw [show (if i = (k : Int) + 128 then t else none) = none from if_neg (by omega), Option.or_none]
        repeat' split
        all_goals rfl
      · split
        · rw [if_neg (by omega)]; simp
        · split
          · next hn =>
            by_cases hi : i = (k : Int) + 128
            · subst hi
              rw [show ((k : Int) + 128 - 128).toNat = k by omega] at hn
              cases hs : r.successes k with
              | none => exact absurd hs hn
              | some x => simp
            · rw [if_neg hi]; simp
          · next hn =>
            simp only [put]
            by_cases hi : i = (k : Int) + 128
            · subst hi
              rw [show ((k : Int) + 128 - 128).toNat = k by omega] at hn ⊢
              simp only [if_true]
              rw [Classical.not_not.1 hn]; simp
            · rw [if_neg hi, if_neg (by omega)]; simp
    · intro k hk; rw [hc, ← h.sources k hk]; simp only [step, setError]; repeat' split
      all_goals rfl

theorem run_agree (ops : List Op) : Agree (run ops) ops := by
  suffices ∀ (os pre : List Op) (r : Reg), Agree r pre → Agree (os.foldl (fun r o => (step r o).2) r) (pre ++ os) from
    this ops [] {} ⟨fun _ _ => rfl, fun _ _ => rfl, fun _ _ => rfl⟩
  intro os
  induction os with
  | nil => intro pre r h; simpa using h
  | cons o os ih =>
    intro pre r h
    have := ih (pre ++ [o]) _ (step_agree h o)
    simpa using this

/-- The bare code of a result is between -255 and 255. -/
theorem decodeCode_range (e : Int) : -255 ≤ ErrCode.decodeCode e ∧ ErrCode.decodeCode e ≤ 255 := by
  unfold ErrCode.decodeCode
  have h : ∀ n : Nat, n &&& 255 ≤ 255 := fun n => Nat.and_le_right
  split
  · have := h (-e).toNat; omega
  · have := h e.toNat; omega

theorem errorCases_known : ∀ p ∈ errorCases, -41 ≤ p.1 ∧ p.1 ≤ 8 := by decide
theorem nameCases_known : ∀ p ∈ nameCases, -41 ≤ p.1 ∧ p.1 ≤ 8 := by decide

theorem error_find_none {i : Int} (h : i < -41 ∨ 8 < i) : errorCases.find? (fun p => p.1 = i) = none := by
  rw [List.find?_eq_none]
  intro p hp hc
  have := errorCases_known p hp
  simp only [decide_eq_true_eq] at hc
  omega

theorem name_find_none {i : Int} (h : i < -41 ∨ 8 < i) : nameCases.find? (fun p => p.1 = i) = none := by
  rw [List.find?_eq_none]
  intro p hp hc
  have := nameCases_known p hp
  simp only [decide_eq_true_eq] at hc
  omega

theorem source_find_none {i : Nat} (h : 11 < i) : sourceCases.find? (fun p => p.1 = i) = none := by
  rw [List.find?_eq_none]
  intro p hp hc
  have : ∀ p ∈ sourceCases, p.1 ≤ 11 := by decide
  have := this p hp
  simp only [decide_eq_true_eq] at hc
  omega

end WS.RT
