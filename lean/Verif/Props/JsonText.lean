import Verif.Model.JsonText
import Verif.Spec.JsonText
import Verif.Model.JsonDom
import Verif.Model.ErrCode
import Verif.Proof.JsonErr
/-
C93: the JSON library's texts for codes.
-/
namespace WS.Props
open WS.JText WS.Spec.JText

theorem errorStr_in : ∀ k : Fin 24, errorStr (-(k.val : Int)) = .text (errs.getD k.val "") := by decide +kernel
theorem errorStr_out {c : Int} (h : ¬ (-24 < c ∧ c ≤ 0)) : errorStr c = .text unexpected := by
  unfold errorStr
  rw [if_neg (by show ¬ (-(24 : Int) < c ∧ c ≤ 0); exact h)]
theorem errs_own : ∀ k j : Fin 24, j.val ≠ 3 → errs.getD k.val "" = errs.getD j.val "" → k = j := by decide +kernel
theorem errs_known : ∀ j : Fin 24, j.val ≠ 3 → unexpected ≠ errs.getD j.val "" := by decide +kernel

theorem code_fin {c : Int} (h : -24 < c ∧ c ≤ 0) : ∃ k : Fin 24, c = -(k.val : Int) :=
  ⟨⟨(-c).toNat, by omega⟩, by show c = -(((-c).toNat : Nat) : Int); omega⟩

/-- C93: whatever number is asked for, the answer is a text: nothing is read outside the arrays. -/
theorem C93_safe (c : Int) : (∃ s, errorStr c = .text s) ∧ (∃ s, domErrorStr c = .text s) := by
  have h1 : ∀ c, ∃ s, errorStr c = .text s := by
    intro c
    by_cases h : -24 < c ∧ c ≤ 0
    · obtain ⟨k, hk⟩ := code_fin h
      exact ⟨_, by rw [hk]; exact errorStr_in k⟩
    · exact ⟨_, errorStr_out h⟩
  refine ⟨h1 c, ?_⟩
  unfold domErrorStr
  split
  · exact h1 c
  · simp only
    split
    · rename_i h
      have h' : -(1 : Int) < c + 1000 ∧ c + 1000 ≤ 0 := h
      have : c + 1000 = 0 := by omega
      rw [this]; exact ⟨_, rfl⟩
    · exact ⟨_, rfl⟩

/-- C93: every code of the incremental parser has the text that says what it means. -/
theorem C93_meaning {code : Int} {text : String} (h : (code, text) ∈ meaning) : errorStr code = .text text ∧ domErrorStr code = .text text := by
  have key : ∀ e ∈ meaning, errorStr e.1 = .text e.2 ∧ domErrorStr e.1 = .text e.2 := by decide +kernel
  exact key _ h

/-- C93: no two codes share a text. -/
theorem C93_own {code : Int} {text : String} (h : (code, text) ∈ meaning) : Own errorStr code := by
  intro c hc
  have hj : ∀ e ∈ meaning, -24 < e.1 ∧ e.1 ≤ 0 ∧ e.1 ≠ -3 := by decide +kernel
  obtain ⟨a, b, d⟩ := hj _ h
  obtain ⟨j, hjj⟩ := code_fin (c := code) ⟨a, b⟩
  have h3 : j.val ≠ 3 := by intro g; apply d; show code = -3; rw [hjj, g]; rfl
  by_cases hr : -24 < c ∧ c ≤ 0
  · obtain ⟨k, hk⟩ := code_fin hr
    rw [hk, hjj, errorStr_in, errorStr_in] at hc
    have := errs_own k j h3 (by injection hc)
    rw [hk, hjj, this]
  · rw [errorStr_out hr, hjj, errorStr_in] at hc
    exact absurd (by injection hc) (errs_known j h3)

theorem own_meaning {e : Int} (h : e ∈ Sax.ownCodes) : ∃ t, (e, t) ∈ meaning := by
  have : ∀ e ∈ Sax.ownCodes, ∃ x ∈ meaning, x.1 = e := by decide +kernel
  obtain ⟨⟨_, t⟩, hx, rfl⟩ := this e h
  exact ⟨t, hx⟩

/-- C93: what a parse returns, on any text in any chunks under any limits, is a code with a text of its own, or one the caller's callback
returned. -/
theorem C93_parse {σ : Type} (cfg : Sax.Config) (cb : Sax.Callback σ) (u : σ) (chunks : List (List Byte)) :
    (∃ text, ((Sax.parse cfg cb u chunks).ret, text) ∈ meaning) ∨ (∃ w e v q, (Sax.parse cfg cb u chunks).ret = (cb w e v q).2.1) := by
  refine Sax.parse_err (P := fun r => (∃ text, (r, text) ∈ meaning) ∨ (∃ w e v q, r = (cb w e v q).2.1)) cfg cb
    (fun w e v q => .inr ⟨w, e, v, q, rfl⟩) (fun e he => .inl (own_meaning he)) u chunks (.inl ⟨"Success", by decide +kernel⟩)

theorem callback_code (strtod : List Byte → Option (BitVec 64)) (policy : Dom.DupKey) (ordered : Bool) (w : Dom.Out) (e : Sax.Event) (v q : Sax.Pos) :
    (Dom.callback strtod policy ordered w e v q).2.1 = 0 ∨ (Dom.callback strtod policy ordered w e v q).2.1 = -1 ∨
    (Dom.callback strtod policy ordered w e v q).2.1 = -2 ∨ (Dom.callback strtod policy ordered w e v q).2.1 = -1000 := by
  unfold Dom.callback
  cases w with
  | ok st =>
    simp only
    have hp : ∀ c, Dom.process strtod policy ordered st e = .err c → c = -1 ∨ c = -2 ∨ c = -1000 := by
      intro c hc
      unfold Dom.process at hc
      split at hc
      · exact absurd hc (by simp)
      · split at hc
        · exact absurd hc (by simp)
        · split at hc
          · unfold Dom.create at hc
            split at hc
            · exact absurd hc (by simp)
            · exact absurd hc (by simp)
            · exact absurd hc (by simp)
            · split at hc
              · exact absurd hc (by simp)
              · injection hc with g; omega
              · exact absurd hc (by simp)
            · exact absurd hc (by simp)
            · exact absurd hc (by simp)
            · exact absurd hc (by simp)
            · injection hc with g; omega
          · exact absurd hc (by simp)
          · injection hc with g; omega
          · exact absurd hc (by simp)
    cases hd : Dom.process strtod policy ordered st e with
    | ok st' => exact .inl rfl
    | err c =>
      rcases hp c hd with h | h | h <;> subst h
      · exact .inr (.inl rfl)
      · exact .inr (.inr (.inl rfl))
      · exact .inr (.inr (.inr rfl))
    | ub => exact .inr (.inl rfl)
  | err c => exact .inr (.inl rfl)
  | ub => exact .inr (.inl rfl)

/-- C93: what the value builder returns has a text of its own among its texts. -/
theorem C93_dom (strtod : List Byte → Option (BitVec 64)) (flags : BitVec 32) (cfg : Sax.Config) (chunks : List (List Byte)) :
    (∃ text, ((Dom.parse strtod flags cfg chunks).1, text) ∈ (-1000, "Duplicate key") :: meaning ∧
      domErrorStr (Dom.parse strtod flags cfg chunks).1 = .text text) ∧ Own domErrorStr (Dom.parse strtod flags cfg chunks).1 := by
  have hr : (Dom.parse strtod flags cfg chunks).1 = (Sax.parse cfg (Dom.callback strtod (Dom.dupKey flags) (Dom.maintainOrder flags)) (.ok {}) chunks).ret := by
    unfold Dom.parse; simp only; split <;> rfl
  have hm : (∃ text, ((Dom.parse strtod flags cfg chunks).1, text) ∈ meaning) ∨ (Dom.parse strtod flags cfg chunks).1 = -1000 := by
    rw [hr]
    rcases C93_parse cfg (Dom.callback strtod (Dom.dupKey flags) (Dom.maintainOrder flags)) (.ok {}) chunks with h | ⟨w, e, v, q, h⟩
    · exact .inl h
    · rw [h]
      rcases callback_code strtod (Dom.dupKey flags) (Dom.maintainOrder flags) w e v q with g | g | g | g <;> rw [g]
      · exact .inl ⟨"Success", by decide +kernel⟩
      · exact .inl ⟨"Internal error", by decide +kernel⟩
      · exact .inl ⟨"Out of memory", by decide +kernel⟩
      · exact .inr rfl
  have hsmall : ∀ c : Int, ¬ c > -1000 → c ≠ -1000 → domErrorStr c = .text domUnexpected := by
    intro c h1 h2
    unfold domErrorStr
    rw [if_neg h1]
    simp only
    rw [if_neg (by show ¬ (-(1 : Int) < c + 1000 ∧ c + 1000 ≤ 0); omega)]
  have hne : ∀ k : Fin 24, errs.getD k.val "" ≠ "Duplicate key" := by decide +kernel
  have hdup : ∀ c, c > -1000 → errorStr c ≠ .text "Duplicate key" := by
    intro c _ g
    by_cases h : -24 < c ∧ c ≤ 0
    · obtain ⟨k, hk⟩ := code_fin h
      rw [hk, errorStr_in] at g
      exact hne k (by injection g)
    · rw [errorStr_out h] at g
      exact absurd g (by decide +kernel)
  rcases hm with ⟨t, ht⟩ | h
  · refine ⟨⟨t, List.mem_cons_of_mem _ ht, (C93_meaning ht).2⟩, fun c hc => ?_⟩
    have h2 := (C93_meaning ht).2
    have h1 := (C93_meaning ht).1
    by_cases hb : c > -1000
    · refine C93_own ht c ?_
      rw [h1, ← h2, ← hc]
      unfold domErrorStr
      rw [if_pos hb]
    · have hall : ∀ e ∈ meaning, e.2 ≠ domUnexpected ∧ e.2 ≠ "Duplicate key" := by decide +kernel
      obtain ⟨a1, a2⟩ := hall _ ht
      rw [h2] at hc
      by_cases hk : c = -1000
      · rw [hk] at hc
        have : domErrorStr (-1000) = .text "Duplicate key" := by decide +kernel
        rw [this] at hc
        exact absurd (by injection hc with g; exact g.symm) a2
      · rw [hsmall c hb hk] at hc
        exact absurd (by injection hc with g; exact g.symm) a1
  · rw [h]
    have e0 : domErrorStr (-1000) = .text "Duplicate key" := by decide +kernel
    refine ⟨⟨"Duplicate key", List.mem_cons_self .., e0⟩, fun c hc => ?_⟩
    rw [e0] at hc
    by_cases hb : c > -1000
    · unfold domErrorStr at hc
      rw [if_pos hb] at hc
      exact absurd hc (hdup c hb)
    · by_cases hk : c = -1000
      · exact hk
      · rw [hsmall c hb hk] at hc
        exact absurd hc (by decide +kernel)

/-- C93: every event has its name, and no other number has it. -/
theorem C93_types (t : Sax.JType) : typeStr (typeNumber t) = typeName t ∧ Own typeStr (typeNumber t) := by
  have hout : ∀ c : Int, ¬ (0 ≤ c ∧ c < 10) → typeStr c = "Unexpected type" := by
    intro c h
    unfold typeStr
    repeat (first | rw [if_neg (by omega)])
  have hin : ∀ k : Fin 10, typeStr (k.val : Int) ≠ "Unexpected type" := by decide +kernel
  have hinj : ∀ k j : Fin 10, typeStr (k.val : Int) = typeStr (j.val : Int) → k = j := by decide +kernel
  have hj : ∃ j : Fin 10, typeNumber t = (j.val : Int) := by
    cases t
    · exact ⟨0, rfl⟩
    · exact ⟨1, rfl⟩
    · exact ⟨2, rfl⟩
    · exact ⟨3, rfl⟩
    · exact ⟨4, rfl⟩
    · exact ⟨5, rfl⟩
    · exact ⟨6, rfl⟩
    · exact ⟨7, rfl⟩
    · exact ⟨8, rfl⟩
    · exact ⟨9, rfl⟩
  refine ⟨by cases t <;> decide +kernel, fun c hc => ?_⟩
  obtain ⟨j, ej⟩ := hj
  rw [ej] at hc ⊢
  by_cases h : 0 ≤ c ∧ c < 10
  · have hk : c = ((⟨c.toNat, by omega⟩ : Fin 10).val : Int) := by show c = ((c.toNat : Nat) : Int); omega
    rw [hk] at hc ⊢
    rw [hinj _ _ hc]
  · rw [hout c h] at hc
    exact absurd hc.symm (hin j)

/-- C93, finding: the code for using a parser that was never started has no text. -/
theorem C93_not_inited : errorStr (-24) = .text "Unexpected error code" ∧ domErrorStr (-24) = .text "Unexpected error code" := by decide +kernel

/-- C93, finding: the loader asks the incremental parser's function for its texts (src/json/load_config.c:1905, 1923, 1948), which has none for
the value builder's own code, nor for what the loader's own callback returns. -/
theorem C93_loader_texts {c : Int} (h : c < -24) : errorStr c = .text "Unexpected error code" := errorStr_out (by omega)

example : errorStr (-2147483648) = .text "Unexpected error code" := C93_loader_texts (by omega)
example : (-16, "Exceeded max nesting level") ∈ meaning := by decide +kernel
example : (Dom.parse (fun _ => none) 0#32 Sax.defaults [[0x5b#8, 0x7d#8]]).1 = -5 := by decide +kernel

end WS.Props
