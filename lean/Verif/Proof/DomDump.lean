import Verif.Proof.JsonDom4
/-
Writing values: what the write function is given.
-/
namespace WS.Dom
open WS WS.Sax WS.Spec.Json WS.Spec.Dom WS.JNum WS.Props

/-! ### Pieces -/

/-- `a` writes the pieces in order and stops at the first failure. -/
def Emits {σ : Type} (w : Write σ) (a : Wr σ) (ps : List (List Byte)) : Prop :=
  ∀ u, (a u).1 = (writeAll w u ps).1 ∧ ((writeAll w u ps).2 < 0 → (a u).2 = (writeAll w u ps).2) ∧
    (0 ≤ (writeAll w u ps).2 → 0 ≤ (a u).2)

theorem writeAll_append {σ : Type} (w : Write σ) (a b : List (List Byte)) (u : σ) :
    writeAll w u (a ++ b) = if (writeAll w u a).2 < 0 then writeAll w u a else writeAll w (writeAll w u a).1 b := by
  induction a generalizing u with
  | nil => simp [writeAll]
  | cons x a ih =>
    simp only [List.cons_append, writeAll]
    by_cases h : (w u x).2 < 0
    · simp only [h, if_true]
    · simp only [h, if_false]
      exact ih _

theorem emits_seq {σ : Type} {w : Write σ} {a b : Wr σ} {p q : List (List Byte)} (ha : Emits w a p) (hb : Emits w b q) :
    Emits w (seq a b) (p ++ q) := by
  intro u
  obtain ⟨h1, h2, h3⟩ := ha u
  rw [writeAll_append]
  unfold seq
  by_cases h : (writeAll w u p).2 < 0
  · have := h2 h
    rw [if_pos (by rw [this]; exact h), if_pos h]
    exact ⟨h1, fun _ => this, fun h' => absurd h (by omega)⟩
  · have := h3 (by omega)
    rw [if_neg (by omega), if_neg h, h1]
    exact hb _

theorem emits_nop {σ : Type} {w : Write σ} : Emits w nop [] := fun u => ⟨rfl, fun h => absurd h (by simp [writeAll]), fun _ => Int.le_refl 0⟩

theorem emits_write {σ : Type} {w : Write σ} (b : List Byte) : Emits w (fun u => w u b) [b] := by
  intro u
  simp only [writeAll]
  by_cases h : (w u b).2 < 0
  · simp only [h, if_true]
    exact ⟨trivial, fun _ => trivial, fun h' => absurd h (by omega)⟩
  · simp only [h, if_false]
    exact ⟨trivial, fun h' => absurd h' (by decide), fun _ => by omega⟩

theorem emits_all {σ : Type} {w : Write σ} {a : Wr σ} {ps : List (List Byte)} (h : ∀ u, a u = writeAll w u ps) : Emits w a ps :=
  fun u => by rw [h]; exact ⟨rfl, fun _ => rfl, fun h => h⟩

/-! ### White space -/

theorem ws_append {a b : List Byte} (ha : Spec.Json.WS a) (hb : Spec.Json.WS b) : Spec.Json.WS (a ++ b) := by
  intro c hc
  rcases List.mem_append.1 hc with h | h
  · exact ha c h
  · exact hb c h

theorem newline_out (p : Params) : ∃ nl ps, ps.flatten = nl ∧ Spec.Json.WS nl ∧ ∀ {σ : Type} (w : Write σ), Emits w (dumpNewline w p) ps := by
  unfold dumpNewline
  by_cases h1 : p.minimize
  · refine ⟨[], [], rfl, ws_nil, fun w => ?_⟩
    simp only [h1, if_true]; exact emits_nop
  · by_cases h2 : p.crlf
    · refine ⟨[0x0d#8, 0x0a#8], [[0x0d#8, 0x0a#8]], rfl, ?_, fun w => ?_⟩
      · intro c hc
        simp only [List.mem_cons, List.not_mem_nil, or_false] at hc
        rcases hc with rfl | rfl
        · exact Or.inr (Or.inr (Or.inr (by decide)))
        · exact Or.inr (Or.inr (Or.inl (by decide)))
      · simp only [h1, h2, if_true, if_false]; exact emits_write _
    · refine ⟨[0x0a#8], [[0x0a#8]], rfl, ?_, fun w => ?_⟩
      · intro c hc
        rw [List.mem_singleton.1 hc]
        exact Or.inr (Or.inr (Or.inl (by decide)))
      · simp only [h1, h2, if_false]; exact emits_write _

theorem indentRuns_all (c : Byte) (run : Nat) : ∀ (fuel n : Nat), ∀ x ∈ (indentRuns c run n fuel).flatten, x = c
  | 0, _, x, h => by cases h
  | fuel + 1, n, x, h => by
    rw [indentRuns] at h
    split at h
    · cases h
    · rw [List.flatten_cons] at h
      rcases List.mem_append.1 h with h | h
      · exact (List.mem_replicate.1 h).2
      · exact indentRuns_all c run fuel _ x h

theorem emits_runs {σ : Type} {w : Write σ} : ∀ ps : List (List Byte), Emits w (ps.foldr (fun b k => seq (fun u => w u b) k) nop) ps
  | [] => emits_nop
  | p :: ps => emits_seq (emits_write p) (emits_runs ps)

theorem indent_out (p : Params) (level : Nat) : ∃ ind ps, ps.flatten = ind ∧ Spec.Json.WS ind ∧
    ∀ {σ : Type} (w : Write σ), Emits w (dumpIndent w p level) ps := by
  unfold dumpIndent
  by_cases h1 : p.minimize ∨ level = 0
  · refine ⟨[], [], rfl, ws_nil, fun w => ?_⟩
    simp only [h1, if_true]; exact emits_nop
  · refine ⟨_, indentRuns (if p.spaces then 0x20#8 else 0x09#8) (if p.spaces then 32 else 8)
      (if p.spaces then level * p.tabWidth % 4294967296 else level) (if p.spaces then level * p.tabWidth % 4294967296 else level), rfl, ?_, fun w => ?_⟩
    · intro c hc
      have := indentRuns_all _ _ _ _ c hc
      rw [this]
      split
      · exact Or.inl (by decide)
      · exact Or.inr (Or.inl (by decide))
    · simp only [h1, if_false]
      exact emits_runs _

theorem first_out (p : Params) (first : Bool) (level : Nat) : ∃ ind ps, ps.flatten = ind ∧ Spec.Json.WS ind ∧
    ∀ {σ : Type} (w : Write σ), Emits w (if first then dumpIndent w p level else nop) ps := by
  cases first
  · exact ⟨[], [], rfl, ws_nil, fun w => by simp only [Bool.false_eq_true, if_false]; exact emits_nop⟩
  · obtain ⟨i, ps, h1, h2, h3⟩ := indent_out p level
    exact ⟨i, ps, h1, h2, fun w => by simp only [if_true]; exact h3 w⟩

/-! ### Floating-point numbers -/

def numByte (c : Byte) : Prop := Digit c ∨ c = ch '-' ∨ c = ch '+' ∨ c = ch '.' ∨ c = ch 'e' ∨ c = ch 'E'

theorem intPart_digits {t : List Byte} (h : IntPart t) : ∀ c ∈ t, Digit c := by
  induction h with
  | zero => intro c hc; rw [List.mem_singleton.1 hc]; unfold Digit; decide
  | first h _ => intro c hc; rw [List.mem_singleton.1 hc]; exact h
  | next _ _ h ih =>
    intro c hc
    rcases List.mem_append.1 hc with hc | hc
    · exact ih c hc
    · rw [List.mem_singleton.1 hc]; exact h

theorem number_bytes {t : List Byte} (h : Number t) : ∀ c ∈ t, numByte c := by
  obtain ⟨sign, int, frac, exp, rfl, hs, hi, hf, he⟩ := h
  intro c hc
  simp only [List.mem_append] at hc
  rcases hc with ((hc | hc) | hc) | hc
  · rcases hs with rfl | rfl
    · cases hc
    · rw [List.mem_singleton.1 hc]; exact Or.inr (Or.inl rfl)
  · exact Or.inl (intPart_digits hi c hc)
  · rcases hf with rfl | ⟨ds, rfl, hd⟩
    · cases hc
    · rcases List.mem_cons.1 hc with rfl | hc
      · exact Or.inr (Or.inr (Or.inr (Or.inl rfl)))
      · exact Or.inl (hd.2 c hc)
  · rcases he with rfl | ⟨e, sg, ds, rfl, he, hsg, hd⟩
    · cases hc
    · simp only [List.cons_append, List.mem_cons, List.mem_append] at hc
      rcases hc with rfl | hc | hc
      · exact Or.inr (Or.inr (Or.inr (Or.inr he)))
      · rcases hsg with rfl | rfl | rfl
        · cases hc
        · rw [List.mem_singleton.1 hc]; exact Or.inr (Or.inr (Or.inl rfl))
        · rw [List.mem_singleton.1 hc]; exact Or.inr (Or.inl rfl)
      · exact Or.inl (hd.2 c hc)

theorem number_no_comma {t : List Byte} (h : Number t) : 0x2c#8 ∉ t := by
  intro hc
  have := number_bytes h _ hc
  unfold numByte Digit at this
  revert this
  decide

theorem number_point {t : List Byte} (h : Number t) (h1 : ch '.' ∉ t) (h2 : ch 'e' ∉ t) (h3 : ch 'E' ∉ t) : Number (t ++ [ch '.', ch '0']) := by
  obtain ⟨sign, int, frac, exp, rfl, hs, hi, hf, he⟩ := h
  rcases hf with rfl | ⟨ds, rfl, hd⟩
  · rcases he with rfl | ⟨e, sg, ds, rfl, he, hsg, hd⟩
    · refine ⟨sign, int, [ch '.', ch '0'], [], by simp, hs, hi, Or.inr ⟨[ch '0'], rfl, by simp, ?_⟩, Or.inl rfl⟩
      intro c hc
      rw [List.mem_singleton.1 hc]; unfold Digit; decide
    · rcases he with rfl | rfl
      · exact absurd (by simp) h2
      · exact absurd (by simp) h3
  · exact absurd (by simp) h1

theorem integer_digits {t : List Byte} {i : Int} (h : Integer t i) : ∀ c ∈ t, Digit c ∨ c = ch '-' := by
  obtain ⟨d, n, h1, _, h⟩ := h
  rcases h with ⟨rfl, _⟩ | ⟨rfl, _⟩
  · exact fun c hc => Or.inl (intPart_digits h1 c hc)
  · intro c hc
    rcases List.mem_cons.1 hc with rfl | hc
    · exact Or.inr rfl
    · exact Or.inl (intPart_digits h1 c hc)

theorem integer_no {t : List Byte} (h : ch '.' ∈ t ∨ ch 'e' ∈ t) (i : Int) : ¬ Integer t i := by
  intro hi
  rcases h with h | h
  · have := integer_digits hi _ h
    unfold Digit at this
    revert this; decide
  · have := integer_digits hi _ h
    unfold Digit at this
    revert this; decide

/-- The text of a floating-point number. -/
theorem dumpDouble_out {print : BitVec 64 → List Byte} {d : BitVec 64} (h : Number (print d)) (hE : ch 'E' ∉ print d)
    (hl : (print d).length ≤ 60) : ∃ t, dumpDouble print d = some t ∧ Number t ∧ (∀ i, ¬ Integer t i) ∧ t.length ≤ 62 ∧
      (t = print d ∨ t = print d ++ [ch '.', ch '0']) := by
  unfold dumpDouble
  simp only [show (print d).length < 62 by omega, if_true, number_no_comma h, if_false]
  by_cases h1 : 0x2e#8 ∈ print d
  · simp only [h1, if_true]
    exact ⟨_, rfl, h, integer_no (Or.inl h1), by omega, Or.inl rfl⟩
  · by_cases h2 : 0x65#8 ∈ print d
    · simp only [h1, h2, if_true, if_false]
      exact ⟨_, rfl, h, integer_no (Or.inr h2), by omega, Or.inl rfl⟩
    · simp only [h1, h2, if_false]
      refine ⟨_, rfl, number_point h h1 h2 hE, integer_no (Or.inl ?_), by simp; omega, Or.inr rfl⟩
      exact List.mem_append_right _ (List.mem_cons.2 (Or.inl rfl))

end WS.Dom
