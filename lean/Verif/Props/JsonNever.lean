import Verif.Proof.JsonNever
import Verif.Props.JsonText
/-
C94: the parser's internal error.
-/
namespace WS.Props
open WS.Spec.JText

/-- C94: the internal error is never returned by a parse, on any text in any chunks under any limits, unless the caller's callback returned it;
nor is "out of memory" (the model's allocations succeed) or any number but success, the codes for faulty texts and the callback's. -/
theorem C94_parse {σ : Type} (cfg : Sax.Config) (cb : Sax.Callback σ) (u : σ) (chunks : List (List Byte)) :
    (Sax.parse cfg cb u chunks).ret = 0 ∨ (-23 ≤ (Sax.parse cfg cb u chunks).ret ∧ (Sax.parse cfg cb u chunks).ret ≤ -4) ∨
    (∃ w e v q, (Sax.parse cfg cb u chunks).ret = (cb w e v q).2.1) := by
  refine Sax.parse_text (P := fun r => r = 0 ∨ (-23 ≤ r ∧ r ≤ -4) ∨ (∃ w e v q, r = (cb w e v q).2.1)) cfg cb
    (fun w e v q => .inr (.inr ⟨w, e, v, q, rfl⟩)) (fun e he => .inr (.inl ?_)) u chunks (.inl rfl)
  have : ∀ e ∈ Sax.textCodes, -23 ≤ e ∧ e ≤ -4 := by decide
  exact this e he

/-- C94: so with a callback that does not return it, the internal error never comes out, -/
theorem C94_never {σ : Type} (cfg : Sax.Config) (cb : Sax.Callback σ) (hcb : ∀ w e v q, (cb w e v q).2.1 ≠ -1) (u : σ) (chunks : List (List Byte)) :
    (Sax.parse cfg cb u chunks).ret ≠ -1 := by
  rcases C94_parse cfg cb u chunks with h | h | ⟨w, e, v, q, h⟩
  · rw [h]; decide
  · omega
  · rw [h]; exact hcb w e v q

/-- C94: nor is it what any of the feeds on the way returns. -/
theorem C94_never_feed {σ : Type} (cfg : Sax.Config) (cb : Sax.Callback σ) (hcb : ∀ w e v q, (cb w e v q).2.1 ≠ -1) (u : σ) (chunks : List (List Byte)) :
    (chunks.foldl (Sax.feed cfg cb) (Sax.init u)).err ≠ -1 := by
  have hown : ∀ e, e ∈ Sax.textCodes → e ≠ -1 := by
    intro e he h
    rw [h] at he
    exact absurd he (by decide)
  have : ∀ (chunks : List (List Byte)) (p : Sax.Parser σ), Sax.Any (· ≠ -1) p → Sax.Any (· ≠ -1) (chunks.foldl (Sax.feed cfg cb) p) := by
    intro chunks
    induction chunks with
    | nil => exact fun p h => h
    | cons c cs ih => exact fun p h => ih _ (Sax.feed_any cfg cb hcb hown p c h)
  exact (this chunks _ ⟨by show (0 : Int) ≠ -1; decide, fun g => by rcases g with g | g <;> cases g⟩).err

/-- A callback that accepts everything but null. -/
def noNull : Sax.Callback Nat := fun n e _ _ => (n + 1, if e.type = .null then 7 - 1000 else 0, none)
example : ∀ w e v q, (noNull w e v q).2.1 ≠ -1 := by
  intro w e v q
  unfold noNull
  simp only
  split <;> decide
example : (Sax.parse Sax.defaults noNull 0 [[0x5b#8, 0x22#8, 0x5c#8], [0x75#8, 0x64#8, 0x38#8, 0x30#8, 0x30#8, 0x5c#8, 0x78#8]]).ret = -23 := by decide +kernel
example : (Sax.parse Sax.defaults noNull 0 [[0x5b#8, 0x6e#8], [0x75#8, 0x6c#8, 0x6c#8, 0x5d#8]]).ret = -993 := by decide +kernel

end WS.Props
