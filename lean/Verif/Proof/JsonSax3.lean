import Verif.Proof.JsonSax2
/-
A whole parse in terms of the one-byte machine: chunk boundaries do not matter.
-/
namespace WS.Sax
open WS
section
variable {σ : Type}

/-- Equal in everything a caller can still observe. -/
def Agree (p q : Parser σ) : Prop :=
  p = q ∨ (p.err < 0 ∧ q.err = p.err ∧ q.errPos = p.errPos ∧ q.user = p.user ∧ q.fault = p.fault)

theorem Same.agree {p q : Parser σ} (h : Same p q) : Agree p q := by
  rcases h with h | ⟨h1, h⟩
  · exact Or.inl h
  · refine Or.inr ⟨h1, ?_, ?_, ?_, ?_⟩ <;> rw [h]

theorem feeds_neg (cfg : Config) (cb : Callback σ) : ∀ (chunks : List (List Byte)) (p : Parser σ), p.err < 0 → Good cfg p →
    (chunks.foldl (feed cfg cb) p).err = p.err ∧ (chunks.foldl (feed cfg cb) p).errPos = p.errPos ∧
    (chunks.foldl (feed cfg cb) p).user = p.user ∧ Good cfg (chunks.foldl (feed cfg cb) p)
  | [], p, _, hg => ⟨rfl, rfl, rfl, hg⟩
  | c :: cs, p, he, hg => by
    obtain ⟨h1, h2, h3⟩ := feed_neg cfg cb p c he
    obtain ⟨i1, i2, i3, i4⟩ := feeds_neg cfg cb cs (feed cfg cb p c) (by rw [h1]; exact he) (feed_good cfg cb p c hg)
    exact ⟨i1.trans h1, i2.trans h2, i3.trans h3, i4⟩

theorem feeds_run (cfg : Config) (cb : Callback σ) : ∀ (chunks : List (List Byte)) (p : Parser σ), Good cfg p →
    (cfg.maxTotalLen = 0 ∨ p.pos.offset + chunks.flatten.length ≤ cfg.maxTotalLen) →
    Agree (run cfg cb p chunks.flatten) (chunks.foldl (feed cfg cb) p) ∧ Good cfg (chunks.foldl (feed cfg cb) p)
  | [], p, hg, _ => ⟨Or.inl rfl, hg⟩
  | c :: cs, p, hg, hl => by
    have hlc : (c :: cs).flatten.length = c.length + cs.flatten.length := by simp
    have hs := feed_run cfg cb p c hg (by omega)
    have hg2 := feed_good cfg cb p c hg
    have hr : run cfg cb p (c :: cs).flatten = run cfg cb (run cfg cb p c) cs.flatten := by
      rw [List.flatten_cons, run_append]
    rw [List.foldl_cons, hr]
    by_cases he : (run cfg cb p c).err < 0
    · rw [run_err cfg cb _ he]
      have he2 : (feed cfg cb p c).err < 0 := by rw [← hs.err_eq]; exact he
      obtain ⟨i1, i2, i3, i4⟩ := feeds_neg cfg cb cs (feed cfg cb p c) he2 hg2
      refine ⟨Or.inr ⟨he, ?_⟩, i4⟩
      have hgr := (run_good cfg cb c p hg).1
      rcases hs.agree with h | ⟨_, a1, a2, a3, a4⟩
      · rw [h]; exact ⟨i1, i2, i3, by rw [i4.fault, hg2.fault]⟩
      · exact ⟨i1.trans a1, i2.trans a2, i3.trans a3, by rw [i4.fault, hgr.fault]⟩
    · have heq : run cfg cb p c = feed cfg cb p c := by
        rcases hs with h | ⟨h, _⟩
        · exact h
        · exact absurd h he
      rw [heq]
      refine feeds_run cfg cb cs _ hg2 ?_
      have := (run_good cfg cb c p hg).2 (by omega)
      rw [← heq, this]
      omega

theorem fini_agree (cfg : Config) (cb : Callback σ) {p q : Parser σ} (h : Agree p q) :
    fini cfg cb p = fini cfg cb q := by
  rcases h with h | ⟨h1, h2, h3, h4, h5⟩
  · rw [h]
  · have e1 : flush cfg cb p = p := by unfold flush; rw [if_neg (by omega)]
    have e2 : flush cfg cb q = q := by unfold flush; rw [if_neg (by omega)]
    simp only [fini]
    rw [e1, e2, h2, h3, h4, h5, if_neg (by omega), if_neg (by omega)]

theorem parse_run (cfg : Config) (cb : Callback σ) (u : σ) (chunks : List (List Byte))
    (hl : cfg.maxTotalLen = 0 ∨ chunks.flatten.length ≤ cfg.maxTotalLen) :
    parse cfg cb u chunks = fini cfg cb (run cfg cb (init u) chunks.flatten) := by
  unfold parse
  have h := (feeds_run cfg cb chunks (init u) (init_good cfg u) (by
    show _ ∨ 0 + _ ≤ _
    omega)).1
  exact (fini_agree cfg cb h).symm

theorem feeds_good (cfg : Config) (cb : Callback σ) : ∀ (chunks : List (List Byte)) (p : Parser σ), Good cfg p →
    Good cfg (chunks.foldl (feed cfg cb) p)
  | [], _, hg => hg
  | c :: cs, p, hg => feeds_good cfg cb cs _ (feed_good cfg cb p c hg)

theorem feeds_over (cfg : Config) (cb : Callback σ) (h0 : cfg.maxTotalLen ≠ 0) :
    ∀ (chunks : List (List Byte)) (p : Parser σ), Good cfg p → p.pos.offset + chunks.flatten.length > cfg.maxTotalLen →
    p.pos.offset ≤ cfg.maxTotalLen →
    (chunks.foldl (feed cfg cb) p).err < 0
  | [], p, _, hl, hle => by simp at hl; omega
  | c :: cs, p, hg, hl, hle => by
    have hlc : (c :: cs).flatten.length = c.length + cs.flatten.length := by simp
    rw [List.foldl_cons]
    by_cases hc : p.pos.offset + c.length > cfg.maxTotalLen
    · have hn := feed_over cfg cb p c ⟨h0, hc⟩
      rw [(feeds_neg cfg cb cs _ hn (feed_good cfg cb p c hg)).1]
      exact hn
    · by_cases he : (feed cfg cb p c).err < 0
      · rw [(feeds_neg cfg cb cs _ he (feed_good cfg cb p c hg)).1]
        exact he
      · have hs := feed_run cfg cb p c hg (by omega)
        have heq : run cfg cb p c = feed cfg cb p c := by
          have hee := hs.err_eq
          rcases hs with h | ⟨h, _⟩
          · exact h
          · rw [hee] at h; exact absurd h he
        have := (run_good cfg cb c p hg).2 (by rw [heq]; omega)
        rw [heq] at this
        exact feeds_over cfg cb h0 cs _ (feed_good cfg cb p c hg) (by omega) (by omega)

/-! ### The end of the input -/

theorem flush_fault (cfg : Config) (cb : Callback σ) (p : Parser σ) (hg : Good cfg p) :
    (flush cfg cb p).fault = false := by
  have hf := hg.fault
  unfold flush
  split
  · rename_i he
    split
    · rename_i ha
      have hd : (dispatch cfg cb p [] true).1.fault = false := by
        unfold dispatch
        have hstr : ∀ t, (strAutomaton cfg cb t p [] true).1.fault = false := by
          intro t
          have hc : cut (strMax cfg t) p [] = [] := by unfold cut; split <;> simp
          have he : (strAutomaton cfg cb t p [] true).1 = raiseForValue (chkS cfg t p) errUnclosedString := by
            unfold strAutomaton
            rw [hc]
            rfl
          rw [he]
          refine (raiseAt_fault ..).trans ?_
          unfold chkS
          split
          · exact (raiseAt_fault ..).trans hf
          · exact hf
        have hlit : ∀ t lit, (litAutomaton cfg cb t lit p [] true).1.fault = false := by
          intro t lit
          simp only [litAutomaton, litLoop, List.drop_nil, if_true]
          rw [process_fault]; exact hf
        cases ha2 : p.auto with
        | main => exact absurd ha2 ha
        | null => exact hlit _ _
        | false => exact hlit _ _
        | true => exact hlit _ _
        | string => exact hstr _
        | key => exact hstr _
        | number =>
          simp only [numAutomaton]
          have hc : cut cfg.maxNumberLen p [] = [] := by unfold cut; split <;> simp
          rw [hc]
          simp only [numLoop, if_true]
          have h1 : ∀ q : Parser σ, q.fault = false →
              ((if cfg.maxNumberLen ≠ 0 ∧ q.pos.offset - q.vpos.offset > cfg.maxNumberLen then
                raiseForValue q errMaxNumberLen else q)).fault = false := by
            intro q hq
            split
            · exact (raiseAt_fault ..).trans hq
            · exact hq
          have h2 : ((if p.sub = 0 then { p with sub := 0x0003 } else p)).fault = false := by
            split <;> exact hf
          generalize (if p.sub = 0 then { p with sub := 0x0003 } else p) = q0 at h2 ⊢
          have h3 := h1 q0 h2
          generalize (if cfg.maxNumberLen ≠ 0 ∧ q0.pos.offset - q0.vpos.offset > cfg.maxNumberLen then
                raiseForValue q0 errMaxNumberLen else q0) = q1 at h3 ⊢
          split
          · rw [process_fault]; exact h3
          · exact (raiseAt_fault ..).trans h3
      simp only
      split
      · exact (raiseAt_fault ..).trans hd
      · exact hd
    · split
      · exact (raiseAt_fault ..).trans hf
      · exact hf
  · exact hf

end
end WS.Sax
