import Verif.Proof.JsonComplete2
import Verif.Proof.JsonSax3
/-
Whole texts: what is accepted is a document, and documents are accepted.
-/
namespace WS.Sax
open WS WS.Spec.Json
section
variable {σ : Type}

theorem atMain_init (cfg : Config) (cb : Callback σ) (u0 : σ) : AtMain cfg cb u0 [] { value := true } [] (init u0) :=
  ⟨Int.le_refl 0, rfl, rfl, rfl, rfl, rfl, .nil, rfl, ⟨by unfold Within count; simp, fun e h => by cases h⟩, fun h => absurd rfl h⟩

theorem Settles.flush {cfg : Config} {cb : Callback σ} {r q : Parser σ} (h : Settles cfg cb r q) (hq : Sax.flush cfg cb q = q) :
    Sax.flush cfg cb r = q := by
  rcases h with h | h
  · rw [h]; exact hq
  · exact h.2.2.2

theorem run_complete (cfg : Config) (hst : Strict cfg) (cb : Callback σ) (u0 : σ)
    {text : List Byte} {evs : List Event}
    (hcb : ∀ pre e suf, evs = pre ++ e :: suf → ∀ u, Calls cb u0 pre u → ∀ v q, 0 ≤ (cb u e v q).2.1)
    (h : Document cfg text evs) :
    ∃ q, flush cfg cb (run cfg cb (init u0) text) = q ∧ AtMain cfg cb u0 [] { eof := true } evs q := by
  obtain ⟨⟨w1, t, w2, he, hw1, hw2, hv⟩, _, hc, hr⟩ := h
  have h1 := (atMain_init cfg cb u0).ws hw1
  have h2 := value_complete cfg hst cb u0 hv [] _ [] _ h1 rfl rfl ⟨⟨hc, hr⟩, hcb⟩
  obtain ⟨q, hs, hq⟩ := h2.ws hw2
  refine ⟨q, ?_, hq⟩
  rw [he, run_append, run_append]
  refine hs.flush ?_
  unfold flush
  rw [if_pos hq.err, if_neg (by rw [hq.auto]; simp), if_neg]
  rw [hq.nest, hq.state]
  rintro (g | g)
  · exact g rfl
  · cases g

theorem parse_complete' (cfg : Config) (hst : Strict cfg) (cb : Callback σ) (u : σ) (chunks : List (List Byte)) {evs : List Event}
    (hcb : ∀ pre e suf, evs = pre ++ e :: suf → ∀ u', Calls cb u pre u' → ∀ v q, 0 ≤ (cb u' e v q).2.1)
    (h : Document cfg chunks.flatten evs) :
    0 ≤ (parse cfg cb u chunks).ret ∧ Calls cb u evs (parse cfg cb u chunks).user := by
  obtain ⟨q, hq, hA⟩ := run_complete cfg hst cb u hcb h
  rw [parse_run cfg cb u chunks h.2.1]
  unfold fini
  simp only [hq]
  exact ⟨hA.err, hA.trace.calls⟩

theorem parse_complete (cfg : Config) (hst : Strict cfg) (cb : Callback σ) (u : σ) (hcb : ∀ u e v q, 0 ≤ (cb u e v q).2.1)
    (chunks : List (List Byte)) {evs : List Event} (h : Document cfg chunks.flatten evs) :
    0 ≤ (parse cfg cb u chunks).ret ∧ Calls cb u evs (parse cfg cb u chunks).user :=
  parse_complete' cfg hst cb u chunks (fun _ _ _ _ _ _ _ _ => hcb _ _ _ _) h

theorem litPrefix_letter {ty : JType} {lit : List Byte} {p : Parser σ} (h : InLit ty lit p) :
    ∀ c ∈ lit, ch 'a' ≤ c ∧ c ≤ ch 'z' := by
  rcases h with ⟨_, h, _⟩ | ⟨_, h, _⟩ | ⟨_, h, _⟩ <;> (rw [h]; decide)

theorem str_eof_neg (cfg : Config) (cb : Callback σ) (t : JType) (p : Parser σ) :
    (strAutomaton cfg cb t p [] true).1.err < 0 := by
  unfold strAutomaton
  simp only [if_true]
  exact raiseAt_err_neg _ _ _ (by decide)

theorem num_eof_neg (cfg : Config) (cb : Callback σ) (p : Parser σ) (h : p.sub.testBit 12 = false) :
    (numAutomaton cfg cb p [] true).1.err < 0 := by
  have hcut : cut cfg.maxNumberLen p [] = [] := by unfold cut; split <;> simp
  have hsub : ∀ q : Parser σ, (raiseForValue q errMaxNumberLen).sub = q.sub := by
    intro q; unfold raiseForValue raiseAt; split <;> rfl
  unfold numAutomaton
  rw [hcut]
  simp only [numLoop, if_true]
  rw [if_neg]
  · exact raiseAt_err_neg _ _ _ (by decide)
  · intro g
    have g2 := g.2
    have : ∀ q : Parser σ, (if cfg.maxNumberLen ≠ 0 ∧ q.pos.offset - q.vpos.offset > cfg.maxNumberLen then
        raiseForValue q errMaxNumberLen else q).sub = q.sub := by
      intro q; split
      · exact hsub q
      · rfl
    rw [this] at g2
    by_cases h0 : p.sub = 0
    · rw [if_pos h0] at g2; exact absurd g2 (by show ¬ Nat.testBit 3 12 = true; decide)
    · rw [if_neg h0, h] at g2; cases g2

/-- Nothing but a document is accepted, unless the text ends in a letter or digit. -/
theorem run_sound (cfg : Config) (hst : Strict cfg) (cb : Callback σ) (u0 : σ) (text : List Byte)
    (hend : ¬ EndsInWord text) (hlen : Within cfg.maxTotalLen text.length)
    (h : 0 ≤ (flush cfg cb (run cfg cb (init u0) text)).err) :
    ∃ evs, Document cfg text evs ∧ Calls cb u0 evs (flush cfg cb (run cfg cb (init u0) text)).user := by
  have hI := run_inv cfg hst cb u0 text [] (init u0) (init_good cfg u0) (inv_init cfg cb u0)
  rw [List.nil_append] at hI
  generalize run cfg cb (init u0) text = p at h hI ⊢
  have he : 0 ≤ p.err := by
    refine Classical.byContradiction (fun hc => ?_)
    unfold flush at h
    rw [if_neg hc] at h
    exact hc h
  obtain ⟨evs, ht, hs⟩ := hI he
  have sub : p.auto ≠ .main → 0 ≤ (dispatch cfg cb p [] true).1.err := by
    intro ha
    refine Classical.byContradiction (fun hc => ?_)
    unfold flush at h
    rw [if_pos he, if_pos ha] at h
    simp only at h
    split at h
    · exact absurd h (by
        have := fun q : Parser σ => raiseAt_err_neg q errSyntax q.pos (by decide)
        exact Int.not_le.2 (this _))
    · exact hc h
  cases hs with
  | main ha h0 h1 hm =>
    have hf : ¬ (p.nest.length ≠ 0 ∨ p.state.eof = false) := by
      intro g
      unfold flush at h
      rw [if_pos he, if_neg (by rw [ha]; simp), if_pos g] at h
      have := raiseAt_err_neg p (unexpectedCode p.state) p.pos (by
        unfold unexpectedCode; repeat' split
        all_goals decide)
      have h' : 0 ≤ (raiseAt p (unexpectedCode p.state) p.pos).err := h
      omega
    have e1 : flush cfg cb p = p := by
      unfold flush; rw [if_pos he, if_neg (by rw [ha]; simp), if_neg hf]
    rw [e1]
    have heof : p.state.eof = true := by
      cases hq : p.state.eof with
      | true => rfl
      | false => exact absurd (Or.inr hq) hf
    obtain ⟨hn, hA⟩ := hm.eof heof
    rw [hn] at hA
    refine ⟨evs, ⟨?_, hlen, ht.okay.1, ht.okay.2⟩, ht.calls⟩
    generalize hnil : ([] : List Byte) = n at hA
    cases hA with
    | root k1 k2 k3 => exact ⟨_, _, _, rfl, k1, k3, k2⟩
    | arr => cases hnil
    | obj => cases hnil
  | string t0 b ha _ _ _ _ =>
    exfalso
    have := sub (by rw [ha]; decide)
    unfold dispatch at this
    rw [ha] at this
    have k := str_eof_neg cfg cb .string p
    simp only at this
    omega
  | key ns t0 b ha _ _ _ _ _ =>
    exfalso
    have := sub (by rw [ha]; decide)
    unfold dispatch at this
    rw [ha] at this
    have k := str_eof_neg cfg cb .key p
    simp only at this
    omega
  | number t0 t ha hB htx hN hne hbuf hpos h0 h1 =>
    exfalso
    have := sub (by rw [ha]; decide)
    unfold dispatch at this
    rw [ha] at this
    simp only at this
    cases hb : p.sub.testBit 12 with
    | true =>
      obtain ⟨t', c, g1, g2⟩ := numPart_last hN hb
      exact hend ⟨t0 ++ t', c, by rw [htx, g1, List.append_assoc], Or.inl g2⟩
    | false =>
      have := num_eof_neg cfg cb p hb
      omega
  | lit ty lit t0 t hin hB htx hne htk hle h0 h1 =>
    exfalso
    have hl := litPrefix_letter hin
    have hc := List.dropLast_concat_getLast hne
    refine hend ⟨t0 ++ t.dropLast, t.getLast hne, by rw [htx, List.append_assoc, hc], Or.inr (Or.inl ?_)⟩
    refine hl _ (List.mem_of_mem_take (i := p.sub) ?_)
    rw [← htk]
    exact List.getLast_mem hne

theorem parse_sound (cfg : Config) (hst : Strict cfg) (cb : Callback σ) (u : σ) (chunks : List (List Byte))
    (hend : ¬ EndsInWord chunks.flatten) (h : 0 ≤ (parse cfg cb u chunks).ret) :
    ∃ evs, Document cfg chunks.flatten evs ∧ Calls cb u evs (parse cfg cb u chunks).user := by
  have hlen : Within cfg.maxTotalLen chunks.flatten.length := by
    refine Classical.byContradiction (fun hc => ?_)
    unfold Within at hc
    have := feeds_over cfg cb (by omega) chunks (init u) (init_good cfg u) (by show 0 + _ > _; omega) (Nat.zero_le _)
    unfold parse fini at h
    simp only at h
    unfold flush at h
    rw [if_neg (by omega)] at h
    omega
  rw [parse_run cfg cb u chunks hlen] at h ⊢
  exact run_sound cfg hst cb u _ hend hlen h

end
end WS.Sax
