import Verif.Proof.JsonAccept
/-
A string without escapes is accepted exactly when it is well-formed UTF-8.
-/
namespace WS.Sax
open WS WS.Spec.Json
section
variable {σ : Type}

theorem body_raw {b : List Byte} {s : List Nat} (h : Body b s) (hb : ch '\\' ∉ b) :
    (∀ n ∈ s, Scalar n) ∧ b = utf8s s := by
  induction h with
  | nil => exact ⟨fun n h => (by cases h), rfl⟩
  | @raw b s n _ h1 _ _ _ ih =>
    obtain ⟨g1, g2⟩ := ih (fun h => hb (List.mem_append_left _ h))
    refine ⟨fun m hm => ?_, by rw [utf8s_snoc, ← g2]⟩
    rcases List.mem_append.1 hm with hm | hm
    · exact g1 m hm
    · rw [List.mem_singleton.1 hm]; exact h1
  | esc => exact absurd (List.mem_append_right _ (List.mem_cons_self ..)) hb
  | uni => exact absurd (List.mem_append_right _ (List.mem_cons_self ..)) hb
  | pair => exact absurd (List.mem_append_right _ (List.mem_cons_self ..)) hb

theorem utf8_small {n : Nat} (h : n < 0x80) : utf8 n = [BitVec.ofNat 8 n] := by unfold utf8; rw [if_pos h]

theorem raw_body : ∀ (s : List Nat) (b0 : List Byte) (s0 : List Nat), Body b0 s0 → (∀ n ∈ s, Scalar n) →
    (∀ c ∈ utf8s s, 0x20 ≤ c.toNat ∧ c ≠ ch '"' ∧ c ≠ ch '\\') → Body (b0 ++ utf8s s) (s0 ++ s)
  | [], b0, s0, h, _, _ => by simpa [utf8s] using h
  | n :: s, b0, s0, h, hs, hb => by
    have e1 : utf8s (n :: s) = utf8 n ++ utf8s s := rfl
    rw [e1] at hb
    have hn : 0x20 ≤ n ∧ n ≠ 0x22 ∧ n ≠ 0x5c := by
      by_cases hlt : n < 0x80
      · rw [utf8_small hlt] at hb
        obtain ⟨h1, h2, h3⟩ := hb (BitVec.ofNat 8 n) (by simp)
        rw [toNat_byte n (by omega)] at h1
        refine ⟨h1, ?_, ?_⟩ <;> (intro g; subst g; first | exact h2 rfl | exact h3 rfl)
      · omega
    have := raw_body s (b0 ++ utf8 n) (s0 ++ [n]) (Body.raw h (hs n (List.mem_cons_self ..)) hn.1 hn.2.1 hn.2.2)
      (fun m hm => hs m (List.mem_cons_of_mem _ hm)) (fun c hc => hb c (List.mem_append_right _ hc))
    rw [e1]
    simpa using this

theorem run_err_nonneg (cfg : Config) (cb : Callback σ) : ∀ (l : List Byte) (p : Parser σ), 0 ≤ (run cfg cb p l).err → 0 ≤ p.err
  | [], _, h => h
  | c :: cs, p, h => by
    have h1 := run_err_nonneg cfg cb cs (step cfg cb p c) (by rw [← run_cons]; exact h)
    refine Classical.byContradiction (fun hc => ?_)
    unfold Sax.step at h1
    rw [if_pos (by omega)] at h1
    exact hc h1

/-- Bytes other than the quote keep the parser in the string. -/
theorem run_inside (cfg : Config) (hst : Strict cfg) (cb : Callback σ) : ∀ (bs b0 : List Byte) (p : Parser σ),
    p.auto = .string → Good cfg p → StrInv p.sub p.cp0 p.cp1 p.buf b0 → ch '"' ∉ bs → 0 ≤ (run cfg cb p bs).err →
    (run cfg cb p bs).auto = .string ∧ Good cfg (run cfg cb p bs) ∧
    StrInv (run cfg cb p bs).sub (run cfg cb p bs).cp0 (run cfg cb p bs).cp1 (run cfg cb p bs).buf (b0 ++ bs)
  | [], b0, p, ha, hg, hi, _, _ => by rw [List.append_nil]; exact ⟨ha, hg, hi⟩
  | c :: cs, b0, p, ha, hg, hi, hq, h => by
    rw [run_cons] at h ⊢
    have h1 := run_err_nonneg cfg cb cs _ h
    have hin : InStr .string p := Or.inl ⟨rfl, ha⟩
    have he : 0 ≤ p.err := run_err_nonneg cfg cb [c] p h1
    have hgs := (step_good cfg cb p c hg).1
    rcases str_step cfg hst cb .string p c b0 hin he ((hg.live he).str _ hin).2 hi h1 with
      ⟨q, k1, k2, k3, _⟩ | ⟨k1, _⟩
    · have := run_inside cfg hst cb cs (b0 ++ [c]) (step cfg cb p c) (by rw [k2]; exact k1.auto.trans ha) hgs
        (by rw [k2]; exact k3) (fun g => hq (List.mem_cons_of_mem _ g)) h
      rw [List.append_assoc] at this
      exact this
    · exact absurd (by rw [k1]; exact List.mem_cons_self ..) hq

theorem flush_string_neg (cfg : Config) (cb : Callback σ) (p : Parser σ) (h : p.auto = .string) (he : 0 ≤ p.err) :
    (flush cfg cb p).err < 0 := by
  have k := str_eof_neg cfg cb .string p
  have e : dispatch cfg cb p [] true = strAutomaton cfg cb .string p [] true := by unfold dispatch; rw [h]
  unfold flush
  rw [if_pos he, if_pos (by rw [h]; decide), e]
  simp only
  split
  · exact raiseAt_err_neg _ _ _ (by decide)
  · exact k

theorem raw_sound (cfg : Config) (hst : Strict cfg) (cb : Callback σ) (u : σ) (b : List Byte)
    (hb : ∀ c ∈ b, 0x20 ≤ c.toNat ∧ c ≠ ch '"' ∧ c ≠ ch '\\')
    (h : 0 ≤ (flush cfg cb (run cfg cb (init u) (ch '[' :: ch '"' :: b ++ [ch '"', ch ']']))).err) :
    ∃ s, Body b s := by
  have he : 0 ≤ (run cfg cb (init u) (ch '[' :: ch '"' :: b ++ [ch '"', ch ']'])).err := by
    refine Classical.byContradiction (fun hc => ?_)
    unfold flush at h
    rw [if_neg hc] at h
    exact hc h
  have e1 : (ch '[' :: ch '"' :: b ++ [ch '"', ch ']']) = [ch '[', ch '"'] ++ (b ++ [ch '"', ch ']']) := rfl
  rw [e1, run_append, run_append] at h he
  have h2 := run_err_nonneg cfg cb _ _ he
  have h3 := run_err_nonneg cfg cb _ _ h2
  have g2 : Good cfg (run cfg cb (init u) [ch '[', ch '"']) :=
    (run_good cfg cb _ _ (init_good cfg u)).1
  have h4 : 0 ≤ (step cfg cb (init u) (ch '[')).err := run_err_nonneg cfg cb [ch '"'] _ h3
  -- after the bracket
  have s1 : ∃ q : Parser σ, step cfg cb (init u) (ch '[') = q ∧ q.auto = .main ∧ q.state = { value := true, closer := true } ∧
      q.cp0 = 0 ∧ q.cp1 = 0 := by
    refine ⟨_, rfl, ?_⟩
    rw [step_main (Int.le_refl 0) rfl] at h4 ⊢
    have hn : ¬ (cfg.maxNesting ≠ 0 ∧ cfg.maxNesting ≤ (init u).nest.length) := by show ¬ (_ ∧ _ ≤ 0); omega
    have hm : mainChar cfg cb (init u) (ch '[') = .adv (process cfg cb { init u with nest := [0x5d#8] } .arrayBeg []) := by
      unfold mainChar
      rw [if_pos ⟨rfl, Or.inl rfl⟩, if_neg hn]
      rfl
    have e2 : mainByte cfg cb (init u) (ch '[') =
        handleNewLine (advance (process cfg cb { init u with nest := [0x5d#8] } .arrayBeg []) 1) (ch '[') := by
      unfold mainByte; rw [hm]
    rw [e2] at h4 ⊢
    obtain ⟨w1, w2, w3, w4, w5, w6, w7, w8, w9⟩ := handleNewLine_fields
      (advance (process cfg cb ({ init u with nest := [0x5d#8] } : Parser σ) .arrayBeg []) 1) (ch '[')
    obtain ⟨_, _, k3, k4⟩ := handleNewLine_more
      (advance (process cfg cb ({ init u with nest := [0x5d#8] } : Parser σ) .arrayBeg []) 1) (ch '[')
    rw [w1] at h4
    obtain ⟨f1, f2, f3, _⟩ := process_fields cfg cb { init u with nest := [0x5d#8] } .arrayBeg [] h4
    exact ⟨w5.trans (process_auto cfg cb _ _ _ h4), w6.trans (process_state cfg cb _ _ _ h4), k3.trans f2, k4.trans f3⟩
  obtain ⟨q, hq, q1, q2, q3, q4⟩ := s1
  have s2 : run cfg cb (init u) [ch '[', ch '"'] = advance (switchAutomaton q .string) 1 := by
    rw [run_cons, run_cons, hq]
    show step cfg cb q (ch '"') = _
    rw [step_main (by rw [← hq]; exact h4) q1]
    have hm : mainChar cfg cb q (ch '"') = .adv (switchAutomaton q .string) := by
      have : q.state.value = true := by rw [q2]
      show mainChar cfg cb q 0x22#8 = _
      simp [mainChar, this]
    have e2 : mainByte cfg cb q (ch '"') = handleNewLine (advance (switchAutomaton q .string) 1) (ch '"') := by
      unfold mainByte; rw [hm]
    rw [e2]
    unfold handleNewLine; rw [if_neg (by decide), if_neg (by decide)]
  rw [s2] at h he h2 g2
  have r := run_inside cfg hst cb b [] (advance (switchAutomaton q .string) 1) rfl g2
    (by show StrInv 0 q.cp0 q.cp1 [] []; rw [q3, q4]; exact StrInv.text Body.nil)
    (fun g => (hb _ g).2.1 rfl) h2
  rw [List.nil_append] at r
  generalize run cfg cb (advance (switchAutomaton q .string) 1) b = x at r h he h2
  obtain ⟨r1, r2, r3⟩ := r
  have hin : InStr .string x := Or.inl ⟨rfl, r1⟩
  rw [run_cons] at h he
  have h5 := run_err_nonneg cfg cb _ _ he
  rcases str_step cfg hst cb .string x (ch '"') b hin h2 ((r2.live h2).str _ hin).2 r3 h5 with
    ⟨y, k1, k2, k3, _⟩ | ⟨_, _, _, ⟨s, k, _⟩, _⟩
  · exfalso
    have y1 : (step cfg cb x (ch '"')).auto = .string := by rw [k2]; exact k1.auto.trans r1
    have r' := run_inside cfg hst cb [ch ']'] (b ++ [ch '"']) (step cfg cb x (ch '"')) y1 (step_good cfg cb _ _ r2).1
      (by rw [k2]; exact k3) (by decide) he
    have := flush_string_neg cfg cb _ r'.1 he
    omega
  · exact ⟨s, k⟩

end
end WS.Sax
