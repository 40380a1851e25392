import Verif.Spec.JsonCut
import Verif.Proof.JsonAccept
/-
The parser accepts exactly JSON texts and texts cut off in or after their last number or literal.
-/
namespace WS.Sax
open WS WS.Spec.Json
section
variable {σ : Type}

/-! ### Open texts -/

mutual
theorem open_of_before {cfg : Config} {n t : List Byte} {e : List Event} : Before cfg n t e → Open cfg n.length t e
  | .root h => .root h
  | .first h1 h2 h3 => by
    have := Open.first (open_of_before h1) h2 h3
    simpa [List.append_assoc] using this
  | .next h1 h2 h3 h4 => by
    have := Open.next (open_of_before h1) h2 h3 h4
    simpa [List.append_assoc] using this
  | .colon h1 h2 => open_of_keyed h1 h2
theorem open_of_keyed {cfg : Config} {n t w : List Byte} {e : List Event} : Keyed cfg n t e → Spec.Json.WS w →
    Open cfg (0x7d#8 :: n).length (t ++ ch ':' :: w) e
  | .mk (.first b1 b2 b3) k2 k3 k4, hw => by
    have := Open.firstMember (open_of_before b1) b2 b3 k2 k3 k4 hw
    simpa [List.append_assoc] using this
  | .mk (.next b1 b2 b3 b4) k2 k3 k4, hw => by
    have := Open.nextMember (open_of_before b1) b2 b3 b4 k2 k3 k4 hw
    simpa [List.append_assoc] using this
end

theorem before_of_open {cfg : Config} {d : Nat} {t : List Byte} {e : List Event} (h : Open cfg d t e) :
    ∃ n, n.length = d ∧ Before cfg n t e := by
  induction h with
  | root h => exact ⟨[], rfl, .root h⟩
  | first _ h2 h3 ih =>
    obtain ⟨n, hn, hb⟩ := ih
    refine ⟨0x5d#8 :: n, by simp [hn], ?_⟩
    have := Before.first hb (by rw [hn]; exact h2) h3
    simpa [List.append_assoc] using this
  | next _ h2 h3 h4 ih =>
    obtain ⟨n, hn, hb⟩ := ih
    refine ⟨0x5d#8 :: n, by simp [hn], ?_⟩
    have := Before.next hb (by rw [hn]; exact h2) (by rw [hn]; exact h3) h4
    simpa [List.append_assoc] using this
  | firstMember _ h2 h3 h4 h5 h6 h7 ih =>
    obtain ⟨n, hn, hb⟩ := ih
    refine ⟨0x7d#8 :: n, by simp [hn], ?_⟩
    have := Before.colon (Keyed.mk (BeforeKey.first hb (by rw [hn]; exact h2) h3) h4 h5 h6) h7
    simpa [List.append_assoc] using this
  | nextMember _ h2 h3 h4 h5 h6 h7 h8 ih =>
    obtain ⟨n, hn, hb⟩ := ih
    refine ⟨0x7d#8 :: n, by simp [hn], ?_⟩
    have := Before.colon (Keyed.mk (BeforeKey.next hb (by rw [hn]; exact h2) (by rw [hn]; exact h3) h4) h5 h6 h7) h8
    simpa [List.append_assoc] using this

/-! ### Soundness -/

theorem lastToken_lit {cfg : Config} {ty : JType} {lit t : List Byte} {p : Parser σ} (h : InLit ty lit p) (hne : t ≠ [])
    (ht : t <+: lit) : LastToken cfg t ⟨ty, []⟩ := by
  rcases h with ⟨h1, h2, _⟩ | ⟨h1, h2, _⟩ | ⟨h1, h2, _⟩ <;> rw [h1] <;> rw [h2] at ht
  · exact .null hne (by rw [word_null]; exact ht)
  · exact .false hne (by rw [word_false]; exact ht)
  · exact .true hne (by rw [word_true]; exact ht)

theorem flush_sub {cfg : Config} {cb : Callback σ} {p q : Parser σ} {n : Nat} (he : 0 ≤ p.err) (ha : p.auto ≠ .main)
    (hd : dispatch cfg cb p [] true = (q, n)) (h : 0 ≤ (flush cfg cb p).err) :
    0 ≤ q.err ∧ q.auto = .main ∧ (flush cfg cb p).user = q.user := by
  unfold flush at h ⊢
  rw [if_pos he, if_pos ha, hd] at h ⊢
  simp only at h ⊢
  split at h
  · exact absurd h (Int.not_le.2 (raiseAt_err_neg _ _ _ (by decide)))
  · rename_i hm
    rw [if_neg hm]
    exact ⟨h, Classical.not_not.1 hm, rfl⟩

theorem num_eof_long (cfg : Config) (cb : Callback σ) (p : Parser σ) (hs0 : p.sub ≠ 0)
    (h : cfg.maxNumberLen ≠ 0 ∧ p.pos.offset - p.vpos.offset > cfg.maxNumberLen) :
    (numAutomaton cfg cb p [] true).1.err < 0 := by
  have hcut : cut cfg.maxNumberLen p [] = [] := by unfold cut; split <;> simp
  have k := raiseAt_err_neg p errMaxNumberLen p.vpos (by decide)
  unfold numAutomaton
  rw [hcut]
  simp only [if_neg hs0, numLoop, if_pos h]
  have k' : (raiseForValue p errMaxNumberLen).err < 0 := k
  simp only [if_true]
  rw [if_neg (by omega)]
  exact raiseAt_err_neg _ _ _ (by decide)

theorem run_lit_part (cfg : Config) (cb : Callback σ) (t : JType) (lit : List Byte) :
    ∀ (n : Nat) (p : Parser σ), InLit t lit p → 0 ≤ p.err → p.sub + n ≤ lit.length →
    ∃ pos, run cfg cb p ((lit.drop p.sub).take n) = { p with sub := p.sub + n, pos := pos }
  | 0, p, hi, he, hn => ⟨p.pos, by rw [List.take_zero]; rfl⟩
  | n + 1, p, hi, he, hn => by
    have hlt : p.sub < lit.length := by omega
    rw [List.drop_eq_getElem_cons hlt, List.take_succ_cons, run_cons]
    have hb : litByte cfg cb t lit p lit[p.sub] = ({ advance p 1 with sub := p.sub + 1 }, true) := by
      unfold litByte; rw [List.getElem?_eq_getElem hlt]; simp only; rw [if_neg (by simp)]
    rw [step_lit cfg cb t lit p _ hi he, hb, if_pos (Or.inl rfl)]
    obtain ⟨pos, h⟩ := run_lit_part cfg cb t lit n { advance p 1 with sub := p.sub + 1 } (hi.keep rfl) he (by show p.sub + 1 + n ≤ _; omega)
    refine ⟨pos, h.trans ?_⟩
    show _ = _
    have : p.sub + (n + 1) = p.sub + 1 + n := by omega
    rw [this]
    rfl

/-- What is accepted. -/
theorem run_sound' (cfg : Config) (hst : Strict cfg) (cb : Callback σ) (u0 : σ) (text : List Byte)
    (hlen : Within cfg.maxTotalLen text.length)
    (h : 0 ≤ (flush cfg cb (run cfg cb (init u0) text)).err) :
    ∃ evs, (Document cfg text evs ∨ CutOff cfg text evs) ∧ Calls cb u0 evs (flush cfg cb (run cfg cb (init u0) text)).user := by
  have hI := run_inv cfg hst cb u0 text [] (init u0) (init_good cfg u0) (inv_init cfg cb u0)
  have hG := run_good cfg cb text (init u0) (init_good cfg u0)
  rw [List.nil_append] at hI
  generalize hp : run cfg cb (init u0) text = p at h hI hG ⊢
  have he : 0 ≤ p.err := by
    refine Classical.byContradiction (fun hc => ?_)
    unfold flush at h
    rw [if_neg hc] at h
    exact hc h
  obtain ⟨evs, ht, hs⟩ := hI he
  have mk : ∀ {t0 tok : List Byte} {ev : Event} {q : Parser σ}, Before cfg p.nest t0 evs → text = t0 ++ tok → LastToken cfg tok ev →
      dispatch cfg cb p [] true = (process cfg cb q ev.type ev.data, 0) → Trace cfg cb u0 evs q → p.auto ≠ .main →
      ev.type ≠ .arrayEnd ∧ ev.type ≠ .objectEnd →
      ∃ evs, (Document cfg text evs ∨ CutOff cfg text evs) ∧ Calls cb u0 evs (flush cfg cb p).user := by
    intro t0 tok ev q hB htx htok hd htr ha hne
    obtain ⟨h1, h2, h3⟩ := flush_sub he ha hd h
    have htr' := process_trace cfg cb u0 evs q ev.type ev.data htr
      (fun g => by rcases g with g | g; exact absurd g hne.1; exact absurd g hne.2) h1
    refine ⟨evs ++ [ev], Or.inr ⟨⟨_, t0, tok, evs, ev, htx, open_of_before hB, htok, rfl⟩, hlen, htr'.okay.1, htr'.okay.2⟩, ?_⟩
    rw [h3]
    exact htr'.calls
  cases hs with
  | main ha h0 h1 hm =>
    have hf : ¬ (p.nest.length ≠ 0 ∨ p.state.eof = false) := by
      intro g
      unfold flush at h
      rw [if_pos he, if_neg (by rw [ha]; simp), if_pos g] at h
      have := raiseAt_err_neg p (unexpectedCode p.state) p.pos (by
        unfold unexpectedCode; repeat' split
        all_goals decide)
      have h' : 0 ≤ (raiseAt p (unexpectedCode p.state) p.pos).err := h
      omega
    have e1 : flush cfg cb p = p := by
      unfold flush; rw [if_pos he, if_neg (by rw [ha]; simp), if_neg hf]
    rw [e1]
    have heof : p.state.eof = true := by
      cases hq : p.state.eof with
      | true => rfl
      | false => exact absurd (Or.inr hq) hf
    obtain ⟨hn, hA⟩ := hm.eof heof
    rw [hn] at hA
    refine ⟨evs, Or.inl ⟨?_, hlen, ht.okay.1, ht.okay.2⟩, ht.calls⟩
    generalize hnil : ([] : List Byte) = n at hA
    cases hA with
    | root k1 k2 k3 => exact ⟨_, _, _, rfl, k1, k3, k2⟩
    | arr => cases hnil
    | obj => cases hnil
  | string t0 b ha _ _ _ _ =>
    exfalso
    have hx : p.auto ≠ .main := by rw [ha]; decide
    have := (flush_sub he hx rfl h).1
    unfold dispatch at this
    rw [ha] at this
    have k := str_eof_neg cfg cb .string p
    simp only at this
    omega
  | key ns t0 b ha _ _ _ _ _ =>
    exfalso
    have hx : p.auto ≠ .main := by rw [ha]; decide
    have := (flush_sub he hx rfl h).1
    unfold dispatch at this
    rw [ha] at this
    have k := str_eof_neg cfg cb .key p
    simp only at this
    omega
  | number t0 t ha hB htx hN hne hbuf hpos h0 h1 =>
    have hx : p.auto ≠ .main := by rw [ha]; decide
    have hd : dispatch cfg cb p [] true = numAutomaton cfg cb p [] true := by unfold dispatch; rw [ha]
    have hk : 0 ≤ (numAutomaton cfg cb p [] true).1.err :=
      (flush_sub (q := (numAutomaton cfg cb p [] true).1) (n := (numAutomaton cfg cb p [] true).2) he hx hd h).1
    have hb : p.sub.testBit 12 = true := by
      cases hb : p.sub.testBit 12 with
      | true => rfl
      | false => have := num_eof_neg cfg cb p hb; omega
    have hs0 : p.sub ≠ 0 := by intro g; rw [g] at hb; exact absurd hb (by decide)
    have hl : ¬ (cfg.maxNumberLen ≠ 0 ∧ p.pos.offset - p.vpos.offset > cfg.maxNumberLen) := by
      intro hl
      have := num_eof_long cfg cb p hs0 hl
      omega
    have hw : Within cfg.maxNumberLen t.length := by unfold Within; omega
    exact mk (ev := ⟨.number, t⟩) (q := p) hB htx (.number (numPart_done hN hb) hw)
      (by rw [hd, numAutomaton_eof cfg cb p hs0 hb he hl, hbuf]) ht hx ⟨by simp, by simp⟩
  | lit ty lit t0 t hin hB htx hne htk hle h0 h1 =>
    have hx : p.auto ≠ .main := by
      rcases hin with ⟨_, _, h⟩ | ⟨_, _, h⟩ | ⟨_, _, h⟩ <;> (rw [h]; decide)
    have hd : dispatch cfg cb p [] true = (process cfg cb p ty [], 0) := by
      have hd : litAutomaton cfg cb ty lit p [] true = (process cfg cb p ty [], 0) := by
        unfold litAutomaton litLoop
        simp
      rw [← hd]
      rcases hin with ⟨h1, h2, h3⟩ | ⟨h1, h2, h3⟩ | ⟨h1, h2, h3⟩ <;> (unfold dispatch; rw [h3, h1, h2])
    obtain ⟨n1, n2, _⟩ := (value_lit (cfg := cfg) (d := 0) hin).2
    exact mk (ev := ⟨ty, []⟩) (q := p) hB htx (lastToken_lit hin hne (by rw [htk]; exact List.take_prefix _ _)) hd ht hx ⟨n1, n2⟩

/-! ### Completeness -/

theorem flush_process (cfg : Config) (cb : Callback σ) (r : Parser σ) (t : JType) (d : List Byte) (he : 0 ≤ r.err)
    (ha : r.auto ≠ .main) (hx : 0 ≤ (process cfg cb r t d).err) (h2 : dispatch cfg cb r [] true = (process cfg cb r t d, 0)) :
    flush cfg cb r = process cfg cb r t d := by
  unfold flush
  rw [if_pos he, if_pos ha, h2]
  simp only [Nat.add_zero]
  rw [if_neg (by rw [process_auto cfg cb r t d hx]; simp)]

theorem number_auto (cfg : Config) (cb : Callback σ) (u0 : σ) {t : List Byte} (hn : Number t) (hw : Within cfg.maxNumberLen t.length)
    {nest : List Byte} {bits : Bits} {e0 : List Event} {p : Parser σ} (h : AtMain cfg cb u0 nest bits e0 p) (hv : bits.value = true) :
    (run cfg cb p t).auto = .number := by
  obtain ⟨s, hs, hs12⟩ := numFold_number hn
  have hne : t ≠ [] := by
    intro g
    rw [g] at hs
    injection hs with hs
    rw [← hs] at hs12
    exact absurd hs12 (by decide)
  have hr := run_num cfg cb t (switchAutomaton p .number) s rfl h.err hs hne (Nat.le_refl _)
    (by show _ ∨ p.pos.offset + t.length - p.pos.offset ≤ _; unfold Within at hw; omega)
  have e1 : run cfg cb p t = { append (advance (switchAutomaton p .number) t.length) t with sub := s } := by
    rw [← hr]
    cases t with
    | nil => exact absurd rfl hne
    | cons c cs =>
      have hc : ∃ k, numChar 3 c = .next k := by
        simp only [numFold] at hs
        cases hk : numChar 3 c with
        | next k => exact ⟨k, rfl⟩
        | finish => rw [hk] at hs; cases hs
        | bad => rw [hk] at hs; cases hs
      obtain ⟨k, hk⟩ := hc
      have hst := numChar_start (c := c) (by rw [hk]; constructor <;> simp)
      rw [run_cons, run_cons, step_again h.err h.auto (mainChar_num cfg cb p c (by rw [h.state]; exact hv) hst) h.err
        (by show Automaton.number ≠ .main; decide)
        (by
          show (numByte cfg cb (switchAutomaton p .number) c).2 = true
          unfold numByte
          have : (numFix (switchAutomaton p .number)).sub = 3 := rfl
          rw [this, hk])]
  rw [e1]
  rfl

/-- The key of a member and the colon. -/
theorem key_colon (cfg : Config) (hst : Strict cfg) (cb : Callback σ) (u0 : σ) {ns : List Byte} {bits : Bits} {e0 : List Event}
    {p : Parser σ} {w1 b w2 : List Byte} {s : List Nat} (h : AtMain cfg cb u0 (0x7d#8 :: ns) bits e0 p) (hbk : bits.key = true)
    (hbv : bits.value = false) (h1 : Spec.Json.WS w1) (hb : Body b s) (hk : Within cfg.maxKeyLen b.length) (h2 : Spec.Json.WS w2)
    (ho : Fine cfg cb u0 (e0 ++ [⟨.key, utf8s s⟩])) :
    AtMain cfg cb u0 (0x7d#8 :: ns) { value := true } (e0 ++ [⟨.key, utf8s s⟩])
      (run cfg cb (run cfg cb (run cfg cb (run cfg cb p w1) (ch '"' :: b ++ [ch '"'])) w2) [ch ':']) := by
  have g1 := h.ws h1
  have g2 := quoted_ok cfg hst cb u0 .key .key (Or.inr ⟨rfl, rfl⟩) g1 (by
    have a1 : (run cfg cb p w1).state.key = true := by rw [g1.state]; exact hbk
    have a2 : (run cfg cb p w1).state.value = false := by rw [g1.state]; exact hbv
    simp [mainChar, a1, a2]) hb (by rw [if_pos rfl]; exact hk) ho
  have g3 := g2.ws h2
  show AtMain cfg cb u0 (0x7d#8 :: ns) { value := true } (e0 ++ [⟨.key, utf8s s⟩])
      (step cfg cb (run cfg cb (run cfg cb (run cfg cb p w1) (ch '"' :: b ++ [ch '"'])) w2) 0x3a#8)
  refine AtMain.step g3.err g3.auto (q := { run cfg cb (run cfg cb (run cfg cb p w1) (ch '"' :: b ++ [ch '"'])) w2 with
    state := { value := true } }) ?_ ⟨g3.err, g3.auto, g3.nest, rfl, g3.cp0, g3.cp1, g3.trace.of_eq rfl rfl⟩
  have a1 := g3.state
  unfold mainChar
  rw [if_neg (fun k => absurd k.2 (by decide)), if_neg (fun k => absurd k.2 (by decide)),
    if_neg (fun k => absurd k.2 (by decide)), if_pos ⟨by rw [a1]; rfl, rfl⟩]

theorem lit_cut (cfg : Config) (cb : Callback σ) (u0 : σ) (t : JType) (a : Automaton)
    (lit : List Byte) (c : Byte) (cs : List Byte) (hl : lit = c :: cs)
    (hla : ∀ p : Parser σ, InLit t lit (switchAutomaton p a))
    (hm : ∀ p : Parser σ, p.state.value = true → mainChar cfg cb p c = .again (switchAutomaton p a))
    {tok : List Byte} (hne : tok ≠ []) (hp : tok <+: lit) {nest : List Byte} {bits : Bits} {e0 : List Event} {p : Parser σ}
    (h : AtMain cfg cb u0 nest bits e0 p) (hv : bits.value = true) (ho : Fine cfg cb u0 (e0 ++ [⟨t, []⟩])) :
    0 ≤ (flush cfg cb (run cfg cb p tok)).err ∧ Calls cb u0 (e0 ++ [⟨t, []⟩]) (flush cfg cb (run cfg cb p tok)).user := by
  have hin := hla p
  obtain ⟨rest, hrest⟩ := hp
  cases tok with
  | nil => exact absurd rfl hne
  | cons c' tok' =>
  rw [hl, List.cons_append] at hrest
  injection hrest with hc hcs
  subst hc
  obtain ⟨pos, hr⟩ := run_lit_part cfg cb t lit tok'.length.succ (switchAutomaton p a) hin h.err
    (by show 0 + _ ≤ _; rw [hl, ← hcs]; simp)
  have hb : subByte cfg cb (switchAutomaton p a) c' = litByte cfg cb t lit (switchAutomaton p a) c' := by
    rcases hin with ⟨h1, h2, h3⟩ | ⟨h1, h2, h3⟩ | ⟨h1, h2, h3⟩ <;> (unfold subByte; rw [h3, h1, h2])
  have hb2 : (litByte cfg cb t lit (switchAutomaton p a) c').2 = true := by
    unfold litByte
    have : lit[(switchAutomaton p a).sub]? = some c' := by rw [hl]; rfl
    rw [this]
    simp
  have hauto : (switchAutomaton p a).auto ≠ .main := by
    rcases hin with ⟨_, _, h⟩ | ⟨_, _, h⟩ | ⟨_, _, h⟩ <;> (rw [h]; decide)
  have e1 : run cfg cb p (c' :: tok') = { switchAutomaton p a with sub := tok'.length + 1, pos := pos } := by
    have e2 : (lit.drop (switchAutomaton p a).sub).take tok'.length.succ = c' :: tok' := by
      show (lit.drop 0).take _ = _
      rw [hl, ← hcs]; simp
    rw [e2] at hr
    rw [run_cons, step_again h.err h.auto (hm p (by rw [h.state]; exact hv)) h.err hauto (by rw [hb]; exact hb2), ← run_cons, hr]
    show _ = _
    congr 1
    show 0 + _ = _
    omega
  rw [e1]
  have ht : Trace cfg cb u0 e0 ({ switchAutomaton p a with sub := tok'.length + 1, pos := pos } : Parser σ) := h.trace.of_eq rfl rfl
  obtain ⟨n1, n2, n3, n4, n5⟩ := (value_lit (cfg := cfg) (d := 0) hin).2
  have hin' : InLit t lit ({ switchAutomaton p a with sub := tok'.length + 1, pos := pos } : Parser σ) := hin.keep rfl
  have he' : 0 ≤ ({ switchAutomaton p a with sub := tok'.length + 1, pos := pos } : Parser σ).err := h.err
  generalize ({ switchAutomaton p a with sub := tok'.length + 1, pos := pos } : Parser σ) = r at ht hin' he' ⊢
  have hx := process_ok cfg cb u0 e0 r t [] ht he' ho
  have hA := process_trace cfg cb u0 e0 r t [] ht (fun g => by rcases g with g | g; exact absurd g n1; exact absurd g n2) hx
  have hd : litAutomaton cfg cb t lit r [] true = (process cfg cb r t [], 0) := by
    unfold litAutomaton litLoop
    simp
  have hf := flush_process cfg cb r t [] he' (by rcases hin' with ⟨_, _, h⟩ | ⟨_, _, h⟩ | ⟨_, _, h⟩ <;> (rw [h]; decide)) hx (by
    rw [← hd]
    rcases hin' with ⟨h1, h2, h3⟩ | ⟨h1, h2, h3⟩ | ⟨h1, h2, h3⟩ <;> (unfold dispatch; rw [h3, h1, h2]))
  rw [hf]
  exact ⟨hx, hA.calls⟩

theorem token_cut {cfg : Config} {cb : Callback σ} {u0 : σ} {tok : List Byte} {ev : Event} (hk : LastToken cfg tok ev)
    {nest : List Byte} {bits : Bits} {e0 : List Event} {p : Parser σ}
    (h : AtMain cfg cb u0 nest bits e0 p) (hv : bits.value = true) (ho : Fine cfg cb u0 (e0 ++ [ev])) :
    0 ≤ (flush cfg cb (run cfg cb p tok)).err ∧ Calls cb u0 (e0 ++ [ev]) (flush cfg cb (run cfg cb p tok)).user := by
  cases hk with
  | number hn hw =>
    obtain ⟨q, hs, hq⟩ := number_ok cfg cb u0 nest.length hn hw nest bits e0 p h hv rfl ho
    rcases hs with hs | hs
    · have := number_auto cfg cb u0 hn hw h hv
      rw [hs, hq.auto] at this
      cases this
    · rw [hs.2.2.2]
      exact ⟨hq.err, hq.trace.calls⟩
  | null hne hp =>
    rw [word_null] at hp
    exact lit_cut cfg cb u0 .null .null litNull 0x6e#8 _ rfl (fun _ => Or.inl ⟨rfl, rfl, rfl⟩)
      (fun p hv => by simp [mainChar, hv, isIn]) hne hp h hv ho
  | false hne hp =>
    rw [word_false] at hp
    exact lit_cut cfg cb u0 .false .false litFalse 0x66#8 _ rfl (fun _ => Or.inr (Or.inl ⟨rfl, rfl, rfl⟩))
      (fun p hv => by simp [mainChar, hv, isIn]) hne hp h hv ho
  | true hne hp =>
    rw [word_true] at hp
    exact lit_cut cfg cb u0 .true .true litTrue 0x74#8 _ rfl (fun _ => Or.inr (Or.inr ⟨rfl, rfl, rfl⟩))
      (fun p hv => by simp [mainChar, hv, isIn]) hne hp h hv ho

/-- Reading an open text. -/
theorem open_complete (cfg : Config) (hst : Strict cfg) (cb : Callback σ) (u0 : σ) {d : Nat} {t : List Byte} {e : List Event}
    (h : Open cfg d t e) : Fine cfg cb u0 e →
    ∃ nest bits, nest.length = d ∧ bits.value = true ∧ AtMain cfg cb u0 nest bits e (run cfg cb (init u0) t) := by
  induction h with
  | root hw => intro _; exact ⟨[], { value := true }, rfl, rfl, (atMain_init cfg cb u0).ws hw⟩
  | first _ h2 h3 ih =>
    intro hf
    obtain ⟨nest, bits, hn, hv, hA⟩ := ih hf.left
    have h1 := open_ok cfg cb u0 0x5b#8 0x5d#8 .arrayBeg _ (Or.inl ⟨rfl, rfl, rfl, rfl⟩) hA hv (by rw [hn]; exact h2) hf
    refine ⟨0x5d#8 :: nest, { value := true, closer := true }, by simp [hn], rfl, ?_⟩
    rw [run_append, run_append]
    exact h1.ws h3
  | next _ h2 h3 h4 ih =>
    intro hf
    obtain ⟨nest, bits, hn, hv, hA⟩ := ih hf.left.left
    have h1 := open_ok cfg cb u0 0x5b#8 0x5d#8 .arrayBeg _ (Or.inl ⟨rfl, rfl, rfl, rfl⟩) hA hv (by rw [hn]; exact h2) hf.left
    have h5 := (elements_complete cfg hst cb u0 h3 nest _ _ _ h1 rfl (by rw [hn]) hf).comma
    rw [if_pos rfl] at h5
    refine ⟨0x5d#8 :: nest, { value := true }, by simp [hn], rfl, ?_⟩
    rw [run_append, run_append, run_append, run_append]
    exact h5.ws h4
  | firstMember _ h2 h3 h4 h5 h6 h7 ih =>
    intro hf
    obtain ⟨nest, bits, hn, hv, hA⟩ := ih hf.left.left
    have h1 := open_ok cfg cb u0 0x7b#8 0x7d#8 .objectBeg _ (Or.inr ⟨rfl, rfl, rfl, rfl⟩) hA hv (by rw [hn]; exact h2) hf.left
    refine ⟨0x7d#8 :: nest, { value := true }, by simp [hn], rfl, ?_⟩
    have k := (key_colon cfg hst cb u0 h1 rfl rfl h3 h4 h5 h6 hf).ws h7
    simp only [run_append] at k ⊢
    exact k
  | nextMember _ h2 h3 h4 h5 h6 h7 h8 ih =>
    intro hf
    obtain ⟨nest, bits, hn, hv, hA⟩ := ih hf.left.left.left
    have h1 := open_ok cfg cb u0 0x7b#8 0x7d#8 .objectBeg _ (Or.inr ⟨rfl, rfl, rfl, rfl⟩) hA hv (by rw [hn]; exact h2) hf.left.left
    have h9 := (members_complete cfg hst cb u0 h3 nest _ _ _ h1 rfl rfl (by rw [hn]) hf.left).comma
    rw [if_neg (by decide)] at h9
    refine ⟨0x7d#8 :: nest, { value := true }, by simp [hn], rfl, ?_⟩
    have k := (key_colon cfg hst cb u0 h9 rfl rfl h4 h5 h6 h7 hf).ws h8
    simp only [run_append] at k ⊢
    exact k

theorem parse_cut (cfg : Config) (hst : Strict cfg) (cb : Callback σ) (u : σ) (chunks : List (List Byte)) {evs : List Event}
    (hcb : ∀ pre e suf, evs = pre ++ e :: suf → ∀ u', Calls cb u pre u' → ∀ v q, 0 ≤ (cb u' e v q).2.1)
    (h : CutOff cfg chunks.flatten evs) :
    0 ≤ (parse cfg cb u chunks).ret ∧ Calls cb u evs (parse cfg cb u chunks).user := by
  obtain ⟨⟨d, t0, tok, e0, ev, htx, hop, htok, hev⟩, hlen, hc, hr⟩ := h
  rw [parse_run cfg cb u chunks hlen, htx]
  have hf : Fine cfg cb u (e0 ++ [ev]) := by rw [← hev]; exact ⟨⟨hc, hr⟩, hcb⟩
  obtain ⟨nest, bits, hn, hv, hA⟩ := open_complete cfg hst cb u hop hf.left
  have := token_cut htok hA hv hf
  rw [hev, run_append]
  exact this

theorem parse_sound' (cfg : Config) (hst : Strict cfg) (cb : Callback σ) (u : σ) (chunks : List (List Byte))
    (h : 0 ≤ (parse cfg cb u chunks).ret) :
    ∃ evs, (Document cfg chunks.flatten evs ∨ CutOff cfg chunks.flatten evs) ∧ Calls cb u evs (parse cfg cb u chunks).user := by
  have hlen : Within cfg.maxTotalLen chunks.flatten.length := by
    refine Classical.byContradiction (fun hc => ?_)
    unfold Within at hc
    have := feeds_over cfg cb (by omega) chunks (init u) (init_good cfg u) (by show 0 + _ > _; omega) (Nat.zero_le _)
    unfold parse fini at h
    simp only at h
    unfold flush at h
    rw [if_neg (by omega)] at h
    omega
  rw [parse_run cfg cb u chunks hlen] at h ⊢
  exact run_sound' cfg hst cb u _ hlen h

/-! ### A text cut off is the beginning of a JSON text -/

theorem lastToken_value {cfg : Config} {tok : List Byte} {ev : Event} (h : LastToken cfg tok ev) (d : Nat) :
    ∃ rest, Value cfg d (tok ++ rest) [ev] := by
  cases h with
  | number h1 h2 => exact ⟨[], by rw [List.append_nil]; exact .number h1 h2⟩
  | null _ h => obtain ⟨r, hr⟩ := h; exact ⟨r, by rw [hr]; exact .null⟩
  | false _ h => obtain ⟨r, hr⟩ := h; exact ⟨r, by rw [hr]; exact .false⟩
  | true _ h => obtain ⟨r, hr⟩ := h; exact ⟨r, by rw [hr]; exact .true⟩

theorem close_all {cfg : Config} : ∀ {n t tv : List Byte} {e ev : List Event}, Before cfg n t e → Value cfg n.length tv ev →
    ∃ cl ce, (∃ w v, t ++ tv ++ cl = w ++ v ∧ Spec.Json.WS w ∧ Value cfg 0 v (e ++ ev ++ ce)) ∧ (∀ x ∈ ce, Ending x) ∧
      (∀ c ∈ cl, c = ch ']' ∨ c = ch '}') ∧ cl.length = n.length := by
  intro n
  induction n with
  | nil =>
    intro t tv e ev hb hv
    cases hb with
    | root hw => exact ⟨[], [], ⟨t, tv, by simp, hw, by simpa using hv⟩, by simp, by simp, rfl⟩
  | cons top ns ih =>
    intro t tv e ev hb hv
    have hc := closable_after (after_value hb hv) (by simp)
    obtain ⟨top', ns', t0, e0, tv', ev', k1, k2, k3, k4, k5⟩ := hc [] ws_nil
    injection k1 with k1 k1'
    subst k1; subst k1'
    obtain ⟨cl, ce, ⟨w, v, g1, g2, g3⟩, g4, g5, g6⟩ := ih k2 k3
    refine ⟨top :: cl, endEv top :: ce, ⟨w, v, ?_, g2, ?_⟩, ?_, ?_, by simp [g6]⟩
    · rw [← g1, ← k4]; simp
    · rw [← k5] at g3
      simpa [List.append_assoc] using g3
    · intro x hx
      rcases List.mem_cons.1 hx with hx | hx
      · subst hx
        unfold Ending endEv
        by_cases hq : top = 0x5d#8
        · left; simp [hq]
        · right; simp [hq]
      · exact g4 x hx
    · intro c hx
      rcases List.mem_cons.1 hx with hx | hx
      · subst hx
        cases hb with
        | first => left; rfl
        | next => left; rfl
        | colon => right; rfl
      · exact g5 c hx

/-! ### A text cut off ends in a letter or digit -/

theorem digits_last {ds : List Byte} (h : Digits ds) (a : List Byte) : ∃ t c, a ++ ds = t ++ [c] ∧ Digit c := by
  obtain ⟨h1, h2⟩ := h
  refine ⟨a ++ ds.dropLast, ds.getLast h1, ?_, h2 _ (List.getLast_mem h1)⟩
  rw [List.append_assoc, List.dropLast_concat_getLast]

theorem int_last {t : List Byte} (h : IntPart t) (a : List Byte) : ∃ t' c, a ++ t = t' ++ [c] ∧ Digit c := by
  cases h with
  | zero => exact ⟨a, ch '0', rfl, by unfold Digit; decide⟩
  | first h _ => exact ⟨a, _, rfl, h⟩
  | @next t c _ _ h => exact ⟨a ++ t, c, by simp, h⟩

theorem number_last {t : List Byte} (h : Number t) : ∃ t' c, t = t' ++ [c] ∧ Digit c := by
  obtain ⟨sg, int, fr, ex, ht, _, hi, hfr, hex⟩ := h
  rcases hex with hex | ⟨e, s, ds, hex, _, _, hd⟩
  · rw [hex, List.append_nil] at ht
    rcases hfr with hfr | ⟨ds, hfr, hd⟩
    · rw [hfr, List.append_nil] at ht
      rw [ht]; exact int_last hi _
    · rw [hfr] at ht
      obtain ⟨t', c, h1, h2⟩ := digits_last hd (sg ++ int ++ [ch '.'])
      exact ⟨t', c, by rw [ht, ← h1]; simp, h2⟩
  · rw [hex] at ht
    obtain ⟨t', c, h1, h2⟩ := digits_last hd (sg ++ int ++ fr ++ e :: s)
    exact ⟨t', c, by rw [ht, ← h1]; simp, h2⟩

theorem cutOff_ends {cfg : Config} {text : List Byte} {evs : List Event} (h : CutOff cfg text evs) : EndsInWord text := by
  obtain ⟨⟨d, t0, tok, e0, ev, htx, _, htok, _⟩, _⟩ := h
  have lit : ∀ (w : List Byte), (∀ c ∈ w, ch 'a' ≤ c ∧ c ≤ ch 'z') → tok ≠ [] → tok <+: w → EndsInWord text := by
    intro w hw hne hp
    refine ⟨t0 ++ tok.dropLast, tok.getLast hne, by rw [htx, List.append_assoc, List.dropLast_concat_getLast], Or.inr (Or.inl ?_)⟩
    exact hw _ (hp.subset (List.getLast_mem hne))
  cases htok with
  | number hn _ =>
    obtain ⟨t', c, h1, h2⟩ := number_last hn
    exact ⟨t0 ++ t', c, by rw [htx, h1, List.append_assoc], Or.inl h2⟩
  | null h1 h2 => exact lit _ (by decide) h1 h2
  | false h1 h2 => exact lit _ (by decide) h1 h2
  | true h1 h2 => exact lit _ (by decide) h1 h2

end
end WS.Sax
