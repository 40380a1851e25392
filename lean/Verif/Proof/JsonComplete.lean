import Verif.Proof.JsonDoc
/-
Every JSON text within the limits is read to its end.
-/
namespace WS.Sax
open WS WS.Spec.Json
section
variable {σ : Type}

/-- The main automaton between two tokens. -/
structure AtMain (cfg : Config) (cb : Callback σ) (u0 : σ) (nest : List Byte) (bits : Bits) (evs : List Event)
    (p : Parser σ) : Prop where
  err : 0 ≤ p.err
  auto : p.auto = .main
  nest : p.nest = nest
  state : p.state = bits
  cp0 : p.cp0 = 0
  cp1 : p.cp1 = 0
  trace : Trace cfg cb u0 evs p

/-- The bytes that may follow a value. -/
def follow (c : Byte) : Bool := isWhitespace c || c == 0x2c#8 || c == 0x5d#8 || c == 0x7d#8

theorem follow_boundary {c : Byte} (h : follow c = true) : isTokenBoundary c = true := by
  have : ∀ c : Byte, follow c = true → isTokenBoundary c = true := by decide +kernel
  exact this c h

/-- `r` is `q`, or a literal or number at its end that turns into `q` at the next byte or at the end of the
input. -/
def Settles (cfg : Config) (cb : Callback σ) (r q : Parser σ) : Prop :=
  r = q ∨ (0 ≤ r.err ∧ r.auto ≠ .main ∧ (∀ c, follow c = true → step cfg cb r c = step cfg cb q c) ∧
    flush cfg cb r = q)

theorem Settles.step {cfg : Config} {cb : Callback σ} {r q : Parser σ} (h : Settles cfg cb r q) {c : Byte}
    (hc : follow c = true) : step cfg cb r c = step cfg cb q c := by
  rcases h with h | h
  · rw [h]
  · exact h.2.2.1 c hc

theorem step_main {cfg : Config} {cb : Callback σ} {p : Parser σ} (he : 0 ≤ p.err) (ha : p.auto = .main) (c : Byte) :
    step cfg cb p c = mainByte cfg cb p c := by
  unfold Sax.step; rw [if_neg (by omega), if_neg (by rw [ha]; simp)]

theorem AtMain.step {cfg : Config} {cb : Callback σ} {u0 : σ} {nest : List Byte} {bits : Bits} {evs : List Event}
    {p q : Parser σ} {c : Byte} (he : 0 ≤ p.err) (ha : p.auto = .main) (hm : mainChar cfg cb p c = .adv q)
    (h : AtMain cfg cb u0 nest bits evs q) : AtMain cfg cb u0 nest bits evs (step cfg cb p c) := by
  have e1 : mainByte cfg cb p c = handleNewLine (advance q 1) c := by unfold mainByte; rw [hm]
  rw [step_main he ha, e1]
  obtain ⟨g1, g2, g3, g4, g5, g6, g7, g8, g9⟩ := handleNewLine_fields (advance q 1) c
  obtain ⟨k1, k2, k3, k4⟩ := handleNewLine_more (advance q 1) c
  exact ⟨by rw [g1]; exact h.err, g5.trans h.auto, g7.trans h.nest, g6.trans h.state, k3.trans h.cp0, k4.trans h.cp1,
    h.trace.of_eq k1 k2⟩

theorem ws_byte {c : Byte} (h : c = ch ' ' ∨ c = ch '\t' ∨ c = ch '\n' ∨ c = ch '\r') :
    isWhitespace c = true ∧ follow c = true ∧ isDigit c = false ∧ isIn c 0x61 0x7a = false ∧
    isIn c 0x41 0x5a = false ∧ c ≠ 0x5b#8 ∧ c ≠ 0x7b#8 ∧ c ≠ 0x5d#8 ∧ c ≠ 0x7d#8 ∧ c ≠ 0x2c#8 ∧ c ≠ 0x3a#8 ∧ c ≠ 0x22#8 ∧
    c ≠ 0x2d#8 := by
  rcases h with h | h | h | h <;> (rw [h]; decide +kernel)

theorem mainChar_ws (cfg : Config) (cb : Callback σ) (p : Parser σ) {c : Byte}
    (h : c = ch ' ' ∨ c = ch '\t' ∨ c = ch '\n' ∨ c = ch '\r') : mainChar cfg cb p c = .adv p := by
  obtain ⟨h1, h2, h3, h4, h5, h6, h7, h8, h9, h10, h11, h12, h13⟩ := ws_byte h
  unfold mainChar
  rw [if_neg (by simp [h6, h7]), if_neg (by simp [h8, h9]), if_neg (by simp [h10]), if_neg (by simp [h11]),
    if_neg (by simp [h12]), if_neg (by simp [h12]), if_neg (by simp [h4, h5]), if_neg (by simp [h3, h13]),
    if_neg (by simp [h1])]

theorem AtMain.ws {cfg : Config} {cb : Callback σ} {u0 : σ} {nest : List Byte} {bits : Bits} {evs : List Event}
    {w : List Byte} {p : Parser σ} (h : AtMain cfg cb u0 nest bits evs p) (hw : Spec.Json.WS w) :
    AtMain cfg cb u0 nest bits evs (run cfg cb p w) := by
  induction w generalizing p with
  | nil => exact h
  | cons c w ih =>
    rw [run_cons]
    exact ih (AtMain.step h.err h.auto (mainChar_ws cfg cb p (hw c (List.mem_cons_self ..))) h)
      (fun x hx => hw x (List.mem_cons_of_mem _ hx))

theorem Settles.ws {cfg : Config} {cb : Callback σ} {u0 : σ} {nest : List Byte} {bits : Bits} {evs : List Event}
    {w : List Byte} {r q : Parser σ} (hs : Settles cfg cb r q) (h : AtMain cfg cb u0 nest bits evs q)
    (hw : Spec.Json.WS w) : ∃ q', Settles cfg cb (run cfg cb r w) q' ∧ AtMain cfg cb u0 nest bits evs q' := by
  cases w with
  | nil => exact ⟨q, hs, h⟩
  | cons c w =>
    refine ⟨run cfg cb q (c :: w), Or.inl ?_, h.ws hw⟩
    rw [run_cons, run_cons, hs.step (ws_byte (hw c (List.mem_cons_self ..))).2.1]

/-- A delivery by the main automaton. -/
theorem AtMain.process {cfg : Config} {cb : Callback σ} {u0 : σ} {evs : List Event} {p : Parser σ} (he : 0 ≤ p.err) (h0 : p.cp0 = 0) (h1 : p.cp1 = 0)
    (ht : Trace cfg cb u0 evs p) (t : JType) (d : List Byte) (hne : t = .arrayEnd ∨ t = .objectEnd → evs ≠ [])
    (ho : Fine cfg cb u0 (evs ++ [⟨t, d⟩])) :
    AtMain cfg cb u0 p.nest (nextBits t (!p.nest.isEmpty)) (evs ++ [⟨t, d⟩]) (process cfg cb p t d) := by
  have hx := process_ok cfg cb u0 evs p t d ht he ho
  obtain ⟨f1, f2, f3, _⟩ := process_fields cfg cb p t d hx
  exact ⟨hx, process_auto cfg cb p t d hx, f1, process_state cfg cb p t d hx, f2.trans h0, f3.trans h1,
    process_trace cfg cb u0 evs p t d ht hne hx⟩

theorem isDigit_iff (c : Byte) : isDigit c = true ↔ Digit c := by
  have : ∀ c : Byte, isDigit c = true ↔ Digit c := by decide +kernel
  exact this c

/-! ### Scalars -/

/-- A pending delivery settles. -/
theorem settles_process (cfg : Config) (cb : Callback σ) (r : Parser σ) (t : JType) (d : List Byte) (he : 0 ≤ r.err)
    (ha : r.auto ≠ .main) (hx : 0 ≤ (process cfg cb r t d).err)
    (h1 : ∀ c, follow c = true → subByte cfg cb r c = (process cfg cb r t d, false))
    (h2 : dispatch cfg cb r [] true = (process cfg cb r t d, 0)) :
    Settles cfg cb r (process cfg cb r t d) := by
  refine Or.inr ⟨he, ha, ?_, ?_⟩
  · intro c hc
    have hm := process_auto cfg cb r t d hx
    rw [step_main hx hm]
    unfold Sax.step
    rw [if_neg (by omega), if_pos ha, h1 c hc, if_neg]
    intro g
    rcases g with g | g
    · cases g
    · have g' : (process cfg cb r t d).err < 0 := g
      omega
  · unfold flush
    rw [if_pos he, if_pos ha, h2]
    simp only [Nat.add_zero]
    rw [if_neg (by rw [process_auto cfg cb r t d hx]; simp)]

/-- Reading a literal from its second byte on. -/
theorem run_lit (cfg : Config) (cb : Callback σ) (t : JType) (lit : List Byte) :
    ∀ (n : Nat) (p : Parser σ), InLit t lit p → 0 ≤ p.err → p.sub + n = lit.length →
    ∃ pos, run cfg cb p (lit.drop p.sub) = { p with sub := lit.length, pos := pos }
  | 0, p, _, _, hn => by
    refine ⟨p.pos, ?_⟩
    rw [List.drop_of_length_le (by omega)]
    have : lit.length = p.sub := by omega
    rw [this]
    rfl
  | n + 1, p, hi, he, hn => by
    have hlt : p.sub < lit.length := by omega
    rw [List.drop_eq_getElem_cons hlt, run_cons]
    have hb : litByte cfg cb t lit p lit[p.sub] = ({ advance p 1 with sub := p.sub + 1 }, true) := by
      unfold litByte; rw [List.getElem?_eq_getElem hlt]; simp only; rw [if_neg (by simp)]
    rw [step_lit cfg cb t lit p _ hi he, hb, if_pos (Or.inl rfl)]
    obtain ⟨pos, h⟩ := run_lit cfg cb t lit n { advance p 1 with sub := p.sub + 1 } (hi.keep rfl) he (by show p.sub + 1 + n = _; omega)
    exact ⟨pos, h⟩

theorem within_strMax {cfg : Config} {t : JType} {n : Nat}
    (h : Within (if t = .key then cfg.maxKeyLen else cfg.maxStringLen) n) : strMax cfg t = 0 ∨ n + 1 ≤ strMax cfg t := by
  unfold strMax
  unfold Within at h
  generalize (if t = .key then cfg.maxKeyLen else cfg.maxStringLen) = m at h ⊢
  simp only
  by_cases hm : m > 0
  · rw [if_pos hm]; omega
  · rw [if_neg hm]; omega

/-- A string or key from its opening quote. -/
theorem run_quoted (cfg : Config) (hst : Strict cfg) (cb : Callback σ) (t : JType) (a : Automaton)
    (hta : (t = .string ∧ a = .string) ∨ (t = .key ∧ a = .key)) (p : Parser σ) (h0 : p.cp0 = 0) (h1 : p.cp1 = 0)
    (he : 0 ≤ p.err) {b : List Byte} {s : List Nat} (hb : Body b s)
    (hw : Within (if t = .key then cfg.maxKeyLen else cfg.maxStringLen) b.length) :
    ∃ q : Parser σ, run cfg cb (handleNewLine (advance (switchAutomaton p a) 1) 0x22#8) (b ++ [0x22#8]) =
      process cfg cb q t (utf8s s) ∧ q.cp0 = 0 ∧ q.cp1 = 0 ∧ 0 ≤ q.err ∧ q.nest = p.nest ∧ q.user = p.user ∧
      q.vcount = p.vcount := by
  have hin : InStr t (advance (switchAutomaton p a) 1) := by
    rcases hta with ⟨h, g⟩ | ⟨h, g⟩
    · exact Or.inl ⟨h, g⟩
    · exact Or.inr ⟨h, g⟩
  have hst2 : handleNewLine (advance (switchAutomaton p a) 1) 0x22#8 = advance (switchAutomaton p a) 1 := by
    unfold handleNewLine; rw [if_neg (by decide), if_neg (by decide)]
  rw [hst2]
  have hr := run_body cfg hst cb t hb (advance (switchAutomaton p a) 1) ⟨hin, he, rfl, h0, h1⟩ (by
    refine ⟨by show p.pos.offset ≤ p.pos.offset + 1; omega, ?_⟩
    show _ ∨ p.pos.offset + 1 + b.length - p.pos.offset ≤ _
    have := within_strMax hw
    omega)
  rw [run_append, hr, run_cons]
  have hA := sA_quote cfg cb t (advance (append (advance (switchAutomaton p a) 1) (utf8s s)) b.length) rfl
  rw [step_str cfg cb t (advance (append (advance (switchAutomaton p a) 1) (utf8s s)) b.length) _ hin he, strByte_not_again cfg cb t _ _ (by rw [hA]; intro q h; cases h), hA]
  refine ⟨advance (advance (append (advance (switchAutomaton p a) 1) (utf8s s)) b.length) 1, ?_, h0, h1, he, rfl, rfl, rfl⟩
  show chkS cfg t (process cfg cb _ t ([] ++ utf8s s)) = _
  rw [chkS_process, List.nil_append]

theorem run_num (cfg : Config) (cb : Callback σ) :
    ∀ (l : List Byte) (p : Parser σ) (s : Nat), p.auto = .number → 0 ≤ p.err → numFold (numFix p).sub l = some s → l ≠ [] →
    p.vpos.offset ≤ p.pos.offset →
    (cfg.maxNumberLen = 0 ∨ p.pos.offset + l.length - p.vpos.offset ≤ cfg.maxNumberLen) →
    run cfg cb p l = { append (advance p l.length) l with sub := s }
  | [], p, s, ha, he, h, hne, hv, hw => absurd rfl hne
  | c :: cs, p, s, ha, he, h, hne, hv, hw => by
    simp only [numFold] at h
    cases hn : numChar (numFix p).sub c with
    | bad => rw [hn] at h; cases h
    | finish => rw [hn] at h; cases h
    | next k =>
      rw [hn] at h
      simp only at h
      have hb : numByte cfg cb p c = (append (advance { p with sub := k } 1) [c], true) := by
        unfold numByte; rw [hn]
        simp only
        rw [chkN_le]
        show _ ∨ p.pos.offset + 1 - p.vpos.offset ≤ _
        rw [List.length_cons] at hw
        omega
      rw [run_cons, step_num cfg cb p c ha he, hb, if_pos (Or.inl rfl)]
      by_cases hcs : cs = []
      · subst hcs
        injection h with h
        subst h
        rfl
      · have hk : k ≠ 0 := numChar_next _ _ _ hn
        have hfix : (numFix (append (advance { p with sub := k } 1) [c])).sub = k := by
          simp [numFix, append, advance, hk]
        have := run_num cfg cb cs (append (advance { p with sub := k } 1) [c]) s ha he (by rw [hfix]; exact h) hcs
          (by show p.vpos.offset ≤ p.pos.offset + 1; omega)
          (by show _ ∨ p.pos.offset + 1 + cs.length - p.vpos.offset ≤ _; rw [List.length_cons] at hw; omega)
        rw [show (append (advance { p with sub := k } 1) [c], true).1 = append (advance { p with sub := k } 1) [c] from rfl, this]
        simp [append, advance, List.length_cons, Nat.add_comm, Nat.add_assoc, Nat.add_left_comm]

/-- Where a value may start. -/
structure Ready (cfg : Config) (cb : Callback σ) (u0 : σ) (nest : List Byte) (evs : List Event) (p : Parser σ) : Prop where
  bits : ∃ bits, AtMain cfg cb u0 nest bits evs p ∧ bits.value = true ∧ bits.comma = false ∧ bits.colon = false

/-- A value was read. -/
def Reads (cfg : Config) (cb : Callback σ) (u0 : σ) (nest : List Byte) (evs : List Event) (bits : Bits) (r : Parser σ) : Prop :=
  ∃ q, Settles cfg cb r q ∧ AtMain cfg cb u0 nest bits evs q

end
end WS.Sax
