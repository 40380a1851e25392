import Verif.Proof.JsonComplete
/-
Every JSON text within the limits is read to its end: induction over the grammar.
-/
namespace WS.Sax
open WS WS.Spec.Json
section
variable {σ : Type}

/-- A byte that starts a literal or number is read by that automaton. -/
theorem step_again {cfg : Config} {cb : Callback σ} {p q : Parser σ} {c : Byte} (he : 0 ≤ p.err) (ha : p.auto = .main)
    (hm : mainChar cfg cb p c = .again q) (hq : 0 ≤ q.err) (hqa : q.auto ≠ .main) (hb : (subByte cfg cb q c).2 = true) :
    step cfg cb p c = step cfg cb q c := by
  rw [step_main he ha]
  unfold mainByte
  rw [hm]
  simp only
  rw [if_neg (by omega)]
  unfold Sax.step
  rw [if_neg (by omega), if_pos hqa, if_pos (Or.inl hb)]

theorem settles_lit (cfg : Config) (cb : Callback σ) (t : JType) (lit : List Byte) (r : Parser σ) (hi : InLit t lit r)
    (he : 0 ≤ r.err) (hs : r.sub = lit.length) (hx : 0 ≤ (process cfg cb r t []).err) :
    Settles cfg cb r (process cfg cb r t []) := by
  have hb : ∀ c, follow c = true → litByte cfg cb t lit r c = (process cfg cb r t [], false) := by
    intro c hc
    unfold litByte
    rw [hs, List.getElem?_eq_none (Nat.le_refl _)]
    simp only
    rw [if_neg (by rw [follow_boundary hc]; simp)]
  have hd : litAutomaton cfg cb t lit r [] true = (process cfg cb r t [], 0) := by
    unfold litAutomaton litLoop
    simp
  refine settles_process cfg cb r t [] he ?_ hx ?_ ?_
  · rcases hi with ⟨_, _, h⟩ | ⟨_, _, h⟩ | ⟨_, _, h⟩ <;> (rw [h]; decide)
  · intro c hc
    rw [← hb c hc]
    rcases hi with ⟨h1, h2, h3⟩ | ⟨h1, h2, h3⟩ | ⟨h1, h2, h3⟩ <;> (unfold subByte; rw [h3, h1, h2])
  · rw [← hd]
    rcases hi with ⟨h1, h2, h3⟩ | ⟨h1, h2, h3⟩ | ⟨h1, h2, h3⟩ <;> (unfold dispatch; rw [h3, h1, h2])

/-- What reading a value from a place where one may start does. -/
def ValueOk (cfg : Config) (cb : Callback σ) (u0 : σ) (d : Nat) (t : List Byte) (ev : List Event) : Prop :=
  ∀ (nest : List Byte) (bits : Bits) (e0 : List Event) (p : Parser σ), AtMain cfg cb u0 nest bits e0 p →
    bits.value = true → nest.length = d → Fine cfg cb u0 (e0 ++ ev) →
    Reads cfg cb u0 nest (e0 ++ ev) (doneBits (!nest.isEmpty)) (run cfg cb p t)

def ElementsOk (cfg : Config) (cb : Callback σ) (u0 : σ) (d : Nat) (t : List Byte) (ev : List Event) : Prop :=
  ∀ (ns : List Byte) (bits : Bits) (e0 : List Event) (p : Parser σ), AtMain cfg cb u0 (0x5d#8 :: ns) bits e0 p →
    bits.value = true → ns.length + 1 = d → Fine cfg cb u0 (e0 ++ ev) →
    Reads cfg cb u0 (0x5d#8 :: ns) (e0 ++ ev) (doneBits true) (run cfg cb p t)

def MembersOk (cfg : Config) (cb : Callback σ) (u0 : σ) (d : Nat) (t : List Byte) (ev : List Event) : Prop :=
  ∀ (ns : List Byte) (bits : Bits) (e0 : List Event) (p : Parser σ), AtMain cfg cb u0 (0x7d#8 :: ns) bits e0 p →
    bits.key = true → bits.value = false → ns.length + 1 = d → Fine cfg cb u0 (e0 ++ ev) →
    Reads cfg cb u0 (0x7d#8 :: ns) (e0 ++ ev) (doneBits true) (run cfg cb p t)

/-! ### Scalars -/

theorem lit_ok (cfg : Config) (cb : Callback σ) (u0 : σ) (t : JType) (a : Automaton)
    (lit : List Byte) (c : Byte) (cs : List Byte) (hl : lit = c :: cs)
    (hla : ∀ p : Parser σ, InLit t lit (switchAutomaton p a))
    (hm : ∀ p : Parser σ, p.state.value = true → mainChar cfg cb p c = .again (switchAutomaton p a)) (d : Nat) :
    ValueOk cfg cb u0 d lit [⟨t, []⟩] := by
  intro nest bits e0 p h hv _ ho
  have hin := hla p
  obtain ⟨pos, hr⟩ := run_lit cfg cb t lit lit.length (switchAutomaton p a) hin h.err (Nat.zero_add _)
  have hb : subByte cfg cb (switchAutomaton p a) c = litByte cfg cb t lit (switchAutomaton p a) c := by
    rcases hin with ⟨h1, h2, h3⟩ | ⟨h1, h2, h3⟩ | ⟨h1, h2, h3⟩ <;> (unfold subByte; rw [h3, h1, h2])
  have hb2 : (litByte cfg cb t lit (switchAutomaton p a) c).2 = true := by
    unfold litByte
    have : lit[(switchAutomaton p a).sub]? = some c := by rw [hl]; rfl
    rw [this]
    simp
  have hauto : (switchAutomaton p a).auto ≠ .main := by
    rcases hin with ⟨_, _, h⟩ | ⟨_, _, h⟩ | ⟨_, _, h⟩ <;> (rw [h]; decide)
  have e1 : run cfg cb p lit = { switchAutomaton p a with sub := lit.length, pos := pos } := by
    rw [← hr]
    show _ = run cfg cb (switchAutomaton p a) lit
    rw [hl, run_cons, run_cons, step_again h.err h.auto (hm p (by rw [h.state]; exact hv)) h.err hauto (by rw [hb]; exact hb2)]
  rw [e1]
  have ht : Trace cfg cb u0 e0 ({ switchAutomaton p a with sub := lit.length, pos := pos } : Parser σ) := h.trace.of_eq rfl rfl
  obtain ⟨n1, n2, n3, n4, n5⟩ := (value_lit (cfg := cfg) (d := d) hin).2
  have hx := process_ok cfg cb u0 e0 { switchAutomaton p a with sub := lit.length, pos := pos } t [] ht h.err ho
  have hA := AtMain.process (p := { switchAutomaton p a with sub := lit.length, pos := pos }) h.err h.cp0 h.cp1 ht t []
    (fun g => by rcases g with g | g; exact absurd g n1; exact absurd g n2) ho
  refine ⟨_, settles_lit cfg cb t lit { switchAutomaton p a with sub := lit.length, pos := pos } (hin.keep rfl) h.err rfl hx, ?_⟩
  have hn : ({ switchAutomaton p a with sub := lit.length, pos := pos } : Parser σ).nest = nest := h.nest
  rw [hn, nextBits_done t _ n3 n4 n5] at hA
  exact hA

theorem null_ok (cfg : Config) (cb : Callback σ) (u0 : σ) (d : Nat) :
    ValueOk cfg cb u0 d litNull [⟨.null, []⟩] :=
  lit_ok cfg cb u0 .null .null litNull 0x6e#8 _ rfl (fun _ => Or.inl ⟨rfl, rfl, rfl⟩)
    (fun p hv => by simp [mainChar, hv, isIn]) d

theorem false_ok (cfg : Config) (cb : Callback σ) (u0 : σ) (d : Nat) :
    ValueOk cfg cb u0 d litFalse [⟨.false, []⟩] :=
  lit_ok cfg cb u0 .false .false litFalse 0x66#8 _ rfl (fun _ => Or.inr (Or.inl ⟨rfl, rfl, rfl⟩))
    (fun p hv => by simp [mainChar, hv, isIn]) d

theorem true_ok (cfg : Config) (cb : Callback σ) (u0 : σ) (d : Nat) :
    ValueOk cfg cb u0 d litTrue [⟨.true, []⟩] :=
  lit_ok cfg cb u0 .true .true litTrue 0x74#8 _ rfl (fun _ => Or.inr (Or.inr ⟨rfl, rfl, rfl⟩))
    (fun p hv => by simp [mainChar, hv, isIn]) d

theorem numChar_start {c : Byte} (h : numChar 3 c ≠ .bad ∧ numChar 3 c ≠ .finish) : isDigit c = true ∨ c = 0x2d#8 := by
  have : ∀ c : Byte, numChar 3 c ≠ .bad ∧ numChar 3 c ≠ .finish → isDigit c = true ∨ c = 0x2d#8 := by decide +kernel
  exact this c h

theorem mainChar_num (cfg : Config) (cb : Callback σ) (p : Parser σ) (c : Byte) (hv : p.state.value = true)
    (h : isDigit c = true ∨ c = 0x2d#8) : mainChar cfg cb p c = .again (switchAutomaton p .number) := by
  have hc : ∀ c : Byte, isDigit c = true ∨ c = 0x2d#8 → isIn c 0x61 0x7a = false ∧ isIn c 0x41 0x5a = false ∧ c ≠ 0x5b#8 ∧
      c ≠ 0x7b#8 ∧ c ≠ 0x5d#8 ∧ c ≠ 0x7d#8 ∧ c ≠ 0x2c#8 ∧ c ≠ 0x3a#8 ∧ c ≠ 0x22#8 := by decide +kernel
  obtain ⟨h4, h5, h6, h7, h8, h9, h10, h11, h12⟩ := hc c h
  unfold mainChar
  rw [if_neg (by simp [h6, h7]), if_neg (by simp [h8, h9]), if_neg (by simp [h10]), if_neg (by simp [h11]),
    if_neg (by simp [h12]), if_neg (by simp [h12]), if_neg (by simp [h4, h5]), if_pos ⟨hv, h⟩]

theorem follow_num {s : Nat} (hs12 : s.testBit 12 = true) {c : Byte} (hc : follow c = true) : numChar s c = .finish := by
  have hd : ∀ c : Byte, follow c = true → isDigit c = false ∧ c ≠ 0x2d#8 ∧ c ≠ 0x2b#8 ∧ c ≠ 0x2e#8 ∧ c ≠ 0x65#8 ∧
      c ≠ 0x45#8 := by decide +kernel
  obtain ⟨h1, h2, h3, h4, h5, h6⟩ := hd c hc
  unfold numChar
  rw [if_neg (by simp [h2]), if_neg (by simp [h1]), if_neg (by simp [h1]), if_neg (by simp [h4]), if_neg (by simp [h1]),
    if_neg (by simp [h5, h6]), if_neg (by simp [h2, h3]), if_neg (by simp [h1]), if_pos ⟨hs12, follow_boundary hc⟩]

theorem numAutomaton_eof (cfg : Config) (cb : Callback σ) (r : Parser σ) (h0 : r.sub ≠ 0) (h12 : r.sub.testBit 12 = true)
    (he : 0 ≤ r.err) (hl : ¬ (cfg.maxNumberLen ≠ 0 ∧ r.pos.offset - r.vpos.offset > cfg.maxNumberLen)) :
    numAutomaton cfg cb r [] true = (process cfg cb r .number r.buf, 0) := by
  have hcut : cut cfg.maxNumberLen r [] = [] := by unfold cut; split <;> simp
  unfold numAutomaton
  rw [hcut]
  simp only [if_neg h0, numLoop, if_neg hl]
  simp only [if_true, List.length_nil, if_pos (And.intro he h12)]

theorem number_ok (cfg : Config) (cb : Callback σ) (u0 : σ) (d : Nat)
    {t : List Byte} (hn : Number t) (hw : Within cfg.maxNumberLen t.length) : ValueOk cfg cb u0 d t [⟨.number, t⟩] := by
  intro nest bits e0 p h hv _ ho
  obtain ⟨s, hs, hs12⟩ := numFold_number hn
  have hne : t ≠ [] := by
    intro g
    rw [g] at hs
    injection hs with hs
    rw [← hs] at hs12
    exact absurd hs12 (by decide)
  have hr := run_num cfg cb t (switchAutomaton p .number) s rfl h.err hs hne (Nat.le_refl _)
    (by show _ ∨ p.pos.offset + t.length - p.pos.offset ≤ _; unfold Within at hw; omega)
  have e1 : run cfg cb p t = { append (advance (switchAutomaton p .number) t.length) t with sub := s } := by
    rw [← hr]
    cases t with
    | nil => exact absurd rfl hne
    | cons c cs =>
      have hc : ∃ k, numChar 3 c = .next k := by
        simp only [numFold] at hs
        cases hk : numChar 3 c with
        | next k => exact ⟨k, rfl⟩
        | finish => rw [hk] at hs; cases hs
        | bad => rw [hk] at hs; cases hs
      obtain ⟨k, hk⟩ := hc
      have hst := numChar_start (c := c) (by rw [hk]; constructor <;> simp)
      rw [run_cons, run_cons, step_again h.err h.auto (mainChar_num cfg cb p c (by rw [h.state]; exact hv) hst) h.err
        (by show Automaton.number ≠ .main; decide)
        (by
          show (numByte cfg cb (switchAutomaton p .number) c).2 = true
          unfold numByte
          have : (numFix (switchAutomaton p .number)).sub = 3 := rfl
          rw [this, hk])]
  rw [e1]
  have hs0 : s ≠ 0 := by intro g; rw [g] at hs12; exact absurd hs12 (by decide)
  have hfix : numFix ({ append (advance (switchAutomaton p .number) t.length) t with sub := s } : Parser σ) =
      { append (advance (switchAutomaton p .number) t.length) t with sub := s } := by
    simp [numFix, hs0]
  have ht : Trace cfg cb u0 e0 ({ append (advance (switchAutomaton p .number) t.length) t with sub := s } : Parser σ) :=
    h.trace.of_eq rfl rfl
  have hx := process_ok cfg cb u0 e0 { append (advance (switchAutomaton p .number) t.length) t with sub := s } .number t ht
    h.err ho
  have hA := AtMain.process (p := { append (advance (switchAutomaton p .number) t.length) t with sub := s }) h.err h.cp0
    h.cp1 ht .number t (fun g => by rcases g with g | g <;> cases g) ho
  refine ⟨_, settles_process cfg cb { append (advance (switchAutomaton p .number) t.length) t with sub := s } .number t h.err
    (by show Automaton.number ≠ .main; decide) hx ?_ ?_, ?_⟩
  · intro c hc
    show numByte cfg cb _ c = _
    unfold numByte
    rw [hfix]
    have : numChar s c = .finish := follow_num hs12 hc
    show (match numChar s c with | .next s => _ | .finish => _ | .bad => _) = _
    rw [this]
    rfl
  · exact numAutomaton_eof cfg cb _ hs0 hs12 h.err
      (by show ¬ (_ ∧ p.pos.offset + t.length - p.pos.offset > _); unfold Within at hw; omega)
  · have hn : ({ append (advance (switchAutomaton p .number) t.length) t with sub := s } : Parser σ).nest = nest := h.nest
    rw [hn, nextBits_done .number _ (by decide) (by decide) (by decide)] at hA
    exact hA

/-- A quoted text from a place where it may start. -/
theorem quoted_ok (cfg : Config) (hst : Strict cfg) (cb : Callback σ) (u0 : σ)
    (t : JType) (a : Automaton) (hta : (t = .string ∧ a = .string) ∨ (t = .key ∧ a = .key)) {nest : List Byte} {bits : Bits}
    {e0 : List Event} {p : Parser σ} (h : AtMain cfg cb u0 nest bits e0 p)
    (hm : mainChar cfg cb p 0x22#8 = .adv (switchAutomaton p a)) {b : List Byte} {s : List Nat} (hb : Body b s)
    (hw : Within (if t = .key then cfg.maxKeyLen else cfg.maxStringLen) b.length) (ho : Fine cfg cb u0 (e0 ++ [⟨t, utf8s s⟩])) :
    AtMain cfg cb u0 nest (nextBits t (!nest.isEmpty)) (e0 ++ [⟨t, utf8s s⟩])
      (run cfg cb p (ch '"' :: b ++ [ch '"'])) := by
  obtain ⟨q, hq, q0, q1, qe, qn, qu, qv⟩ := run_quoted cfg hst cb t a hta p h.cp0 h.cp1 h.err hb hw
  have e1 : run cfg cb p (ch '"' :: b ++ [ch '"']) = process cfg cb q t (utf8s s) := by
    rw [← hq, List.cons_append, run_cons, step_main h.err h.auto]
    have : mainByte cfg cb p 0x22#8 = handleNewLine (advance (switchAutomaton p a) 1) 0x22#8 := by
      unfold mainByte; rw [hm]
    rw [show ch '"' = 0x22#8 from rfl, this]
  rw [e1]
  have hne : t = .arrayEnd ∨ t = .objectEnd → e0 ≠ [] := by
    rcases hta with ⟨g, _⟩ | ⟨g, _⟩ <;> (rw [g]; intro k; rcases k with k | k <;> cases k)
  have := AtMain.process (p := q) qe q0 q1 (h.trace.of_eq qu qv) t (utf8s s) hne ho
  rw [qn, h.nest] at this
  exact this

theorem string_ok (cfg : Config) (hst : Strict cfg) (cb : Callback σ) (u0 : σ)
    (d : Nat) {b : List Byte} {s : List Nat} (hb : Body b s) (hw : Within cfg.maxStringLen b.length) :
    ValueOk cfg cb u0 d (ch '"' :: b ++ [ch '"']) [⟨.string, utf8s s⟩] := by
  intro nest bits e0 p h hv _ ho
  have hv' : p.state.value = true := by rw [h.state]; exact hv
  have := quoted_ok cfg hst cb u0 .string .string (Or.inl ⟨rfl, rfl⟩) h (by simp [mainChar, hv']) hb
    (by rw [if_neg (by decide)]; exact hw) ho
  rw [nextBits_done .string _ (by decide) (by decide) (by decide)] at this
  exact ⟨_, Or.inl rfl, this⟩

/-! ### Containers -/

theorem open_ok (cfg : Config) (cb : Callback σ) (u0 : σ) (c top : Byte) (t : JType)
    (bits' : Bits) (hc : (c = 0x5b#8 ∧ top = 0x5d#8 ∧ t = .arrayBeg ∧ bits' = { value := true, closer := true }) ∨
      (c = 0x7b#8 ∧ top = 0x7d#8 ∧ t = .objectBeg ∧ bits' = { key := true, closer := true }))
    {nest : List Byte} {bits : Bits} {e0 : List Event} {p : Parser σ} (h : AtMain cfg cb u0 nest bits e0 p)
    (hv : bits.value = true) (hw : Within cfg.maxNesting (nest.length + 1)) (ho : Fine cfg cb u0 (e0 ++ [⟨t, []⟩])) :
    AtMain cfg cb u0 (top :: nest) bits' (e0 ++ [⟨t, []⟩]) (step cfg cb p c) := by
  have hv' : p.state.value = true := by rw [h.state]; exact hv
  have hnest : ¬ (cfg.maxNesting ≠ 0 ∧ cfg.maxNesting ≤ p.nest.length) := by
    rw [h.nest]; unfold Within at hw; omega
  have hne : t = .arrayEnd ∨ t = .objectEnd → e0 ≠ [] := by
    rcases hc with ⟨_, _, g, _⟩ | ⟨_, _, g, _⟩ <;> (rw [g]; intro k; rcases k with k | k <;> cases k)
  have hA := AtMain.process (p := { p with nest := top :: p.nest }) h.err h.cp0 h.cp1 (h.trace.nest _) t [] hne ho
  have hb : nextBits t (!(top :: p.nest).isEmpty) = bits' := by
    rcases hc with ⟨_, _, g, k⟩ | ⟨_, _, g, k⟩ <;> (rw [g, k]; rfl)
  have hA' : AtMain cfg cb u0 (top :: nest) bits' (e0 ++ [⟨t, []⟩]) (process cfg cb { p with nest := top :: p.nest } t []) := by
    rw [← hb, ← h.nest]; exact hA
  refine AtMain.step h.err h.auto ?_ hA'
  rcases hc with ⟨g1, g2, g3, _⟩ | ⟨g1, g2, g3, _⟩
  · rw [g1, g2, g3]; unfold mainChar; rw [if_pos ⟨hv', Or.inl rfl⟩, if_neg hnest]; rfl
  · rw [g1, g2, g3]; unfold mainChar; rw [if_pos ⟨hv', Or.inr rfl⟩, if_neg hnest]; rfl

theorem close_ok (cfg : Config) (cb : Callback σ) (u0 : σ) (top : Byte) (t : JType)
    (hc : (top = 0x5d#8 ∧ t = .arrayEnd) ∨ (top = 0x7d#8 ∧ t = .objectEnd)) {ns : List Byte} {bits : Bits}
    {e0 : List Event} {p : Parser σ} (h : AtMain cfg cb u0 (top :: ns) bits e0 p) (hv : bits.closer = true)
    (hne : e0 ≠ []) (ho : Fine cfg cb u0 (e0 ++ [⟨t, []⟩])) :
    AtMain cfg cb u0 ns (doneBits (!ns.isEmpty)) (e0 ++ [⟨t, []⟩]) (step cfg cb p top) := by
  have hv' : p.state.closer = true := by rw [h.state]; exact hv
  have hA := AtMain.process (p := { p with nest := ns }) h.err h.cp0 h.cp1 (h.trace.nest _) t [] (fun _ => hne) ho
  have hA' : AtMain cfg cb u0 ns (doneBits (!ns.isEmpty)) (e0 ++ [⟨t, []⟩]) (process cfg cb { p with nest := ns } t []) := by
    rw [← nextBits_done t _ (by rcases hc with ⟨_, g⟩ | ⟨_, g⟩ <;> (rw [g]; decide))
      (by rcases hc with ⟨_, g⟩ | ⟨_, g⟩ <;> (rw [g]; decide)) (by rcases hc with ⟨_, g⟩ | ⟨_, g⟩ <;> (rw [g]; decide))]
    exact hA
  refine AtMain.step h.err h.auto ?_ hA'
  rcases hc with ⟨g1, g2⟩ | ⟨g1, g2⟩ <;>
  · rw [g1, g2]
    rw [g1] at h
    unfold mainChar
    rw [if_neg (fun k => absurd k.2 (by decide)), if_pos ⟨hv', by decide⟩, h.nest]
    simp

theorem reads_of (cfg : Config) (cb : Callback σ) (u0 : σ) {nest : List Byte} {bits : Bits} {evs : List Event} {p : Parser σ}
    (h : AtMain cfg cb u0 nest bits evs p) : Reads cfg cb u0 nest evs bits p := ⟨p, Or.inl rfl, h⟩

theorem Reads.ws {cfg : Config} {cb : Callback σ} {u0 : σ} {nest : List Byte} {bits : Bits} {evs : List Event} {r : Parser σ}
    {w : List Byte} (h : Reads cfg cb u0 nest evs bits r) (hw : Spec.Json.WS w) :
    Reads cfg cb u0 nest evs bits (run cfg cb r w) := by
  obtain ⟨q, hs, hq⟩ := h
  obtain ⟨q', h1, h2⟩ := hs.ws hq hw
  exact ⟨q', h1, h2⟩

/-- Closing a container after its last value. -/
theorem Reads.close {cfg : Config} {cb : Callback σ} {u0 : σ} {top : Byte} {t : JType}
    (hc : (top = 0x5d#8 ∧ t = .arrayEnd) ∨ (top = 0x7d#8 ∧ t = .objectEnd)) {ns : List Byte} {bits : Bits}
    {e0 : List Event} {r : Parser σ} (h : Reads cfg cb u0 (top :: ns) e0 bits r) (hv : bits.closer = true)
    (hne : e0 ≠ []) (ho : Fine cfg cb u0 (e0 ++ [⟨t, []⟩])) :
    AtMain cfg cb u0 ns (doneBits (!ns.isEmpty)) (e0 ++ [⟨t, []⟩]) (step cfg cb r top) := by
  obtain ⟨q, hs, hq⟩ := h
  rw [hs.step (by rcases hc with ⟨g, _⟩ | ⟨g, _⟩ <;> (rw [g]; decide))]
  exact close_ok cfg cb u0 top t hc hq hv hne ho

/-- A comma. -/
theorem Reads.comma {cfg : Config} {cb : Callback σ} {u0 : σ} {top : Byte} {ns : List Byte} {e0 : List Event} {r : Parser σ}
    (h : Reads cfg cb u0 (top :: ns) e0 (doneBits true) r) :
    AtMain cfg cb u0 (top :: ns) (if top = 0x5d#8 then { value := true } else { key := true }) e0 (step cfg cb r 0x2c#8) := by
  obtain ⟨q, hs, hq⟩ := h
  rw [hs.step (by decide)]
  have hst := hq.state
  refine AtMain.step hq.err hq.auto (q := { q with state := if top = 0x5d#8 then { value := true } else { key := true } }) ?_
    ⟨hq.err, hq.auto, hq.nest, rfl, hq.cp0, hq.cp1, hq.trace.of_eq rfl rfl⟩
  unfold mainChar
  rw [if_neg (fun k => absurd k.2 (by decide)), if_neg (fun k => absurd k.2 (by decide)), if_pos ⟨by rw [hst]; rfl, rfl⟩, hq.nest]

theorem container_ok (cfg : Config) (cb : Callback σ) (u0 : σ) (c top : Byte)
    (t t' : JType) (bits' : Bits)
    (hc : (c = 0x5b#8 ∧ top = 0x5d#8 ∧ t = .arrayBeg ∧ bits' = { value := true, closer := true }) ∨
      (c = 0x7b#8 ∧ top = 0x7d#8 ∧ t = .objectBeg ∧ bits' = { key := true, closer := true }))
    (hc' : (top = 0x5d#8 ∧ t' = .arrayEnd) ∨ (top = 0x7d#8 ∧ t' = .objectEnd)) (d : Nat) (tx : List Byte) (ev : List Event)
    (hw : Within cfg.maxNesting (d + 1))
    (hin : ∀ (ns : List Byte) (e0 : List Event) (p : Parser σ), AtMain cfg cb u0 (top :: ns) bits' e0 p → ns.length = d →
      Fine cfg cb u0 (e0 ++ ev) → ∃ bits, bits.closer = true ∧ Reads cfg cb u0 (top :: ns) (e0 ++ ev) bits (run cfg cb p tx)) :
    ValueOk cfg cb u0 d (c :: tx ++ [top]) (⟨t, []⟩ :: ev ++ [⟨t', []⟩]) := by
  intro nest bits e0 p h hv hd ho
  have e1 : e0 ++ (⟨t, []⟩ :: ev ++ [⟨t', []⟩]) = ((e0 ++ [⟨t, []⟩]) ++ ev) ++ [⟨t', []⟩] := by simp
  rw [e1] at ho
  have h1 := open_ok cfg cb u0 c top t bits' hc h hv (by rw [hd]; exact hw) ho.left.left
  obtain ⟨b2, hb2, h2⟩ := hin nest (e0 ++ [⟨t, []⟩]) _ h1 hd ho.left
  have h3 := Reads.close hc' h2 hb2 (by simp) ho
  rw [e1, List.cons_append, run_cons, run_append]
  exact reads_of cfg cb u0 h3

theorem doneBits_closer : (doneBits true).closer = true := rfl

theorem emptyArray_ok (cfg : Config) (cb : Callback σ) (u0 : σ) {d : Nat}
    {w : List Byte} (hw : Within cfg.maxNesting (d + 1)) (hs : Spec.Json.WS w) :
    ValueOk cfg cb u0 d (ch '[' :: w ++ [ch ']']) [⟨.arrayBeg, []⟩, ⟨.arrayEnd, []⟩] :=
  container_ok cfg cb u0 0x5b#8 0x5d#8 .arrayBeg .arrayEnd _ (Or.inl ⟨rfl, rfl, rfl, rfl⟩) (Or.inl ⟨rfl, rfl⟩) d w [] hw
    (fun ns e0 p h _ _ => ⟨_, rfl, by rw [List.append_nil]; exact reads_of cfg cb u0 (h.ws hs)⟩)

theorem emptyObject_ok (cfg : Config) (cb : Callback σ) (u0 : σ) {d : Nat}
    {w : List Byte} (hw : Within cfg.maxNesting (d + 1)) (hs : Spec.Json.WS w) :
    ValueOk cfg cb u0 d (ch '{' :: w ++ [ch '}']) [⟨.objectBeg, []⟩, ⟨.objectEnd, []⟩] :=
  container_ok cfg cb u0 0x7b#8 0x7d#8 .objectBeg .objectEnd _ (Or.inr ⟨rfl, rfl, rfl, rfl⟩) (Or.inr ⟨rfl, rfl⟩) d w [] hw
    (fun ns e0 p h _ _ => ⟨_, rfl, by rw [List.append_nil]; exact reads_of cfg cb u0 (h.ws hs)⟩)

theorem array_ok (cfg : Config) (cb : Callback σ) (u0 : σ) {d : Nat}
    {t : List Byte} {e : List Event} (hw : Within cfg.maxNesting (d + 1)) (hs : ElementsOk cfg cb u0 (d + 1) t e) :
    ValueOk cfg cb u0 d (ch '[' :: t ++ [ch ']']) (⟨.arrayBeg, []⟩ :: e ++ [⟨.arrayEnd, []⟩]) :=
  container_ok cfg cb u0 0x5b#8 0x5d#8 .arrayBeg .arrayEnd _ (Or.inl ⟨rfl, rfl, rfl, rfl⟩) (Or.inl ⟨rfl, rfl⟩) d t e hw
    (fun ns e0 p h hl ho => ⟨_, doneBits_closer, hs ns _ e0 p h rfl (by rw [hl]) ho⟩)

theorem object_ok (cfg : Config) (cb : Callback σ) (u0 : σ) {d : Nat}
    {t : List Byte} {e : List Event} (hw : Within cfg.maxNesting (d + 1)) (hs : MembersOk cfg cb u0 (d + 1) t e) :
    ValueOk cfg cb u0 d (ch '{' :: t ++ [ch '}']) (⟨.objectBeg, []⟩ :: e ++ [⟨.objectEnd, []⟩]) :=
  container_ok cfg cb u0 0x7b#8 0x7d#8 .objectBeg .objectEnd _ (Or.inr ⟨rfl, rfl, rfl, rfl⟩) (Or.inr ⟨rfl, rfl⟩) d t e hw
    (fun ns e0 p h hl ho => ⟨_, doneBits_closer, hs ns _ e0 p h rfl rfl (by rw [hl]) ho⟩)

theorem elements_one (cfg : Config) (cb : Callback σ) (u0 : σ) {d : Nat} {w1 t w2 : List Byte} {e : List Event}
    (h1 : Spec.Json.WS w1) (hv : ValueOk cfg cb u0 d t e) (h2 : Spec.Json.WS w2) :
    ElementsOk cfg cb u0 d (w1 ++ t ++ w2) e := by
  intro ns bits e0 p h hb hd ho
  rw [run_append, run_append]
  exact (hv (0x5d#8 :: ns) bits e0 _ (h.ws h1) hb hd ho).ws h2

theorem elements_more (cfg : Config) (cb : Callback σ) (u0 : σ) {d : Nat} {t0 w1 t w2 : List Byte} {e0 e : List Event}
    (h0 : ElementsOk cfg cb u0 d t0 e0) (h1 : Spec.Json.WS w1) (hv : ValueOk cfg cb u0 d t e) (h2 : Spec.Json.WS w2) :
    ElementsOk cfg cb u0 d (t0 ++ [ch ','] ++ (w1 ++ t ++ w2)) (e0 ++ e) := by
  intro ns bits ea p h hb hd ho
  rw [← List.append_assoc] at ho ⊢
  have k := (h0 ns bits ea p h hb hd ho.left).comma
  rw [if_pos rfl] at k
  have r1 := elements_one cfg cb u0 h1 hv h2 ns _ _ _ k rfl hd ho
  generalize w1 ++ t ++ w2 = x at r1
  rw [run_append, run_append]
  exact r1

theorem members_more (cfg : Config) (cb : Callback σ) (u0 : σ) {d : Nat} {t0 m : List Byte} {e0 e : List Event}
    (h0 : MembersOk cfg cb u0 d t0 e0) (hv : MembersOk cfg cb u0 d m e) :
    MembersOk cfg cb u0 d (t0 ++ [ch ','] ++ m) (e0 ++ e) := by
  intro ns bits ea p h hb hb' hd ho
  rw [← List.append_assoc] at ho ⊢
  have k := (h0 ns bits ea p h hb hb' hd ho.left).comma
  rw [if_neg (by decide)] at k
  rw [run_append, run_append]
  exact hv ns _ _ _ k rfl rfl hd ho

theorem member_ok (cfg : Config) (hst : Strict cfg) (cb : Callback σ) (u0 : σ)
    {d : Nat} {w1 b w2 w3 t w4 : List Byte} {s : List Nat} {e : List Event} (h1 : Spec.Json.WS w1) (hb : Body b s)
    (hk : Within cfg.maxKeyLen b.length) (h2 : Spec.Json.WS w2) (h3 : Spec.Json.WS w3) (hv : ValueOk cfg cb u0 d t e)
    (h4 : Spec.Json.WS w4) :
    MembersOk cfg cb u0 d (w1 ++ (ch '"' :: b ++ [ch '"']) ++ w2 ++ [ch ':'] ++ w3 ++ t ++ w4) (⟨.key, utf8s s⟩ :: e) := by
  intro ns bits e0 p h hbk hbv hd ho
  have e1 : e0 ++ (⟨.key, utf8s s⟩ :: e) = (e0 ++ [⟨.key, utf8s s⟩]) ++ e := by simp
  rw [e1] at ho ⊢
  rw [run_append, run_append, run_append, run_append, run_append, run_append]
  have g1 := h.ws h1
  have g2 := quoted_ok cfg hst cb u0 .key .key (Or.inr ⟨rfl, rfl⟩) g1 (by
    have a1 : (run cfg cb p w1).state.key = true := by rw [g1.state]; exact hbk
    have a2 : (run cfg cb p w1).state.value = false := by rw [g1.state]; exact hbv
    simp [mainChar, a1, a2]) hb (by rw [if_pos rfl]; exact hk) ho.left
  have g3 := g2.ws h2
  have g4 : AtMain cfg cb u0 (0x7d#8 :: ns) { value := true } (e0 ++ [⟨.key, utf8s s⟩])
      (step cfg cb (run cfg cb (run cfg cb (run cfg cb p w1) (ch '"' :: b ++ [ch '"'])) w2) 0x3a#8) := by
    refine AtMain.step g3.err g3.auto (q := { run cfg cb (run cfg cb (run cfg cb p w1) (ch '"' :: b ++ [ch '"'])) w2 with
      state := { value := true } }) ?_ ⟨g3.err, g3.auto, g3.nest, rfl, g3.cp0, g3.cp1, g3.trace.of_eq rfl rfl⟩
    have a1 := g3.state
    unfold mainChar
    rw [if_neg (fun k => absurd k.2 (by decide)), if_neg (fun k => absurd k.2 (by decide)),
      if_neg (fun k => absurd k.2 (by decide)), if_pos ⟨by rw [a1]; rfl, rfl⟩]
  exact (hv (0x7d#8 :: ns) _ _ _ (g4.ws h3) rfl hd ho).ws h4

variable (cfg : Config) (hst : Strict cfg) (cb : Callback σ) (u0 : σ)
include hst

mutual
theorem value_complete {d : Nat} {t : List Byte} {e : List Event} : Value cfg d t e → ValueOk cfg cb u0 d t e
  | .null => by rw [word_null]; exact null_ok cfg cb u0 d
  | .false => by rw [word_false]; exact false_ok cfg cb u0 d
  | .true => by rw [word_true]; exact true_ok cfg cb u0 d
  | .number h1 h2 => number_ok cfg cb u0 d h1 h2
  | .string h1 h2 => string_ok cfg hst cb u0 d h1 h2
  | .emptyArray h1 h2 => emptyArray_ok cfg cb u0 h1 h2
  | .array h1 h2 => array_ok cfg cb u0 h1 (elements_complete h2)
  | .emptyObject h1 h2 => emptyObject_ok cfg cb u0 h1 h2
  | .object h1 h2 => object_ok cfg cb u0 h1 (members_complete h2)

theorem elements_complete {d : Nat} {t : List Byte} {e : List Event} : Elements cfg d t e → ElementsOk cfg cb u0 d t e
  | .one h1 h2 h3 => elements_one cfg cb u0 h1 (value_complete h2) h3
  | .more h0 h1 h2 h3 => elements_more cfg cb u0 (elements_complete h0) h1 (value_complete h2) h3

theorem members_complete {d : Nat} {t : List Byte} {e : List Event} : Members cfg d t e → MembersOk cfg cb u0 d t e
  | .one h => member_complete h
  | .more h0 h => members_more cfg cb u0 (members_complete h0) (member_complete h)

theorem member_complete {d : Nat} {t : List Byte} {e : List Event} : Member cfg d t e → MembersOk cfg cb u0 d t e
  | .mk h1 h2 h3 h4 h5 h6 h7 => member_ok cfg hst cb u0 h1 h2 h3 h4 h5 (value_complete h6) h7
end

end
end WS.Sax
