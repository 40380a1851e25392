import Verif.Proof.JsonSax
/-
Invariants of the one-byte machine; `json_feed` is equal to it.
-/
namespace WS.Sax
open WS
section
variable {σ : Type}

/-- What holds of a parser that has not failed. -/
structure Live (cfg : Config) (p : Parser σ) : Prop where
  vpos : p.vpos.offset ≤ p.pos.offset
  str : ∀ t, InStr t p → (strMax cfg t = 0 ∨ p.pos.offset - p.vpos.offset ≤ strMax cfg t) ∧ StrOk p
  num : p.auto = .number → (cfg.maxNumberLen = 0 ∨ p.pos.offset - p.vpos.offset ≤ cfg.maxNumberLen)
  nest : p.state.closer = true ∨ p.state.comma = true → p.nest ≠ []

structure Good (cfg : Config) (p : Parser σ) : Prop where
  fault : p.fault = false
  live : 0 ≤ p.err → Live cfg p

theorem Good.of_neg {cfg : Config} {p : Parser σ} (hf : p.fault = false) (h : p.err < 0) : Good cfg p :=
  ⟨hf, fun h' => by omega⟩

theorem good_raise (cfg : Config) (p : Parser σ) (e : Int) (pos : Pos) (he : e < 0) (hf : p.fault = false) :
    Good cfg (raiseAt p e pos) :=
  Good.of_neg (by rw [raiseAt_fault]; exact hf) (raiseAt_err_neg p e pos he)

theorem process_fault (cfg : Config) (cb : Callback σ) (p : Parser σ) (t : JType) (d : List Byte) :
    (process cfg cb p t d).fault = p.fault := by
  unfold process
  split
  · rfl
  · split
    · rfl
    · split
      · exact raiseAt_fault ..
      · split
        · exact raiseAt_fault ..
        · rfl

theorem good_process (cfg : Config) (cb : Callback σ) (p : Parser σ) (t : JType) (d : List Byte)
    (hf : p.fault = false) (hn : t = .arrayBeg ∨ t = .objectBeg → p.nest ≠ []) :
    Good cfg (process cfg cb p t d) ∧
    (0 ≤ (process cfg cb p t d).err → (process cfg cb p t d).auto = .main ∧ (process cfg cb p t d).pos = p.pos) := by
  refine ⟨⟨by rw [process_fault]; exact hf, ?_⟩, fun h => ⟨process_auto cfg cb p t d h, (process_pos cfg cb p t d h).1⟩⟩
  intro h
  obtain ⟨p', h1, h2, h3, _⟩ := process_main cfg cb p t d h
  have ha := process_auto cfg cb p t d h
  have hp := process_pos cfg cb p t d h
  have hs := process_state cfg cb p t d h
  have hnest : (process cfg cb p t d).nest = p.nest := by rw [h1, ← h3]; rfl
  refine ⟨?_, ?_, ?_, ?_⟩
  · rw [hp.1, hp.2]; exact Nat.le_refl _
  · intro t' ht
    unfold InStr at ht
    rw [ha] at ht
    rcases ht with ⟨_, h⟩ | ⟨_, h⟩ <;> cases h
  · intro h
    rw [ha] at h
    cases h
  · rw [hs, hnest]
    intro hb
    by_cases hne : p.nest = []
    · exfalso
      rw [hne] at hb
      cases t <;> simp [nextBits] at hb
      · exact hn (Or.inl rfl) hne
      · exact hn (Or.inr rfl) hne
    · exact hne

theorem live_keep_str (cfg : Config) (t : JType) (p q : Parser σ) (hk : Keep p q) (hi : InStr t p)
    (hl : Live cfg p) (ho : StrOk q)
    (hm : strMax cfg t = 0 ∨ q.pos.offset + 1 - q.vpos.offset ≤ strMax cfg t) : Live cfg (advance q 1) := by
  have hiq : InStr t (advance q 1) := hi.keep hk.auto
  refine ⟨?_, ?_, ?_, ?_⟩
  · show q.vpos.offset ≤ q.pos.offset + 1
    have := hl.vpos
    rw [hk.pos, hk.vpos]
    omega
  · intro t' ht'
    have : t' = t := by
      rcases hiq with ⟨h1, h2⟩ | ⟨h1, h2⟩ <;> rcases ht' with ⟨h3, h4⟩ | ⟨h3, h4⟩ <;> first
        | exact h3.trans h1.symm
        | (rw [h2] at h4; cases h4)
    rw [this]
    exact ⟨hm, ho⟩
  · intro h
    exfalso
    rcases hiq with ⟨h1, h2⟩ | ⟨h1, h2⟩ <;> (rw [h2] at h; cases h)
  · show q.state.closer = true ∨ q.state.comma = true → q.nest ≠ []
    rw [hk.state, hk.nest]
    exact hl.nest

theorem strOut_good (cfg : Config) (cb : Callback σ) (t : JType) (p q : Parser σ) (s : StrStep σ)
    (hk : Keep p q) (hi : InStr t p) (he : 0 ≤ p.err) (hg : Good cfg p) (hs : StrStep.Ok cfg cb t q s)
    (hna : ∀ r, s ≠ .again r) :
    Good cfg (strOut cfg t s) ∧ (0 ≤ (strOut cfg t s).err → (strOut cfg t s).pos.offset = p.pos.offset + 1) := by
  cases s with
  | again r => exact absurd rfl (hna r)
  | adv r =>
    have hkr : Keep p r := Keep.trans hk hs.1
    simp only [strOut]
    by_cases hc : strMax cfg t ≠ 0 ∧ (advance r 1).pos.offset - (advance r 1).vpos.offset > strMax cfg t
    · have hneg : (chkS cfg t (advance r 1)).err < 0 := by
        unfold chkS
        rw [if_pos hc]
        exact raiseAt_err_neg _ _ _ (by split <;> decide)
      refine ⟨Good.of_neg ?_ hneg, fun h => by omega⟩
      unfold chkS
      rw [if_pos hc]
      unfold raiseForValue
      rw [raiseAt_fault]
      show r.fault = false
      rw [hkr.fault]
      exact hg.fault
    · have e : chkS cfg t (advance r 1) = advance r 1 := if_neg hc
      rw [e]
      refine ⟨⟨by show r.fault = false; rw [hkr.fault]; exact hg.fault, fun _ => ?_⟩, fun _ => ?_⟩
      · refine live_keep_str cfg t p r hkr hi (hg.live he) hs.2 ?_
        show _ ∨ r.pos.offset + 1 - r.vpos.offset ≤ _
        have : (advance r 1).pos.offset = r.pos.offset + 1 := rfl
        have : (advance r 1).vpos.offset = r.vpos.offset := rfl
        omega
      · show r.pos.offset + 1 = _
        rw [hkr.pos]
  | closed r =>
    simp only [strOut]
    obtain ⟨_, hr⟩ := hs
    rw [hr, chkS_process]
    have hf : (advance q 1).fault = false := by
      show q.fault = false
      rw [hk.fault]; exact hg.fault
    have := good_process cfg cb (advance q 1) t q.buf hf (by
      rcases hi with ⟨h1, _⟩ | ⟨h1, _⟩ <;> (subst h1; intro h; rcases h with h | h <;> cases h))
    refine ⟨this.1, fun h => ?_⟩
    rw [(this.2 h).2]
    show q.pos.offset + 1 = _
    rw [hk.pos]
  | fail r =>
    simp only [strOut]
    have hneg : r.err < 0 := hs.1
    rw [chkS_of_neg cfg t r hneg]
    exact ⟨Good.of_neg (by rw [hs.2, hk.fault]; exact hg.fault) hneg, fun h => by omega⟩


theorem strByte_good (cfg : Config) (cb : Callback σ) (t : JType) (p : Parser σ) (c : Byte) (hi : InStr t p)
    (he : 0 ≤ p.err) (hg : Good cfg p) :
    Good cfg (strByte cfg cb t p c) ∧
    (0 ≤ (strByte cfg cb t p c).err → (strByte cfg cb t p c).pos.offset = p.pos.offset + 1) := by
  have ho : StrOk p := ((hg.live he).str t hi).2
  have hok := strCharA_ok cfg cb t p c ho
  cases h : strCharA cfg cb t p c with
  | again q =>
    rw [h] at hok
    obtain ⟨h1, h2⟩ := strByte_again cfg cb t p q c ho h
    have hokq := strCharA_ok cfg cb t q c h2
    have hna : ∀ r, strCharA cfg cb t q c ≠ .again r := by
      intro r hr
      rw [hr] at hokq
      rcases hok.2.1 with hx | hx
      · exact hokq.2.2.1 hx
      · exact hokq.2.2.2 hx
    rw [h1, strByte_not_again cfg cb t q c hna]
    exact strOut_good cfg cb t p q _ hok.1 hi he hg hokq hna
  | adv q =>
    have hna : ∀ r, strCharA cfg cb t p c ≠ .again r := by rw [h]; simp
    rw [strByte_not_again cfg cb t p c hna]
    exact strOut_good cfg cb t p p _ Keep.rfl hi he hg hok hna
  | closed q =>
    have hna : ∀ r, strCharA cfg cb t p c ≠ .again r := by rw [h]; simp
    rw [strByte_not_again cfg cb t p c hna]
    exact strOut_good cfg cb t p p _ Keep.rfl hi he hg hok hna
  | fail q =>
    have hna : ∀ r, strCharA cfg cb t p c ≠ .again r := by rw [h]; simp
    rw [strByte_not_again cfg cb t p c hna]
    exact strOut_good cfg cb t p p _ Keep.rfl hi he hg hok hna

theorem Live.of_lit {cfg : Config} {t : JType} {lit : List Byte} {q : Parser σ} (ha : InLit t lit q)
    (hv : q.vpos.offset ≤ q.pos.offset) (hn : q.state.closer = true ∨ q.state.comma = true → q.nest ≠ []) :
    Live cfg q := by
  refine ⟨hv, ?_, ?_, hn⟩
  · intro t' ht
    exfalso
    rcases ha with ⟨_, _, h⟩ | ⟨_, _, h⟩ | ⟨_, _, h⟩ <;> rcases ht with ⟨_, g⟩ | ⟨_, g⟩ <;> (rw [h] at g; cases g)
  · intro g
    exfalso
    rcases ha with ⟨_, _, h⟩ | ⟨_, _, h⟩ | ⟨_, _, h⟩ <;> (rw [h] at g; cases g)

/-- The claim about one byte given to a sub-automaton. -/
def SubOk (cfg : Config) (p : Parser σ) (r : Parser σ × Bool) : Prop :=
  Good cfg r.1 ∧ (0 ≤ r.1.err → (r.2 = true → r.1.pos.offset = p.pos.offset + 1) ∧
    (r.2 = false → r.1.auto = .main ∧ r.1.pos.offset = p.pos.offset))

theorem litByte_good (cfg : Config) (cb : Callback σ) (t : JType) (lit : List Byte) (p : Parser σ) (c : Byte)
    (ha : InLit t lit p) (he : 0 ≤ p.err) (hg : Good cfg p) : SubOk cfg p (litByte cfg cb t lit p c) := by
  have hl := hg.live he
  unfold litByte
  cases lit[p.sub]? with
  | some l =>
    simp only
    by_cases hc : c ≠ l
    · rw [if_pos hc]
      have hneg : (raiseForValue p errSyntax).err < 0 := raiseAt_err_neg _ _ _ (by decide)
      exact ⟨good_raise cfg p _ _ (by decide) hg.fault, fun h => by simp only at h; omega⟩
    · rw [if_neg hc]
      refine ⟨⟨hg.fault, fun _ => Live.of_lit (t := t) (lit := lit) (ha.keep rfl) ?_ hl.nest⟩,
        fun _ => ⟨fun _ => rfl, (fun h => by cases h)⟩⟩
      show p.vpos.offset ≤ p.pos.offset + 1
      have := hl.vpos
      omega
  | none =>
    simp only
    by_cases hb : isTokenBoundary c = false
    · rw [if_pos hb]
      have hneg : (raise { p with pos := p.vpos } errSyntax).err < 0 := raiseAt_err_neg _ _ _ (by decide)
      exact ⟨good_raise cfg _ _ _ (by decide) hg.fault, fun h => by simp only at h; omega⟩
    · rw [if_neg hb]
      have := good_process cfg cb p t [] hg.fault (by
        rcases ha with ⟨h1, _⟩ | ⟨h1, _⟩ | ⟨h1, _⟩ <;> (subst h1; intro h; rcases h with h | h <;> cases h))
      refine ⟨this.1, fun h => ⟨(fun h => by cases h), fun _ => ?_⟩⟩
      have h2 := this.2 h
      exact ⟨h2.1, by rw [h2.2]⟩

theorem numByte_good (cfg : Config) (cb : Callback σ) (p : Parser σ) (c : Byte)
    (ha : p.auto = .number) (he : 0 ≤ p.err) (hg : Good cfg p) : SubOk cfg p (numByte cfg cb p c) := by
  have hl := hg.live he
  have hff : (numFix p).fault = false := by unfold numFix; split <;> exact hg.fault
  have hfp : (numFix p).pos = p.pos := by unfold numFix; split <;> rfl
  unfold numByte
  cases numChar (numFix p).sub c with
  | next s =>
    simp only
    by_cases hc : cfg.maxNumberLen ≠ 0 ∧
        (append (advance { p with sub := s } 1) [c]).pos.offset - (append (advance { p with sub := s } 1) [c]).vpos.offset > cfg.maxNumberLen
    · have e : chkN cfg (append (advance { p with sub := s } 1) [c]) =
          raiseForValue (append (advance { p with sub := s } 1) [c]) errMaxNumberLen := if_pos hc
      rw [e]
      have hneg : (raiseForValue (append (advance { p with sub := s } 1) [c]) errMaxNumberLen).err < 0 :=
        raiseAt_err_neg _ _ _ (by decide)
      exact ⟨good_raise cfg _ _ _ (by decide) hg.fault, fun h => by simp only at h; omega⟩
    · have e : chkN cfg (append (advance { p with sub := s } 1) [c]) = append (advance { p with sub := s } 1) [c] :=
        if_neg hc
      rw [e]
      refine ⟨⟨hg.fault, fun _ => ⟨?_, ?_, ?_, hl.nest⟩⟩, fun _ => ⟨fun _ => rfl, (fun h => by cases h)⟩⟩
      · show p.vpos.offset ≤ p.pos.offset + 1
        have := hl.vpos
        omega
      · intro t ht
        exfalso
        have ha' : (append (advance { p with sub := s } 1) [c]).auto = .number := ha
        rcases ht with ⟨_, g⟩ | ⟨_, g⟩ <;> (rw [ha'] at g; cases g)
      · intro _
        show _ ∨ (append (advance { p with sub := s } 1) [c]).pos.offset - (append (advance { p with sub := s } 1) [c]).vpos.offset ≤ _
        omega
  | finish =>
    simp only
    have := good_process cfg cb (numFix p) .number p.buf hff (by intro h; rcases h with h | h <;> cases h)
    refine ⟨this.1, fun h => ⟨(fun h => by cases h), fun _ => ?_⟩⟩
    have h2 := this.2 h
    exact ⟨h2.1, by rw [h2.2, hfp]⟩
  | bad =>
    simp only
    have hneg : (raiseForValue (numFix p) errSyntax).err < 0 := raiseAt_err_neg _ _ _ (by decide)
    exact ⟨good_raise cfg _ _ _ (by decide) hff, fun h => by simp only at h; omega⟩

theorem subByte_good (cfg : Config) (cb : Callback σ) (p : Parser σ) (c : Byte)
    (ha : p.auto ≠ .main) (he : 0 ≤ p.err) (hg : Good cfg p) : SubOk cfg p (subByte cfg cb p c) := by
  unfold subByte
  cases h : p.auto with
  | main => exact absurd h ha
  | null => exact litByte_good cfg cb _ _ p c (Or.inl ⟨rfl, rfl, h⟩) he hg
  | false => exact litByte_good cfg cb _ _ p c (Or.inr (Or.inl ⟨rfl, rfl, h⟩)) he hg
  | true => exact litByte_good cfg cb _ _ p c (Or.inr (Or.inr ⟨rfl, rfl, h⟩)) he hg
  | number => exact numByte_good cfg cb p c h he hg
  | string =>
    have := strByte_good cfg cb .string p c (Or.inl ⟨rfl, h⟩) he hg
    exact ⟨this.1, fun hx => ⟨fun _ => this.2 hx, (fun h => by cases h)⟩⟩
  | key =>
    have := strByte_good cfg cb .key p c (Or.inr ⟨rfl, h⟩) he hg
    exact ⟨this.1, fun hx => ⟨fun _ => this.2 hx, (fun h => by cases h)⟩⟩

/-! ### The main automaton -/

theorem handleNewLine_fields (p : Parser σ) (c : Byte) :
    (handleNewLine p c).err = p.err ∧ (handleNewLine p c).fault = p.fault ∧
    (handleNewLine p c).pos.offset = p.pos.offset ∧ (handleNewLine p c).vpos = p.vpos ∧
    (handleNewLine p c).auto = p.auto ∧ (handleNewLine p c).state = p.state ∧ (handleNewLine p c).nest = p.nest ∧
    (handleNewLine p c).sub = p.sub ∧ (handleNewLine p c).buf = p.buf := by
  unfold handleNewLine
  split
  · exact ⟨rfl, rfl, rfl, rfl, rfl, rfl, rfl, rfl, rfl⟩
  · split <;> exact ⟨rfl, rfl, rfl, rfl, rfl, rfl, rfl, rfl, rfl⟩

/-- A fresh sub-automaton takes the byte that started it. -/
def FreshOk (q : Parser σ) (c : Byte) : Prop :=
  q.sub = 0 ∧ ((q.auto = .null ∧ c = 0x6e#8) ∨ (q.auto = .false ∧ c = 0x66#8) ∨ (q.auto = .true ∧ c = 0x74#8) ∨
    (q.auto = .number ∧ (isDigit c = true ∨ c = 0x2d#8)))

def MainStep.Ok (cfg : Config) (p : Parser σ) (c : Byte) : MainStep σ → Prop
  | .adv q => Good cfg (handleNewLine (advance q 1) c) ∧ (0 ≤ q.err → q.pos = p.pos)
  | .again q => Good cfg q ∧ (0 ≤ q.err → q.pos = p.pos ∧ FreshOk q c ∧ p.state.value = true)
  | .stop q => Good cfg q ∧ q.err < 0

theorem good_adv (cfg : Config) (q : Parser σ) (c : Byte) (hg : Good cfg q) (ha : 0 ≤ q.err → q.auto = .main) :
    Good cfg (handleNewLine (advance q 1) c) := by
  obtain ⟨h1, h2, h3, h4, h5, h6, h7, _⟩ := handleNewLine_fields (advance q 1) c
  refine ⟨by rw [h2]; exact hg.fault, fun h => ?_⟩
  rw [h1] at h
  have hl := hg.live h
  have hm : (handleNewLine (advance q 1) c).auto = .main := by rw [h5]; exact ha h
  refine ⟨?_, ?_, ?_, ?_⟩
  · rw [h3, h4]
    show q.vpos.offset ≤ q.pos.offset + 1
    have := hl.vpos
    omega
  · intro t ht
    exfalso
    rcases ht with ⟨_, g⟩ | ⟨_, g⟩ <;> (rw [hm] at g; cases g)
  · intro g
    rw [hm] at g
    cases g
  · rw [h6, h7]
    exact hl.nest

theorem strMax_ne_one (cfg : Config) (t : JType) : strMax cfg t = 0 ∨ 2 ≤ strMax cfg t := by
  unfold strMax
  simp only
  by_cases h : (if t = .key then cfg.maxKeyLen else cfg.maxStringLen) > 0
  · rw [if_pos h]; omega
  · rw [if_neg h]; omega

theorem good_switch_str (cfg : Config) (p : Parser σ) (c : Byte) (t : JType) (a : Automaton) (hg : Good cfg p)
    (he : 0 ≤ p.err) (ha : (t = .string ∧ a = .string) ∨ (t = .key ∧ a = .key)) :
    Good cfg (handleNewLine (advance (switchAutomaton p a) 1) c) := by
  obtain ⟨h1, h2, h3, h4, h5, h6, h7, h8, h9⟩ := handleNewLine_fields (advance (switchAutomaton p a) 1) c
  refine ⟨by rw [h2]; exact hg.fault, fun h => ?_⟩
  have hl := hg.live he
  have hau : (handleNewLine (advance (switchAutomaton p a) 1) c).auto = a := by rw [h5]; rfl
  refine ⟨?_, ?_, ?_, ?_⟩
  · rw [h3, h4]
    show p.pos.offset ≤ p.pos.offset + 1
    omega
  · intro t' ht
    refine ⟨?_, StrOk.of_sub (Or.inl (by rw [h8]; rfl))⟩
    rw [h3, h4]
    show _ ∨ p.pos.offset + 1 - p.pos.offset ≤ _
    have := strMax_ne_one cfg t'
    omega
  · intro g
    exfalso
    rcases ha with ⟨_, h⟩ | ⟨_, h⟩ <;> (rw [hau, h] at g; cases g)
  · rw [h6, h7]
    exact hl.nest

theorem good_switch_lit (cfg : Config) (p : Parser σ) (a : Automaton) (hg : Good cfg p) (he : 0 ≤ p.err)
    (h1 : a ≠ .string) (h2 : a ≠ .key) : Good cfg (switchAutomaton p a) := by
  refine ⟨hg.fault, fun _ => ⟨Nat.le_refl _, ?_, ?_, (hg.live he).nest⟩⟩
  · intro t ht
    exfalso
    rcases ht with ⟨_, g⟩ | ⟨_, g⟩
    · exact h1 g
    · exact h2 g
  · intro _
    right
    show p.pos.offset - p.pos.offset ≤ _
    omega

theorem unexpectedCode_neg (s : Bits) : unexpectedCode s < 0 := by
  unfold unexpectedCode
  repeat' split
  all_goals decide

theorem mainChar_ok (cfg : Config) (cb : Callback σ) (p : Parser σ) (c : Byte) (ha : p.auto = .main)
    (he : 0 ≤ p.err) (hg : Good cfg p) : MainStep.Ok cfg p c (mainChar cfg cb p c) := by
  have hl := hg.live he
  unfold mainChar
  by_cases c1 : p.state.value = true ∧ (c = 0x5b#8 ∨ c = 0x7b#8)
  · rw [if_pos c1]
    by_cases c1a : cfg.maxNesting ≠ 0 ∧ cfg.maxNesting ≤ p.nest.length
    · rw [if_pos c1a]
      exact ⟨good_raise cfg p _ _ (by decide) hg.fault, raiseAt_err_neg _ _ _ (by decide)⟩
    · rw [if_neg c1a]
      have := good_process cfg cb { p with nest := (if c = 0x5b#8 then 0x5d#8 else 0x7d#8) :: p.nest }
        (if c = 0x5b#8 then .arrayBeg else .objectBeg) [] hg.fault (by intro _; simp)
      exact ⟨good_adv cfg _ c this.1 (fun h => (this.2 h).1), fun h => (this.2 h).2⟩
  · rw [if_neg c1]
    by_cases c2 : p.state.closer = true ∧ (c = 0x5d#8 ∨ c = 0x7d#8)
    · rw [if_pos c2]
      have hne := hl.nest (Or.inl c2.1)
      cases hn : p.nest with
      | nil => exact absurd hn hne
      | cons top below =>
        simp only
        by_cases c2a : top ≠ c
        · rw [if_pos c2a]
          exact ⟨good_raise cfg p _ _ (by decide) hg.fault, raiseAt_err_neg _ _ _ (by decide)⟩
        · rw [if_neg c2a]
          have := good_process cfg cb { p with nest := below } (if c = 0x5d#8 then .arrayEnd else .objectEnd) []
            hg.fault (by
              intro h
              by_cases hc : c = 0x5d#8
              · rw [if_pos hc] at h
                rcases h with h | h <;> cases h
              · rw [if_neg hc] at h
                rcases h with h | h <;> cases h)
          exact ⟨good_adv cfg _ c this.1 (fun h => (this.2 h).1), fun h => (this.2 h).2⟩
    · rw [if_neg c2]
      by_cases c3 : p.state.comma = true ∧ c = 0x2c#8
      · rw [if_pos c3]
        have hne := hl.nest (Or.inr c3.1)
        cases hn : p.nest with
        | nil => exact absurd hn hne
        | cons top below =>
          simp only
          refine ⟨good_adv cfg _ c ⟨hg.fault, fun h => ⟨hl.vpos, hl.str, hl.num, ?_⟩⟩ (fun _ => ha), fun _ => rfl⟩
          intro h
          exfalso
          by_cases ht : top = 0x5d#8
          · simp [ht] at h
          · simp [ht] at h
      · rw [if_neg c3]
        by_cases c4 : p.state.colon = true ∧ c = 0x3a#8
        · rw [if_pos c4]
          refine ⟨good_adv cfg _ c ⟨hg.fault, fun h => ⟨hl.vpos, hl.str, hl.num, ?_⟩⟩ (fun _ => ha), fun _ => rfl⟩
          intro h
          simp at h
        · rw [if_neg c4]
          by_cases c5 : p.state.value = true ∧ c = 0x22#8
          · rw [if_pos c5]
            exact ⟨good_switch_str cfg p c .string .string hg he (Or.inl ⟨rfl, rfl⟩), fun _ => rfl⟩
          · rw [if_neg c5]
            by_cases c6 : p.state.key = true ∧ c = 0x22#8
            · rw [if_pos c6]
              exact ⟨good_switch_str cfg p c .key .key hg he (Or.inr ⟨rfl, rfl⟩), fun _ => rfl⟩
            · rw [if_neg c6]
              by_cases c7 : p.state.value = true ∧ (isIn c 0x61 0x7a = true ∨ isIn c 0x41 0x5a = true)
              · rw [if_pos c7]
                by_cases d1 : c = 0x6e#8
                · rw [if_pos d1]
                  exact ⟨good_switch_lit cfg p _ hg he (by decide) (by decide),
                    fun _ => ⟨rfl, ⟨rfl, Or.inl ⟨rfl, d1⟩⟩, c7.1⟩⟩
                · rw [if_neg d1]
                  by_cases d2 : c = 0x66#8
                  · rw [if_pos d2]
                    exact ⟨good_switch_lit cfg p _ hg he (by decide) (by decide),
                      fun _ => ⟨rfl, ⟨rfl, Or.inr (Or.inl ⟨rfl, d2⟩)⟩, c7.1⟩⟩
                  · rw [if_neg d2]
                    by_cases d3 : c = 0x74#8
                    · rw [if_pos d3]
                      exact ⟨good_switch_lit cfg p _ hg he (by decide) (by decide),
                        fun _ => ⟨rfl, ⟨rfl, Or.inr (Or.inr (Or.inl ⟨rfl, d3⟩))⟩, c7.1⟩⟩
                    · rw [if_neg d3]
                      have hneg : (raise p errSyntax).err < 0 := raiseAt_err_neg _ _ _ (by decide)
                      exact ⟨good_raise cfg p _ _ (by decide) hg.fault, fun h => by omega⟩
              · rw [if_neg c7]
                by_cases c8 : p.state.value = true ∧ (isDigit c = true ∨ c = 0x2d#8)
                · rw [if_pos c8]
                  exact ⟨good_switch_lit cfg p _ hg he (by decide) (by decide),
                    fun _ => ⟨rfl, ⟨rfl, Or.inr (Or.inr (Or.inr ⟨rfl, c8.2⟩))⟩, c8.1⟩⟩
                · rw [if_neg c8]
                  by_cases c9 : isWhitespace c = false
                  · rw [if_pos c9]
                    exact ⟨good_raise cfg p _ _ (unexpectedCode_neg _) hg.fault,
                      raiseAt_err_neg _ _ _ (unexpectedCode_neg _)⟩
                  · rw [if_neg c9]
                    exact ⟨good_adv cfg p c hg (fun _ => ha), fun _ => rfl⟩

theorem numChar_fresh (c : Byte) (h : isDigit c = true ∨ c = 0x2d#8) : ∃ s, numChar 0x0003 c = .next s := by
  have : ∀ c : Byte, isDigit c = true ∨ c = 0x2d#8 →
      (match numChar 0x0003 c with | .next _ => true | _ => false) = true := by decide +kernel
  have h1 := this c h
  cases hn : numChar 0x0003 c with
  | next s => exact ⟨s, rfl⟩
  | finish => rw [hn] at h1; cases h1
  | bad => rw [hn] at h1; cases h1

theorem subByte_fresh (cfg : Config) (cb : Callback σ) (q : Parser σ) (c : Byte) (h : FreshOk q c) :
    (subByte cfg cb q c).2 = true := by
  obtain ⟨h0, h⟩ := h
  rcases h with ⟨h1, h2⟩ | ⟨h1, h2⟩ | ⟨h1, h2⟩ | ⟨h1, h2⟩
  · simp [subByte, h1, litByte, h0, h2, litNull]
  · simp [subByte, h1, litByte, h0, h2, litFalse]
  · simp [subByte, h1, litByte, h0, h2, litTrue]
  · obtain ⟨s, hs⟩ := numChar_fresh c h2
    have e : (numFix q).sub = 0x0003 := by
      unfold numFix
      rw [if_pos h0]
    simp only [subByte, h1, numByte]
    rw [e, hs]

theorem FreshOk.auto {q : Parser σ} {c : Byte} (h : FreshOk q c) : q.auto ≠ .main := by
  rcases h.2 with ⟨h, _⟩ | ⟨h, _⟩ | ⟨h, _⟩ | ⟨h, _⟩ <;> (rw [h]; decide)

theorem mainByte_good (cfg : Config) (cb : Callback σ) (p : Parser σ) (c : Byte) (ha : p.auto = .main)
    (he : 0 ≤ p.err) (hg : Good cfg p) :
    Good cfg (mainByte cfg cb p c) ∧
    (0 ≤ (mainByte cfg cb p c).err → (mainByte cfg cb p c).pos.offset = p.pos.offset + 1) := by
  have h := mainChar_ok cfg cb p c ha he hg
  unfold mainByte
  cases hm : mainChar cfg cb p c with
  | adv q =>
    rw [hm] at h
    refine ⟨h.1, fun hx => ?_⟩
    obtain ⟨h1, _, h3, _⟩ := handleNewLine_fields (advance q 1) c
    simp only at hx ⊢
    rw [h1] at hx
    rw [h3]
    show q.pos.offset + 1 = _
    rw [h.2 hx]
  | stop q =>
    rw [hm] at h
    exact ⟨h.1, fun hx => by have := h.2; simp only at hx; omega⟩
  | again q =>
    rw [hm] at h
    simp only
    by_cases hneg : q.err < 0
    · rw [if_pos hneg]
      exact ⟨h.1, fun hx => by omega⟩
    · rw [if_neg hneg]
      obtain ⟨h2, h3, _⟩ := h.2 (by omega)
      have hs := subByte_good cfg cb q c h3.auto (by omega) h.1
      refine ⟨hs.1, fun hx => ?_⟩
      rw [(hs.2 hx).1 (subByte_fresh cfg cb q c h3), h2]

theorem step_good (cfg : Config) (cb : Callback σ) (p : Parser σ) (c : Byte) (hg : Good cfg p) :
    Good cfg (step cfg cb p c) ∧
    (0 ≤ (step cfg cb p c).err → (step cfg cb p c).pos.offset = p.pos.offset + 1) := by
  unfold step
  by_cases h0 : p.err < 0
  · rw [if_pos h0]
    exact ⟨hg, fun h => by omega⟩
  · rw [if_neg h0]
    by_cases ha : p.auto ≠ .main
    · rw [if_pos ha]
      have hs := subByte_good cfg cb p c ha (by omega) hg
      by_cases hc : (subByte cfg cb p c).2 = true ∨ (subByte cfg cb p c).1.err < 0
      · rw [if_pos hc]
        refine ⟨hs.1, fun h => ?_⟩
        rcases hc with hc | hc
        · exact (hs.2 h).1 hc
        · omega
      · rw [if_neg hc]
        have hc1 : (subByte cfg cb p c).2 = false := by
          cases hx : (subByte cfg cb p c).2 with
          | true => exact absurd (Or.inl hx) hc
          | false => rfl
        have hc2 : 0 ≤ (subByte cfg cb p c).1.err := by
          have : ¬ (subByte cfg cb p c).1.err < 0 := fun h => hc (Or.inr h)
          omega
        have h3 := (hs.2 hc2).2 hc1
        have hm := mainByte_good cfg cb (subByte cfg cb p c).1 c h3.1 hc2 hs.1
        refine ⟨hm.1, fun h => ?_⟩
        rw [hm.2 h, h3.2]
    · rw [if_neg ha]
      exact mainByte_good cfg cb p c (by simpa using ha) (by omega) hg

theorem run_good (cfg : Config) (cb : Callback σ) : ∀ (inp : List Byte) (p : Parser σ), Good cfg p →
    Good cfg (run cfg cb p inp) ∧
    (0 ≤ (run cfg cb p inp).err → (run cfg cb p inp).pos.offset = p.pos.offset + inp.length)
  | [], p, hg => ⟨hg, fun _ => rfl⟩
  | c :: cs, p, hg => by
    have hs := step_good cfg cb p c hg
    have hr := run_good cfg cb cs _ hs.1
    rw [run_cons]
    refine ⟨hr.1, fun h => ?_⟩
    have hse : 0 ≤ (step cfg cb p c).err := by
      apply Classical.byContradiction
      intro hc
      rw [run_err cfg cb _ (by omega) cs] at h
      exact hc h
    rw [hr.2 h, hs.2 hse]
    simp only [List.length_cons]
    omega

theorem init_good (cfg : Config) (u : σ) : Good cfg (init u) := by
  refine ⟨rfl, fun _ => ⟨Nat.le_refl _, ?_, (fun h => by cases h), (fun h => by simp [init] at h)⟩⟩
  intro t ht
  rcases ht with ⟨_, g⟩ | ⟨_, g⟩ <;> cases g

/-! ### Feeding a chunk -/

def rank (p : Parser σ) : Nat := if p.auto ≠ .main then 1 else if p.state.value = true then 2 else 0

theorem rank_le (p : Parser σ) : rank p ≤ 2 := by
  unfold rank
  split
  · omega
  · split <;> omega

theorem dispatch_run (cfg : Config) (cb : Callback σ) (p : Parser σ) (input : List Byte) (ha : p.auto ≠ .main)
    (he : 0 ≤ p.err) (hg : Good cfg p) (hne : input ≠ []) :
    Same (run cfg cb p input)
      (run cfg cb (dispatch cfg cb p input false).1 (input.drop (dispatch cfg cb p input false).2)) ∧
    (0 ≤ (dispatch cfg cb p input false).1.err → 0 < (dispatch cfg cb p input false).2 ∨
      ((dispatch cfg cb p input false).1.auto = .main ∧ (dispatch cfg cb p input false).1.state.value = false)) := by
  have hl := hg.live he
  unfold dispatch
  cases h : p.auto with
  | main => exact absurd h ha
  | null =>
    have := litAutomaton_run cfg cb .null litNull p input (Or.inl ⟨rfl, rfl, h⟩) he
    exact ⟨Or.inl this.1, fun hx => this.2 hx hne⟩
  | false =>
    have := litAutomaton_run cfg cb .false litFalse p input (Or.inr (Or.inl ⟨rfl, rfl, h⟩)) he
    exact ⟨Or.inl this.1, fun hx => this.2 hx hne⟩
  | true =>
    have := litAutomaton_run cfg cb .true litTrue p input (Or.inr (Or.inr ⟨rfl, rfl, h⟩)) he
    exact ⟨Or.inl this.1, fun hx => this.2 hx hne⟩
  | number => exact numAutomaton_run cfg cb p input h he hl.vpos (hl.num h) hne
  | string =>
    have hs := hl.str .string (Or.inl ⟨rfl, h⟩)
    have := strAutomaton_run cfg cb .string p input (Or.inl ⟨rfl, h⟩) he hs.2 hl.vpos hs.1
    exact ⟨this.1, fun hx => Or.inl (this.2 hx hne)⟩
  | key =>
    have hs := hl.str .key (Or.inr ⟨rfl, h⟩)
    have := strAutomaton_run cfg cb .key p input (Or.inr ⟨rfl, h⟩) he hs.2 hl.vpos hs.1
    exact ⟨this.1, fun hx => Or.inl (this.2 hx hne)⟩


theorem strLoop_good (cfg : Config) (cb : Callback σ) (t : JType) :
    ∀ (fuel off : Nat) (p : Parser σ) (inp : List Byte),
      InStr t p → 0 ≤ p.err → StrOk p → p.vpos.offset ≤ p.pos.offset →
      (strMax cfg t = 0 ∨ p.pos.offset - p.vpos.offset + inp.length ≤ strMax cfg t + 1) →
      2 * inp.length + replayRank p ≤ fuel → Good cfg (chkS cfg t p) →
      Good cfg (chkS cfg t (strLoop cfg cb t (ignoreIll cfg t) (fixIll cfg t) fuel off p inp).1) := by
  intro fuel
  induction fuel with
  | zero =>
    intro off p inp ha he ho hv hl hf hg
    cases inp with
    | nil => simpa only [strLoop] using hg
    | cons c cs =>
      simp only [List.length_cons] at hf
      omega
  | succ fuel ih =>
    intro off p inp ha he ho hv hl hf hg
    cases inp with
    | nil => simpa only [strLoop] using hg
    | cons c cs =>
      have hlc : (c :: cs).length = cs.length + 1 := rfl
      have hp : chkS cfg t p = p := chkS_le cfg t p (by rw [hlc] at hl; omega)
      rw [hp] at hg
      simp only [strLoop]
      have hsg := strByte_good cfg cb t p c ha he hg
      by_cases ht : tight cfg t p c
      · have ht' : p.sub = 0 ∧ c ≠ 0x22#8 ∧ isControl c = false ∧ c ≠ 0x5c#8 ∧
            (isAscii c = true ∨ ignoreIll cfg t = true) := ht
        rw [if_pos ht']
        have hsplit : cs = cs.takeWhile plain ++ cs.dropWhile plain := (List.takeWhile_append_dropWhile).symm
        generalize hrun : cs.takeWhile plain = rs at hsplit ⊢
        generalize hrest : cs.dropWhile plain = rest at hsplit ⊢
        have hrs : ∀ r ∈ rs, plain r = true := by
          intro r hr
          rw [← hrun] at hr
          exact mem_takeWhile plain cs r hr
        have hlen : cs.length = rs.length + rest.length := by rw [hsplit, List.length_append]
        by_cases hq : p.buf.length + off = 0 ∧ rest.head? = some 0x22#8
        · rw [if_pos hq]
          simp only
          rw [chkS_process]
          exact (good_process cfg cb (advance p (rs.length + 2)) t (c :: rs) hg.fault (by
            rcases ha with ⟨h1, _⟩ | ⟨h1, _⟩ <;> (subst h1; intro h; rcases h with h | h <;> cases h))).1
        · rw [if_neg hq]
          apply ih (off + (rs.length + 1)) (advance (append p (c :: rs)) (rs.length + 1)) rest (ha.keep rfl)
            he (StrOk.of_sub (Or.inl ht.1)) (by show p.vpos.offset ≤ p.pos.offset + (rs.length + 1); omega)
            (by
              show _ ∨ p.pos.offset + (rs.length + 1) - p.vpos.offset + rest.length ≤ _
              rw [hlc] at hl
              omega)
            (by
              have : replayRank (advance (append p (c :: rs)) (rs.length + 1)) = 0 := by
                unfold replayRank
                exact if_pos (Or.inl ht.1)
              rw [this]
              rw [hlc] at hf
              omega)
          rw [← run_tight cfg cb t rs c p ha he ht hrs hv (by
            rw [hlc] at hl
            omega)]
          exact (run_good cfg cb _ p hg).1
      · have ht' : ¬ (p.sub = 0 ∧ c ≠ 0x22#8 ∧ isControl c = false ∧ c ≠ 0x5c#8 ∧
            (isAscii c = true ∨ ignoreIll cfg t = true)) := ht
        rw [if_neg ht']
        have hA := strCharA_not cfg cb t p c ht
        have hok := strCharA_ok cfg cb t p c ho
        rw [← hA]
        cases hs : strCharA cfg cb t p c with
        | adv q =>
          rw [hs] at hok
          have hk := hok.1
          simp only
          rw [strByte_not_again cfg cb t p c (by rw [hs]; simp), hs] at hsg
          exact ih (off + 1) (advance q 1) cs (ha.keep hk.auto) (by show 0 ≤ q.err; rw [hk.err]; exact he)
            hok.2 (by show q.vpos.offset ≤ q.pos.offset + 1; rw [hk.pos, hk.vpos]; omega)
            (by
              show _ ∨ q.pos.offset + 1 - q.vpos.offset + cs.length ≤ _
              rw [hk.pos, hk.vpos]
              rw [hlc] at hl
              omega)
            (by
              have := replayRank_le (advance q 1)
              rw [hlc] at hf
              omega) hsg.1
        | again q =>
          rw [hs] at hok
          have hk := hok.1
          have hag := strByte_again cfg cb t p q c ho hs
          simp only
          have hrank : replayRank q = 0 := if_pos hok.2.1
          have hrankp : replayRank p = 1 := if_neg (by intro h; rcases h with h | h; exact hok.2.2.1 h; exact hok.2.2.2 h)
          have hq : chkS cfg t q = q := chkS_le cfg t q (by rw [hk.pos, hk.vpos]; rw [hlc] at hl; omega)
          refine ih off q (c :: cs) (ha.keep hk.auto) (by rw [hk.err]; exact he) hag.2
            (by rw [hk.pos, hk.vpos]; exact hv) (by rw [hk.pos, hk.vpos]; exact hl) (by omega) ?_
          rw [hq]
          have hlv := hg.live he
          refine ⟨by rw [hk.fault]; exact hg.fault, fun _ => ⟨by rw [hk.pos, hk.vpos]; exact hv, ?_, ?_, ?_⟩⟩
          · intro t' ht'
            rw [hk.pos, hk.vpos]
            exact ⟨(hlv.str t' (ht'.keep hk.auto.symm)).1, hag.2⟩
          · rw [hk.pos, hk.vpos, hk.auto]
            exact hlv.num
          · rw [hk.state, hk.nest]
            exact hlv.nest
        | closed q =>
          simp only
          rw [strByte_not_again cfg cb t p c (by rw [hs]; simp), hs] at hsg
          exact hsg.1
        | fail q =>
          simp only
          rw [strByte_not_again cfg cb t p c (by rw [hs]; simp), hs] at hsg
          exact hsg.1

theorem litLoop_good (cfg : Config) (cb : Callback σ) (t : JType) (lit : List Byte) :
    ∀ (inp : List Byte) (off : Nat) (p : Parser σ), InLit t lit p → 0 ≤ p.err → Good cfg p →
      Good cfg (litLoop lit p off inp).1
  | [], off, p, _, _, hg => hg
  | c :: cs, off, p, ha, he, hg => by
    simp only [litLoop]
    have hb := litByte_good cfg cb t lit p c ha he hg
    unfold litByte at hb
    cases hl : lit[p.sub]? with
    | none => exact hg
    | some l =>
      rw [hl] at hb
      simp only at hb ⊢
      by_cases hc : c ≠ l
      · rw [if_pos hc] at hb ⊢
        exact hb.1
      · rw [if_neg hc] at hb ⊢
        exact litLoop_good cfg cb t lit cs _ _ (ha.keep rfl) he hb.1

theorem litAutomaton_good (cfg : Config) (cb : Callback σ) (t : JType) (lit : List Byte) (p : Parser σ)
    (input : List Byte) (eof : Bool) (ha : InLit t lit p) (he : 0 ≤ p.err) (hg : Good cfg p) :
    Good cfg (litAutomaton cfg cb t lit p input eof).1 := by
  have h := litLoop_good cfg cb t lit input 0 p ha he hg
  unfold litAutomaton
  generalize litLoop lit p 0 input = r at h ⊢
  obtain ⟨p', off, b⟩ := r
  have hpr : Good cfg (process cfg cb p' t []) := (good_process cfg cb p' t [] h.fault (by
    rcases ha with ⟨h1, _⟩ | ⟨h1, _⟩ | ⟨h1, _⟩ <;> (subst h1; intro h; rcases h with h | h <;> cases h))).1
  cases b with
  | true => exact h
  | false =>
    simp only
    cases input.drop off with
    | nil =>
      simp only
      split
      · exact hpr
      · exact h
    | cons c cs =>
      simp only
      split
      · exact good_raise cfg _ _ _ (by decide) h.fault
      · exact hpr

def NumExit.GoodAt (cfg : Config) : NumExit σ → Prop
  | .ranOut p2 seen2 => Good cfg (chkN cfg (append p2 seen2))
  | .returned p2 _ => Good cfg p2

theorem numLoop_good (cfg : Config) (cb : Callback σ) :
    ∀ (inp : List Byte) (p : Parser σ) (seen : List Byte), p.auto = .number → 0 ≤ p.err → p.sub ≠ 0 →
      p.vpos.offset ≤ p.pos.offset →
      (cfg.maxNumberLen = 0 ∨ p.pos.offset - p.vpos.offset + inp.length ≤ cfg.maxNumberLen + 1) →
      Good cfg (chkN cfg (append p seen)) → NumExit.GoodAt cfg (numLoop cfg cb p seen inp)
  | [], p, seen, _, _, _, _, _, hg => hg
  | c :: cs, p, seen, ha, he, hs, hv, hl, hg => by
    have hlc : (c :: cs).length = cs.length + 1 := rfl
    have hchk : chkN cfg (append p seen) = append p seen := chkN_le cfg _ (by
      show _ ∨ p.pos.offset - p.vpos.offset ≤ _
      rw [hlc] at hl
      omega)
    rw [hchk] at hg
    have hfix : numFix (append p seen) = append p seen := if_neg hs
    have hb := numByte_good cfg cb (append p seen) c ha he hg
    unfold numByte at hb
    rw [hfix, show (append p seen).sub = p.sub from rfl] at hb
    simp only [numLoop]
    cases hn : numChar p.sub c with
    | next s =>
      rw [hn] at hb
      simp only at hb ⊢
      have e : append (advance { append p seen with sub := s } 1) [c] =
          append (advance { p with sub := s } 1) (seen ++ [c]) := by
        simp [append, advance]
      rw [e] at hb
      exact numLoop_good cfg cb cs (advance { p with sub := s } 1) (seen ++ [c]) ha he
        (numChar_next _ _ _ hn) (by show p.vpos.offset ≤ p.pos.offset + 1; omega)
        (by
          show _ ∨ p.pos.offset + 1 - p.vpos.offset + cs.length ≤ _
          rw [hlc] at hl
          omega) hb.1
    | finish =>
      simp only
      split
      · exact (good_process cfg cb p .number seen hg.fault (by intro h; rcases h with h | h <;> cases h)).1
      · exact (good_process cfg cb (append p seen) .number _ hg.fault (by intro h; rcases h with h | h <;> cases h)).1
    | bad => exact good_raise cfg p _ _ (by decide) hg.fault

theorem chkN_append (cfg : Config) (p : Parser σ) (seen : List Byte) :
    Same (chkN cfg (append p seen)) (append (chkN cfg p) seen) := by
  unfold chkN
  by_cases hcond : cfg.maxNumberLen ≠ 0 ∧ p.pos.offset - p.vpos.offset > cfg.maxNumberLen
  · rw [if_pos hcond]
    rw [if_pos (show (cfg.maxNumberLen ≠ 0 ∧ (append p seen).pos.offset - (append p seen).vpos.offset > cfg.maxNumberLen) from hcond)]
    refine Or.inr ⟨raiseAt_err_neg _ _ _ (by decide), ?_⟩
    unfold raiseForValue raiseAt
    by_cases h : 0 ≤ p.err <;> simp [h, append]
  · rw [if_neg hcond]
    rw [if_neg (show ¬ (cfg.maxNumberLen ≠ 0 ∧ (append p seen).pos.offset - (append p seen).vpos.offset > cfg.maxNumberLen) from hcond)]
    exact Same.rfl

theorem Good.of_same {cfg : Config} {p q : Parser σ} (h : Same p q) (hg : Good cfg p) : Good cfg q := by
  rcases h with h | ⟨h1, h⟩
  · rw [← h]; exact hg
  · exact Good.of_neg (by rw [h]; exact hg.fault) (by rw [h]; exact h1)

theorem numAutomaton_good (cfg : Config) (cb : Callback σ) (p : Parser σ) (input : List Byte)
    (ha : p.auto = .number) (he : 0 ≤ p.err) (hg : Good cfg p) :
    Good cfg (numAutomaton cfg cb p input false).1 := by
  have hlv := hg.live he
  have hfa : (numFix p).auto = .number := by unfold numFix; split <;> exact ha
  have hfe : (numFix p).err = p.err := by unfold numFix; split <;> rfl
  have hfp : (numFix p).pos = p.pos := by unfold numFix; split <;> rfl
  have hfv : (numFix p).vpos = p.vpos := by unfold numFix; split <;> rfl
  have hfs : (numFix p).sub ≠ 0 := by
    unfold numFix
    by_cases h0 : p.sub = 0 <;> simp [h0]
  have e0 : chkN cfg (append (numFix p) []) = numFix p := by
    have : append (numFix p) [] = numFix p := by simp [append]
    rw [this]
    exact chkN_le cfg _ (by rw [hfp, hfv]; exact hlv.num ha)
  have hgf : Good cfg (numFix p) := by
    unfold numFix
    split
    · refine ⟨hg.fault, fun h => ⟨hlv.vpos, ?_, hlv.num, hlv.nest⟩⟩
      intro t ht
      exfalso
      rcases ht with ⟨_, g⟩ | ⟨_, g⟩ <;> (have g' : p.auto = _ := g; rw [ha] at g'; cases g')
    · exact hg
  have h := numLoop_good cfg cb (cut cfg.maxNumberLen p input) (numFix p) [] hfa (by omega) hfs
    (by rw [hfp, hfv]; exact hlv.vpos) (by rw [hfp, hfv]; exact cut_length _ p input (hlv.num ha))
    (by rw [e0]; exact hgf)
  have hgoal : numAutomaton cfg cb p input false =
      (match numLoop cfg cb (numFix p) [] (cut cfg.maxNumberLen p input) with
        | .returned p2 off => (p2, off)
        | .ranOut p2 seen =>
          if 0 ≤ (chkN cfg p2).err ∧ 0 < seen.length then (append (chkN cfg p2) seen, seen.length)
          else (chkN cfg p2, seen.length)) := rfl
  rw [hgoal]
  generalize numLoop cfg cb (numFix p) [] (cut cfg.maxNumberLen p input) = r at h ⊢
  cases r with
  | returned p2 off => exact h
  | ranOut p2 seen =>
    simp only
    have h' : Good cfg (chkN cfg (append p2 seen)) := h
    have hs := chkN_append cfg p2 seen
    by_cases hc : 0 ≤ (chkN cfg p2).err ∧ 0 < seen.length
    · rw [if_pos hc]
      exact Good.of_same hs h'
    · rw [if_neg hc]
      by_cases hneg : (chkN cfg p2).err < 0
      · have h2 := Good.of_same hs h'
        exact Good.of_neg h2.fault hneg
      · have hl0 : seen = [] := List.length_eq_zero_iff.mp (by omega)
        subst hl0
        have h2 := Good.of_same hs h'
        have : append (chkN cfg p2) [] = chkN cfg p2 := by simp [append]
        rw [this] at h2
        exact h2

theorem dispatch_good (cfg : Config) (cb : Callback σ) (p : Parser σ) (input : List Byte) (ha : p.auto ≠ .main)
    (he : 0 ≤ p.err) (hg : Good cfg p) : Good cfg (dispatch cfg cb p input false).1 := by
  have hl := hg.live he
  have str : ∀ t, InStr t p → Good cfg (strAutomaton cfg cb t p input false).1 := by
    intro t ht
    have hs := hl.str t ht
    exact strLoop_good cfg cb t (2 * (cut (strMax cfg t) p input).length + 1) 0 p (cut (strMax cfg t) p input) ht he
      hs.2 hl.vpos (cut_length _ p input hs.1) (by have := replayRank_le p; omega) (by rw [chkS_le cfg t p hs.1]; exact hg)
  unfold dispatch
  cases h : p.auto with
  | main => exact absurd h ha
  | null => exact litAutomaton_good cfg cb .null litNull p input _ (Or.inl ⟨rfl, rfl, h⟩) he hg
  | false => exact litAutomaton_good cfg cb .false litFalse p input _ (Or.inr (Or.inl ⟨rfl, rfl, h⟩)) he hg
  | true => exact litAutomaton_good cfg cb .true litTrue p input _ (Or.inr (Or.inr ⟨rfl, rfl, h⟩)) he hg
  | number => exact numAutomaton_good cfg cb p input h he hg
  | string => exact str .string (Or.inl ⟨rfl, h⟩)
  | key => exact str .key (Or.inr ⟨rfl, h⟩)

/-- `json_feed`'s loop is the one-byte machine, and never runs out of fuel. -/
theorem feedLoop_run (cfg : Config) (cb : Callback σ) :
    ∀ (fuel : Nat) (p : Parser σ) (inp : List Byte), Good cfg p → 3 * inp.length + rank p < fuel →
      Same (run cfg cb p inp) (feedLoop cfg cb fuel p inp) ∧ Good cfg (feedLoop cfg cb fuel p inp) := by
  intro fuel
  induction fuel with
  | zero => intro p inp _ h; omega
  | succ fuel ih =>
    intro p inp hg hf
    cases inp with
    | nil => simp only [feedLoop]; exact ⟨Same.rfl, hg⟩
    | cons c cs =>
      have hlc : (c :: cs).length = cs.length + 1 := rfl
      rw [hlc] at hf
      simp only [feedLoop]
      by_cases he : p.err < 0
      · rw [if_pos he, run_err cfg cb p he]
        exact ⟨Same.rfl, hg⟩
      · rw [if_neg he]
        have he' : 0 ≤ p.err := by omega
        by_cases ha : p.auto ≠ .main
        · rw [if_pos ha]
          have hr : rank p = 1 := if_pos ha
          have hd := dispatch_run cfg cb p (c :: cs) ha he' hg (by simp)
          have hgd := dispatch_good cfg cb p (c :: cs) ha he' hg
          generalize dispatch cfg cb p (c :: cs) false = r at hd hgd ⊢
          by_cases hn : r.1.err < 0
          · rw [if_pos hn]
            have h1 := hd.1
            rw [run_err cfg cb r.1 hn] at h1
            exact ⟨h1, hgd⟩
          · rw [if_neg hn]
            have hlen : ((c :: cs).drop r.2).length = cs.length + 1 - r.2 := by rw [List.length_drop, hlc]
            have := ih r.1 ((c :: cs).drop r.2) hgd (by
              rw [hlen]
              rcases hd.2 (by omega) with h | ⟨h1, h2⟩
              · have := rank_le r.1
                omega
              · have : rank r.1 = 0 := by
                  unfold rank
                  rw [if_neg (by simp [h1]), if_neg (by simp [h2])]
                omega)
            exact ⟨Same.trans hd.1 this.1, this.2⟩
        · rw [if_neg ha]
          have ha' : p.auto = .main := by simpa using ha
          have hm := mainChar_ok cfg cb p c ha' he' hg
          have hst : step cfg cb p c = mainByte cfg cb p c := by
            unfold step
            rw [if_neg he, if_neg ha]
          have hrun : run cfg cb p (c :: cs) = run cfg cb (mainByte cfg cb p c) cs := by rw [run_cons, hst]
          have hby : mainByte cfg cb p c = (match mainChar cfg cb p c with
            | .adv q => handleNewLine (advance q 1) c
            | .stop q => q
            | .again q => if q.err < 0 then q else (subByte cfg cb q c).1) := rfl
          cases hmc : mainChar cfg cb p c with
          | adv q =>
            rw [hmc] at hm hby
            simp only at hby ⊢
            have := ih (handleNewLine (advance q 1) c) cs hm.1 (by
              have := rank_le (handleNewLine (advance q 1) c)
              omega)
            rw [hrun, hby]
            exact this
          | stop q =>
            rw [hmc] at hm hby
            simp only at hby ⊢
            rw [hrun, hby, run_err cfg cb q hm.2]
            exact ⟨Same.rfl, hm.1⟩
          | again q =>
            rw [hmc] at hm hby
            simp only at hby ⊢
            by_cases hn : q.err < 0
            · rw [if_pos hn] at hby
              rw [hrun, hby, run_err cfg cb q hn]
              have hfl : feedLoop cfg cb fuel q (c :: cs) = q := by
                cases fuel with
                | zero => omega
                | succ f =>
                  simp only [feedLoop]
                  rw [if_pos hn]
              rw [hfl]
              exact ⟨Same.rfl, hm.1⟩
            · rw [if_neg hn] at hby
              obtain ⟨h2, h3, h4⟩ := hm.2 (by omega)
              have hrp : rank p = 2 := by
                unfold rank
                rw [if_neg ha, if_pos h4]
              have hrq : rank q = 1 := if_pos h3.auto
              have := ih q (c :: cs) hm.1 (by rw [hlc]; omega)
              have hsq : step cfg cb q c = (subByte cfg cb q c).1 := by
                unfold step
                rw [if_neg hn, if_pos h3.auto, if_pos (Or.inl (subByte_fresh cfg cb q c h3))]
              rw [hrun, hby, ← hsq, ← run_cons]
              exact this

theorem skipTo_good (cfg : Config) : ∀ (inp : List Byte) (p : Parser σ), p.fault = false →
    p.pos.offset + inp.length > cfg.maxTotalLen →
    (skipTo cfg p inp).fault = false ∧ (skipTo cfg p inp).err = p.err ∧ (skipTo cfg p inp).user = p.user
  | [], p, hf, hl => by
    simp only [skipTo]
    rw [if_neg (by simp at hl; omega)]
    exact ⟨hf, rfl, rfl⟩
  | c :: cs, p, hf, hl => by
    unfold skipTo
    by_cases h : p.pos.offset < cfg.maxTotalLen
    · rw [if_pos h]
      cases cs with
      | nil =>
        simp only [List.length_cons, List.length_nil] at hl
        omega
      | cons d ds =>
        simp only
        obtain ⟨h1, h2, h3, _⟩ := handleNewLine_fields (advance p 1) d
        have ih := skipTo_good cfg (d :: ds) (handleNewLine (advance p 1) d) (by rw [h2]; exact hf) (by
          rw [h3]
          show p.pos.offset + 1 + (d :: ds).length > _
          simp only [List.length_cons] at hl ⊢
          omega)
        have hu : (handleNewLine (advance p 1) d).user = p.user := by
          unfold handleNewLine
          split
          · rfl
          · split <;> rfl
        rw [ih.2.1, h1, ih.2.2, hu]
        exact ⟨ih.1, rfl, rfl⟩
    · rw [if_neg h]
      exact ⟨hf, rfl, rfl⟩

theorem feed_run (cfg : Config) (cb : Callback σ) (p : Parser σ) (inp : List Byte) (hg : Good cfg p)
    (hl : cfg.maxTotalLen = 0 ∨ p.pos.offset + inp.length ≤ cfg.maxTotalLen) :
    Same (run cfg cb p inp) (feed cfg cb p inp) := by
  unfold feed
  simp only
  rw [if_neg (by omega)]
  exact (feedLoop_run cfg cb (3 * inp.length + 3) p inp hg (by have := rank_le p; omega)).1

theorem feed_good (cfg : Config) (cb : Callback σ) (p : Parser σ) (inp : List Byte) (hg : Good cfg p) :
    Good cfg (feed cfg cb p inp) := by
  unfold feed
  simp only
  refine (feedLoop_run cfg cb (3 * inp.length + 3) _ inp ?_ (by
    generalize (if cfg.maxTotalLen ≠ 0 ∧ p.pos.offset + inp.length > cfg.maxTotalLen then
      raise (skipTo cfg p inp) errMaxTotalLen else p) = q
    have := rank_le q
    omega)).2
  split
  · rename_i h
    exact good_raise cfg _ _ _ (by decide) (skipTo_good cfg inp p hg.fault h.2).1
  · exact hg

theorem feed_over (cfg : Config) (cb : Callback σ) (p : Parser σ) (inp : List Byte)
    (h : cfg.maxTotalLen ≠ 0 ∧ p.pos.offset + inp.length > cfg.maxTotalLen) : (feed cfg cb p inp).err < 0 := by
  unfold feed
  simp only
  rw [if_pos h]
  have hneg : (raise (skipTo cfg p inp) errMaxTotalLen).err < 0 := raiseAt_err_neg _ _ _ (by decide)
  generalize raise (skipTo cfg p inp) errMaxTotalLen = q at hneg
  cases inp with
  | nil => simp only [feedLoop]; exact hneg
  | cons c cs =>
    simp only [feedLoop, List.length_cons]
    rw [if_pos hneg]
    exact hneg

theorem feed_neg (cfg : Config) (cb : Callback σ) (p : Parser σ) (inp : List Byte) (h : p.err < 0) :
    (feed cfg cb p inp).err = p.err ∧ (feed cfg cb p inp).errPos = p.errPos ∧ (feed cfg cb p inp).user = p.user := by
  have hsk : ∀ (inp : List Byte) (q : Parser σ), (skipTo cfg q inp).err = q.err ∧
      (skipTo cfg q inp).errPos = q.errPos ∧ (skipTo cfg q inp).user = q.user := by
    intro inp
    induction inp with
    | nil => intro q; unfold skipTo; split <;> exact ⟨rfl, rfl, rfl⟩
    | cons c cs ih =>
      intro q
      unfold skipTo
      split
      · cases cs with
        | nil => exact ⟨rfl, rfl, rfl⟩
        | cons d ds =>
          simp only
          have := ih (handleNewLine (advance q 1) d)
          rw [this.1, this.2.1, this.2.2]
          unfold handleNewLine
          split
          · exact ⟨rfl, rfl, rfl⟩
          · split <;> exact ⟨rfl, rfl, rfl⟩
      · exact ⟨rfl, rfl, rfl⟩
  have key : ∀ q : Parser σ, q.err < 0 → feedLoop cfg cb (3 * inp.length + 3) q inp = q := by
    intro q hq
    cases inp with
    | nil => simp only [feedLoop]
    | cons c cs =>
      simp only [feedLoop, List.length_cons]
      rw [if_pos hq]
  unfold feed
  simp only
  split
  · have hs := hsk inp p
    have e : raise (skipTo cfg p inp) errMaxTotalLen = skipTo cfg p inp := raiseAt_of_neg _ _ _ (by rw [hs.1]; exact h)
    rw [e, key _ (by rw [hs.1]; exact h)]
    exact hs
  · rw [key p h]
    exact ⟨rfl, rfl, rfl⟩

end
end WS.Sax
