import Verif.Model.JsonSax
/-
The chunk-wise parser of Model/JsonSax is equal, on every chunk, to a machine taking one byte at a time.
-/
namespace WS.Sax
open WS
section
variable {σ : Type}

/-! ### The one-byte machine -/

/-- `strChar` including the tight loop's case. -/
def strCharA (cfg : Config) (cb : Callback σ) (t : JType) (p : Parser σ) (c : Byte) : StrStep σ :=
  if p.sub = 0 ∧ c ≠ 0x22#8 ∧ isControl c = false ∧ c ≠ 0x5c#8 ∧ (isAscii c = true ∨ ignoreIll cfg t = true) then
    .adv (append p [c])
  else strChar cfg cb t (ignoreIll cfg t) (fixIll cfg t) p c

def chkS (cfg : Config) (t : JType) (q : Parser σ) : Parser σ :=
  if strMax cfg t ≠ 0 ∧ q.pos.offset - q.vpos.offset > strMax cfg t then
    raiseForValue q (if t = .key then errMaxKeyLen else errMaxStringLen)
  else q

def chkN (cfg : Config) (q : Parser σ) : Parser σ :=
  if cfg.maxNumberLen ≠ 0 ∧ q.pos.offset - q.vpos.offset > cfg.maxNumberLen then
    raiseForValue q errMaxNumberLen
  else q

def strOut (cfg : Config) (t : JType) : StrStep σ → Parser σ
  | .adv q => chkS cfg t (advance q 1)
  | .closed q => chkS cfg t q
  | .fail q => chkS cfg t q
  | .again q => { q with fault := true }

def strByte (cfg : Config) (cb : Callback σ) (t : JType) (p : Parser σ) (c : Byte) : Parser σ :=
  match strCharA cfg cb t p c with
  | .again q => strOut cfg t (strCharA cfg cb t q c)
  | s => strOut cfg t s

def litByte (cfg : Config) (cb : Callback σ) (t : JType) (lit : List Byte) (p : Parser σ) (c : Byte) :
    Parser σ × Bool :=
  match lit[p.sub]? with
  | some l => if c ≠ l then (raiseForValue p errSyntax, false) else ({ advance p 1 with sub := p.sub + 1 }, true)
  | none =>
    if isTokenBoundary c = false then (raise { p with pos := p.vpos } errSyntax, false)
    else (process cfg cb p t [], false)

def numFix (p : Parser σ) : Parser σ := if p.sub = 0 then { p with sub := 0x0003 } else p

def numByte (cfg : Config) (cb : Callback σ) (p : Parser σ) (c : Byte) : Parser σ × Bool :=
  match numChar (numFix p).sub c with
  | .next s => (chkN cfg (append (advance { p with sub := s } 1) [c]), true)
  | .finish => (process cfg cb (numFix p) .number p.buf, false)
  | .bad => (raiseForValue (numFix p) errSyntax, false)

def subByte (cfg : Config) (cb : Callback σ) (p : Parser σ) (c : Byte) : Parser σ × Bool :=
  match p.auto with
  | .null => litByte cfg cb .null litNull p c
  | .false => litByte cfg cb .false litFalse p c
  | .true => litByte cfg cb .true litTrue p c
  | .number => numByte cfg cb p c
  | .string => (strByte cfg cb .string p c, true)
  | .key => (strByte cfg cb .key p c, true)
  | .main => (p, false)

def mainByte (cfg : Config) (cb : Callback σ) (p : Parser σ) (c : Byte) : Parser σ :=
  match mainChar cfg cb p c with
  | .adv q => handleNewLine (advance q 1) c
  | .stop q => q
  | .again q => if q.err < 0 then q else (subByte cfg cb q c).1

/-- One byte of input. -/
def step (cfg : Config) (cb : Callback σ) (p : Parser σ) (c : Byte) : Parser σ :=
  if p.err < 0 then p
  else if p.auto ≠ .main then
    (if (subByte cfg cb p c).2 = true ∨ (subByte cfg cb p c).1.err < 0 then (subByte cfg cb p c).1
     else mainByte cfg cb (subByte cfg cb p c).1 c)
  else mainByte cfg cb p c

def run (cfg : Config) (cb : Callback σ) (p : Parser σ) (inp : List Byte) : Parser σ := inp.foldl (step cfg cb) p

/-- Parsers equal in all that matters: after an error the buffer is never read again. -/
def Same (p q : Parser σ) : Prop := p = q ∨ (p.err < 0 ∧ q = { p with buf := q.buf })

theorem Same.rfl {p : Parser σ} : Same p p := Or.inl _root_.rfl

theorem Same.err_eq {p q : Parser σ} (h : Same p q) : p.err = q.err := by
  rcases h with h | ⟨_, h⟩
  · rw [h]
  · rw [h]

theorem Same.symm {p q : Parser σ} (h : Same p q) : Same q p := by
  rcases h with h | ⟨h1, h⟩
  · exact Or.inl h.symm
  · exact Or.inr ⟨by rw [h]; exact h1, by rw [h]⟩

theorem Same.trans {p q r : Parser σ} (h : Same p q) (g : Same q r) : Same p r := by
  rcases h with h | ⟨h1, h⟩
  · rw [h]; exact g
  · rcases g with g | ⟨_, g⟩
    · rw [← g]; exact Or.inr ⟨h1, h⟩
    · refine Or.inr ⟨h1, ?_⟩
      rw [h] at g
      rw [g]

@[simp] theorem step_err (cfg : Config) (cb : Callback σ) (p : Parser σ) (c : Byte) (h : p.err < 0) :
    step cfg cb p c = p := by
  simp [step, h]

theorem run_err (cfg : Config) (cb : Callback σ) (p : Parser σ) (h : p.err < 0) :
    ∀ inp : List Byte, run cfg cb p inp = p
  | [] => rfl
  | c :: cs => by
    show run cfg cb (step cfg cb p c) cs = p
    rw [step_err cfg cb p c h]
    exact run_err cfg cb p h cs

theorem run_same (cfg : Config) (cb : Callback σ) {p q : Parser σ} (h : Same p q) (inp : List Byte) :
    Same (run cfg cb p inp) (run cfg cb q inp) := by
  rcases h with h | ⟨h1, h⟩
  · rw [h]; exact Same.rfl
  · have h2 : q.err < 0 := by rw [h]; exact h1
    rw [run_err cfg cb p h1, run_err cfg cb q h2]
    exact Or.inr ⟨h1, h⟩

theorem run_append (cfg : Config) (cb : Callback σ) (p : Parser σ) (a b : List Byte) :
    run cfg cb p (a ++ b) = run cfg cb (run cfg cb p a) b := by
  simp [run, List.foldl_append]

theorem run_cons (cfg : Config) (cb : Callback σ) (p : Parser σ) (c : Byte) (b : List Byte) :
    run cfg cb p (c :: b) = run cfg cb (step cfg cb p c) b := rfl

/-! ### `process` and the buffer -/

theorem raiseAt_err_neg (p : Parser σ) (e : Int) (pos : Pos) (he : e < 0) : (raiseAt p e pos).err < 0 := by
  unfold raiseAt
  split
  · exact he
  · omega

theorem raiseAt_fault (p : Parser σ) (e : Int) (pos : Pos) : (raiseAt p e pos).fault = p.fault := by
  unfold raiseAt
  split <;> rfl

theorem raiseAt_of_neg (p : Parser σ) (e : Int) (pos : Pos) (h : p.err < 0) : raiseAt p e pos = p := by
  unfold raiseAt
  rw [if_neg (by omega)]

theorem raiseAt_buf (p : Parser σ) (e : Int) (pos : Pos) (he : e < 0) (b : List Byte) :
    Same (raiseAt p e pos) (raiseAt { p with buf := b } e pos) := by
  refine Or.inr ⟨raiseAt_err_neg p e pos he, ?_⟩
  unfold raiseAt
  by_cases h : 0 ≤ p.err <;> simp [h]

theorem deliver_buf (cb : Callback σ) (p : Parser σ) (t : JType) (d : List Byte) (b : List Byte) :
    deliver cb { p with buf := b } t d = deliver cb p t d := rfl

theorem process_buf (cfg : Config) (cb : Callback σ) (p : Parser σ) (t : JType) (d b : List Byte) :
    Same (process cfg cb p t d) (process cfg cb { p with buf := b } t d) := by
  unfold process
  by_cases h1 : p.err < 0
  · simp only [h1, if_true]
    exact Or.inr ⟨h1, rfl⟩
  · simp only [h1, if_false]
    by_cases h2 : t = .arrayEnd ∨ t = .objectEnd
    · simp only [h2, if_true]
      exact Or.inl rfl
    · simp only [h2, if_false]
      by_cases h3 : p.vcount = 0 ∧ rootBad cfg t = true
      · rw [if_pos h3, if_pos h3]
        exact raiseAt_buf p errBadRootType p.vpos (by decide) b
      · rw [if_neg h3, if_neg h3]
        by_cases h4 : cfg.maxTotalValues ≠ 0 ∧ cfg.maxTotalValues ≤ p.vcount
        · rw [if_pos h4, if_pos h4]
          exact raiseAt_buf p errMaxTotalValues p.vpos (by decide) b
        · rw [if_neg h4, if_neg h4]
          exact Or.inl rfl

/-- After `process` either there is an error or the main automaton is active. -/
theorem process_main (cfg : Config) (cb : Callback σ) (p : Parser σ) (t : JType) (d : List Byte)
    (h : 0 ≤ (process cfg cb p t d).err) :
    ∃ p' : Parser σ, process cfg cb p t d = deliver cb p' t d ∧ p'.pos = p.pos ∧ p'.nest = p.nest ∧
      p'.fault = p.fault ∧ p'.cp0 = p.cp0 ∧ p'.cp1 = p.cp1 ∧ p'.user = p.user ∧ p'.vpos = p.vpos ∧ p'.lastCl = p.lastCl ∧
      0 ≤ p.err := by
  unfold process at h ⊢
  by_cases h1 : p.err < 0
  · simp only [h1, if_true] at h
    omega
  · simp only [h1, if_false] at h ⊢
    have h1' : 0 ≤ p.err := by omega
    by_cases h2 : t = .arrayEnd ∨ t = .objectEnd
    · simp only [h2, if_true] at h ⊢
      exact ⟨p, rfl, rfl, rfl, rfl, rfl, rfl, rfl, rfl, rfl, h1'⟩
    · simp only [h2, if_false] at h ⊢
      by_cases h3 : p.vcount = 0 ∧ rootBad cfg t = true
      · simp only [h3, and_self, if_true] at h
        have := raiseAt_err_neg p errBadRootType p.vpos (by decide)
        unfold raiseForValue at h
        omega
      · simp only [h3, if_false] at h ⊢
        by_cases h4 : cfg.maxTotalValues ≠ 0 ∧ cfg.maxTotalValues ≤ p.vcount
        · rw [if_pos h4] at h
          have := raiseAt_err_neg p errMaxTotalValues p.vpos (by decide)
          unfold raiseForValue at h
          omega
        · rw [if_neg h4]
          exact ⟨_, rfl, rfl, rfl, rfl, rfl, rfl, rfl, rfl, rfl, h1'⟩

theorem deliver_auto (cb : Callback σ) (p : Parser σ) (t : JType) (d : List Byte) :
    (deliver cb p t d).auto = .main := rfl

theorem process_auto (cfg : Config) (cb : Callback σ) (p : Parser σ) (t : JType) (d : List Byte)
    (h : 0 ≤ (process cfg cb p t d).err) : (process cfg cb p t d).auto = .main := by
  obtain ⟨p', h1, _⟩ := process_main cfg cb p t d h
  rw [h1]; rfl

theorem process_state (cfg : Config) (cb : Callback σ) (p : Parser σ) (t : JType) (d : List Byte)
    (h : 0 ≤ (process cfg cb p t d).err) : (process cfg cb p t d).state = nextBits t (!p.nest.isEmpty) := by
  obtain ⟨p', h1, h2, h3, _⟩ := process_main cfg cb p t d h
  rw [h1, ← h3]; rfl

theorem process_pos (cfg : Config) (cb : Callback σ) (p : Parser σ) (t : JType) (d : List Byte)
    (h : 0 ≤ (process cfg cb p t d).err) :
    (process cfg cb p t d).pos = p.pos ∧ (process cfg cb p t d).vpos = p.pos := by
  obtain ⟨p', h1, h2, _⟩ := process_main cfg cb p t d h
  rw [h1, ← h2]; exact ⟨rfl, rfl⟩

theorem chkS_of_neg (cfg : Config) (t : JType) (q : Parser σ) (h : q.err < 0) : chkS cfg t q = q := by
  unfold chkS
  split
  · exact raiseAt_of_neg _ _ _ h
  · rfl

theorem chkS_process (cfg : Config) (cb : Callback σ) (t t' : JType) (p : Parser σ) (d : List Byte) :
    chkS cfg t (process cfg cb p t' d) = process cfg cb p t' d := by
  by_cases h : (process cfg cb p t' d).err < 0
  · exact chkS_of_neg _ _ _ h
  · have := process_pos cfg cb p t' d (by omega)
    unfold chkS
    rw [if_neg]
    rw [this.1, this.2]
    omega

theorem chkS_le (cfg : Config) (t : JType) (q : Parser σ)
    (h : strMax cfg t = 0 ∨ q.pos.offset - q.vpos.offset ≤ strMax cfg t) : chkS cfg t q = q := by
  unfold chkS
  rw [if_neg]
  omega

theorem chkS_err (cfg : Config) (t : JType) (q : Parser σ) (h : 0 ≤ (chkS cfg t q).err) :
    0 ≤ q.err ∧ chkS cfg t q = q := by
  unfold chkS at h ⊢
  by_cases hc : strMax cfg t ≠ 0 ∧ q.pos.offset - q.vpos.offset > strMax cfg t
  · rw [if_pos hc] at h
    have := raiseAt_err_neg q (if t = .key then errMaxKeyLen else errMaxStringLen) q.vpos (by split <;> decide)
    unfold raiseForValue at h
    omega
  · rw [if_neg hc] at h
    exact ⟨h, if_neg hc⟩

theorem chkN_le (cfg : Config) (q : Parser σ)
    (h : cfg.maxNumberLen = 0 ∨ q.pos.offset - q.vpos.offset ≤ cfg.maxNumberLen) : chkN cfg q = q := by
  unfold chkN
  rw [if_neg]
  omega


/-! ### One byte of a string -/

/-- `q` differs from `p` in the string automaton's own variables only. -/
def Keep (p q : Parser σ) : Prop := q = { p with buf := q.buf, sub := q.sub, cp0 := q.cp0, cp1 := q.cp1 }

theorem Keep.rfl {p : Parser σ} : Keep p p := _root_.rfl

theorem Keep.trans {p q r : Parser σ} (h : Keep p q) (g : Keep q r) : Keep p r := by
  unfold Keep at h g ⊢
  rw [h] at g
  exact g

theorem Keep.pos {p q : Parser σ} (h : Keep p q) : q.pos = p.pos := by rw [h]
theorem Keep.vpos {p q : Parser σ} (h : Keep p q) : q.vpos = p.vpos := by rw [h]
theorem Keep.err {p q : Parser σ} (h : Keep p q) : q.err = p.err := by rw [h]
theorem Keep.auto {p q : Parser σ} (h : Keep p q) : q.auto = p.auto := by rw [h]
theorem Keep.fault {p q : Parser σ} (h : Keep p q) : q.fault = p.fault := by rw [h]
theorem Keep.nest {p q : Parser σ} (h : Keep p q) : q.nest = p.nest := by rw [h]
theorem Keep.state {p q : Parser σ} (h : Keep p q) : q.state = p.state := by rw [h]

/-- Inside a multi-byte character its first bytes are in the buffer. -/
def StrOk (p : Parser σ) : Prop := 1 ≤ p.sub → p.sub ≤ 7 → (cancelPartial p.buf).isSome = true

theorem byte_lead (c : Byte) (s : Nat) (h : leadState c = some s) : c &&& 0xc0#8 ≠ 0x80#8 := by
  revert h
  have : ∀ c : Byte, (leadState c).isSome = true → c &&& 0xc0#8 ≠ 0x80#8 := by decide +kernel
  intro h
  exact this c (by rw [h]; rfl)

theorem leadState_range (c : Byte) (s : Nat) (h : leadState c = some s) : 1 ≤ s ∧ s ≤ 7 := by
  have : ∀ c : Byte, ∀ s ∈ leadState c, 1 ≤ s ∧ s ≤ 7 := by decide +kernel
  exact this c s h

theorem isIn_trail (c : Byte) (lo hi : Nat) (hl : 0x80 ≤ lo) (hh : hi ≤ 0xbf) (h : isIn c lo hi = true) :
    c &&& 0xc0#8 = 0x80#8 := by
  have : ∀ c : Byte, isIn c 0x80 0xbf = true → c &&& 0xc0#8 = 0x80#8 := by decide +kernel
  apply this
  simp only [isIn, Bool.and_eq_true, decide_eq_true_eq] at h ⊢
  omega

theorem trail_byte (sub : Nat) (c : Byte) (s : Nat) (h : trailState sub c = some s) : c &&& 0xc0#8 = 0x80#8 := by
  unfold trailState at h
  by_cases h1 : sub ≤ 3 ∧ c &&& 0xc0#8 = 0x80#8
  · exact h1.2
  · rw [if_neg h1] at h
    by_cases h2 : sub = 4 ∧ isIn c 0xa0 0xbf = true
    · exact isIn_trail c _ _ (by decide) (by decide) h2.2
    · rw [if_neg h2] at h
      by_cases h3 : sub = 5 ∧ isIn c 0x80 0x9f = true
      · exact isIn_trail c _ _ (by decide) (by decide) h3.2
      · rw [if_neg h3] at h
        by_cases h4 : sub = 6 ∧ isIn c 0x90 0xbf = true
        · exact isIn_trail c _ _ (by decide) (by decide) h4.2
        · rw [if_neg h4] at h
          by_cases h5 : sub = 7 ∧ isIn c 0x80 0x8f = true
          · exact isIn_trail c _ _ (by decide) (by decide) h5.2
          · rw [if_neg h5] at h
            cases h

theorem cancelPartial_lead (b : List Byte) (c : Byte) (h : c &&& 0xc0#8 ≠ 0x80#8) :
    cancelPartial (b ++ [c]) = some b := by
  simp [cancelPartial, cancelTrailing, h]

theorem cancelPartial_trail (b : List Byte) (c : Byte) (h : c &&& 0xc0#8 = 0x80#8) :
    cancelPartial (b ++ [c]) = cancelPartial b := by
  simp [cancelPartial, cancelTrailing, h]

theorem StrOk.of_sub {p : Parser σ} (h : p.sub = 0 ∨ 7 < p.sub) : StrOk p := by
  intro h1 h2
  omega

theorem illSurrogate_cases (p : Parser σ) (cp : Nat) (i f : Bool) :
    (∃ b, illSurrogate p cp i f = ({ p with buf := b }, true)) ∨
    (illSurrogate p cp i f = (raise p errInvalidUtf8, false)) := by
  unfold illSurrogate
  by_cases hi : i = true
  · rw [if_pos hi]
    exact Or.inl ⟨_, rfl⟩
  · rw [if_neg hi]
    by_cases hf : f = true
    · rw [if_pos hf]
      exact Or.inl ⟨_, rfl⟩
    · rw [if_neg hf]
      exact Or.inr rfl

def StrStep.Ok (cfg : Config) (cb : Callback σ) (t : JType) (p : Parser σ) : StrStep σ → Prop
  | .adv q => Keep p q ∧ StrOk q
  | .again q => Keep p q ∧ (q.sub = 0 ∨ q.sub = 0x5c) ∧ p.sub ≠ 0 ∧ p.sub ≠ 0x5c
  | .closed q => p.sub = 0 ∧ q = process cfg cb (advance p 1) t p.buf
  | .fail q => q.err < 0 ∧ q.fault = p.fault

theorem finishEscape_ok (cfg : Config) (cb : Callback σ) (t : JType) (p0 p : Parser σ) (hk : Keep p0 p) (i f : Bool) :
    StrStep.Ok cfg cb t p0 (finishEscape p i f) := by
  unfold finishEscape
  have key : ∀ q : Parser σ, Keep p0 q →
      StrStep.Ok cfg cb t p0
        (if q.cp0 = 0 ∧ isLo q.cp1 = true then
          match illSurrogate q q.cp1 i f with
          | (q, false) => .fail q
          | (q, true) => .adv { q with sub := 0, cp1 := 0 }
        else if q.cp0 ≠ 0 ∧ isLo q.cp1 = true then
          .adv { appendCodepoint q (0x10000 + (q.cp0 - 0xd800) * 0x400 + (q.cp1 - 0xdc00)) with
                 sub := 0, cp0 := 0, cp1 := 0 }
        else if isHi q.cp1 = true then
          .adv { q with cp0 := q.cp1, sub := 0xabcd - 2, cp1 := 0 }
        else
          .adv { appendCodepoint q q.cp1 with sub := 0, cp1 := 0 }) := by
    intro q hq
    by_cases h1 : q.cp0 = 0 ∧ isLo q.cp1 = true
    · rw [if_pos h1]
      rcases illSurrogate_cases q q.cp1 i f with ⟨b, hb⟩ | hb
      · rw [hb]
        exact ⟨Keep.trans hq rfl, StrOk.of_sub (Or.inl rfl)⟩
      · rw [hb]
        exact ⟨raiseAt_err_neg _ _ _ (by decide), (raiseAt_fault _ _ _).trans hq.fault⟩
    · rw [if_neg h1]
      by_cases h2 : q.cp0 ≠ 0 ∧ isLo q.cp1 = true
      · rw [if_pos h2]
        exact ⟨Keep.trans hq rfl, StrOk.of_sub (Or.inl rfl)⟩
      · rw [if_neg h2]
        by_cases h3 : isHi q.cp1 = true
        · rw [if_pos h3]
          exact ⟨Keep.trans hq rfl, StrOk.of_sub (Or.inr (by simp))⟩
        · rw [if_neg h3]
          exact ⟨Keep.trans hq rfl, StrOk.of_sub (Or.inl rfl)⟩
  by_cases h : p.cp0 ≠ 0 ∧ isLo p.cp1 = false
  · simp only [if_pos h]
    rcases illSurrogate_cases p p.cp0 i f with ⟨b, hb⟩ | hb
    · rw [hb]
      exact key _ (Keep.trans hk rfl)
    · rw [hb]
      exact ⟨raiseAt_err_neg _ _ _ (by decide), (raiseAt_fault _ _ _).trans hk.fault⟩
  · simp only [if_neg h]
    exact key p hk

theorem strChar_ok (cfg : Config) (cb : Callback σ) (t : JType) (i f : Bool) (p : Parser σ) (c : Byte)
    (ho : StrOk p) : StrStep.Ok cfg cb t p (strChar cfg cb t i f p c) := by
  unfold strChar
  by_cases h0 : p.sub = 0
  · rw [if_pos h0]
    by_cases h1 : c = 0x22#8
    · rw [if_pos h1]
      exact ⟨h0, rfl⟩
    · rw [if_neg h1]
      by_cases h2 : isControl c = true
      · rw [if_pos h2]
        by_cases h3 : c = 0x0d#8 ∨ c = 0x0a#8
        · rw [if_pos h3]; exact ⟨raiseAt_err_neg _ _ _ (by decide), raiseAt_fault _ _ _⟩
        · rw [if_neg h3]; exact ⟨raiseAt_err_neg _ _ _ (by decide), raiseAt_fault _ _ _⟩
      · rw [if_neg h2]
        by_cases h3 : c = 0x5c#8
        · rw [if_pos h3]
          exact ⟨rfl, StrOk.of_sub (Or.inr (by simp))⟩
        · rw [if_neg h3]
          cases hl : leadState c with
          | some s =>
            refine ⟨rfl, ?_⟩
            intro _ _
            show (cancelPartial (p.buf ++ [c])).isSome = true
            rw [cancelPartial_lead _ _ (byte_lead c s hl)]
            rfl
          | none =>
            simp only
            by_cases hf : f = true
            · rw [if_pos hf]
              exact ⟨rfl, StrOk.of_sub (Or.inl h0)⟩
            · rw [if_neg hf]
              exact ⟨raiseAt_err_neg _ _ _ (by decide), raiseAt_fault _ _ _⟩
  · rw [if_neg h0]
    by_cases h7 : p.sub ≤ 7
    · rw [if_pos h7]
      have hb := ho (by omega) h7
      cases ht : trailState p.sub c with
      | some s =>
        refine ⟨rfl, ?_⟩
        intro _ _
        show (cancelPartial (p.buf ++ [c])).isSome = true
        rw [cancelPartial_trail _ _ (trail_byte p.sub c s ht)]
        exact hb
      | none =>
        simp only
        by_cases hf : f = true
        · rw [if_pos hf]
          cases hc : cancelPartial p.buf with
          | none => rw [hc] at hb; cases hb
          | some b => exact ⟨rfl, Or.inl rfl, h0, by omega⟩
        · rw [if_neg hf]
          exact ⟨raiseAt_err_neg _ _ _ (by decide), raiseAt_fault _ _ _⟩
    · rw [if_neg h7]
      by_cases h5 : p.sub = 0x5c
      · rw [if_pos h5]
        by_cases hu : c = 0x75#8
        · rw [if_pos hu]
          exact ⟨rfl, StrOk.of_sub (Or.inr (by simp))⟩
        · rw [if_neg hu]
          cases he : escapeChar c with
          | some e => exact ⟨rfl, StrOk.of_sub (Or.inl rfl)⟩
          | none => exact ⟨raiseAt_err_neg _ _ _ (by decide), raiseAt_fault _ _ _⟩
      · rw [if_neg h5]
        by_cases hg : p.sub > 0xabcd
        · rw [if_pos hg]
          by_cases hx : isXdigit c = false
          · rw [if_pos hx]
            exact ⟨raiseAt_err_neg _ _ _ (by decide), raiseAt_fault _ _ _⟩
          · rw [if_neg hx]
            simp only
            by_cases hs : p.sub - 1 = 0xabcd
            · rw [if_pos hs]
              exact finishEscape_ok cfg cb t p _ (by unfold Keep; rfl) i f
            · rw [if_neg hs]
              exact ⟨rfl, StrOk.of_sub (Or.inr (by show 7 < p.sub - 1; omega))⟩
        · rw [if_neg hg]
          by_cases hs : p.sub ≥ 0xabcd - 2
          · rw [if_pos hs]
            by_cases ha : p.sub = 0xabcd - 2 ∧ c = 0x5c#8
            · rw [if_pos ha]
              exact ⟨rfl, StrOk.of_sub (Or.inr (by simp))⟩
            · rw [if_neg ha]
              by_cases hb : p.sub = 0xabcd - 1 ∧ c = 0x75#8
              · rw [if_pos hb]
                exact ⟨rfl, StrOk.of_sub (Or.inr (by simp))⟩
              · rw [if_neg hb]
                rcases illSurrogate_cases p p.cp0 i f with ⟨b, hb⟩ | hb
                · rw [hb]
                  refine ⟨rfl, ?_, h0, h5⟩
                  by_cases hq : p.sub = 0xabcd - 1
                  · exact Or.inr (by simp [hq])
                  · exact Or.inl (by simp [hq])
                · rw [hb]
                  exact ⟨raiseAt_err_neg _ _ _ (by decide), raiseAt_fault _ _ _⟩
          · rw [if_neg hs]
            exact ⟨raiseAt_err_neg _ _ _ (by decide), raiseAt_fault _ _ _⟩

/-- The tight loop's condition. -/
def tight (cfg : Config) (t : JType) (p : Parser σ) (c : Byte) : Prop :=
  p.sub = 0 ∧ c ≠ 0x22#8 ∧ isControl c = false ∧ c ≠ 0x5c#8 ∧ (isAscii c = true ∨ ignoreIll cfg t = true)

instance (cfg : Config) (t : JType) (p : Parser σ) (c : Byte) : Decidable (tight cfg t p c) := by
  unfold tight; infer_instance

theorem strCharA_tight (cfg : Config) (cb : Callback σ) (t : JType) (p : Parser σ) (c : Byte)
    (h : tight cfg t p c) : strCharA cfg cb t p c = .adv (append p [c]) := by
  unfold strCharA
  exact if_pos h

theorem strCharA_not (cfg : Config) (cb : Callback σ) (t : JType) (p : Parser σ) (c : Byte)
    (h : ¬ tight cfg t p c) :
    strCharA cfg cb t p c = strChar cfg cb t (ignoreIll cfg t) (fixIll cfg t) p c := by
  unfold strCharA
  exact if_neg h

theorem strCharA_ok (cfg : Config) (cb : Callback σ) (t : JType) (p : Parser σ) (c : Byte) (ho : StrOk p) :
    StrStep.Ok cfg cb t p (strCharA cfg cb t p c) := by
  by_cases h : tight cfg t p c
  · rw [strCharA_tight _ _ _ _ _ h]
    exact ⟨rfl, StrOk.of_sub (Or.inl h.1)⟩
  · rw [strCharA_not _ _ _ _ _ h]
    exact strChar_ok cfg cb t _ _ p c ho

theorem strByte_again (cfg : Config) (cb : Callback σ) (t : JType) (p q : Parser σ) (c : Byte) (ho : StrOk p)
    (h : strCharA cfg cb t p c = .again q) :
    strByte cfg cb t p c = strByte cfg cb t q c ∧ StrOk q := by
  have h1 := strCharA_ok cfg cb t p c ho
  rw [h] at h1
  have hq : StrOk q := StrOk.of_sub (by have := h1.2.1; omega)
  refine ⟨?_, hq⟩
  have h2 := strCharA_ok cfg cb t q c hq
  unfold strByte
  cases h3 : strCharA cfg cb t q c with
  | again r =>
    rw [h3] at h2
    exact absurd h1.2.1 (by intro hx; rcases hx with hx | hx; exact h2.2.2.1 hx; exact h2.2.2.2 hx)
  | adv r => simp only [h, h3]
  | closed r => simp only [h, h3]
  | fail r => simp only [h, h3]

theorem strByte_not_again (cfg : Config) (cb : Callback σ) (t : JType) (p : Parser σ) (c : Byte)
    (h : ∀ q, strCharA cfg cb t p c ≠ .again q) :
    strByte cfg cb t p c = strOut cfg t (strCharA cfg cb t p c) := by
  unfold strByte
  cases h3 : strCharA cfg cb t p c with
  | again r => exact absurd h3 (h r)
  | adv r => rfl
  | closed r => rfl
  | fail r => rfl


/-! ### A chunk of a string -/

/-- The automaton reading a value of type `t` is active. -/
def InStr (t : JType) (p : Parser σ) : Prop := (t = .string ∧ p.auto = .string) ∨ (t = .key ∧ p.auto = .key)

theorem InStr.keep {t : JType} {p q : Parser σ} (h : InStr t p) (k : q.auto = p.auto) : InStr t q := by
  unfold InStr at h ⊢
  rw [k]
  exact h

theorem step_str (cfg : Config) (cb : Callback σ) (t : JType) (p : Parser σ) (c : Byte) (ha : InStr t p)
    (he : 0 ≤ p.err) : step cfg cb p c = strByte cfg cb t p c := by
  unfold step
  rw [if_neg (by omega)]
  rcases ha with ⟨h1, h2⟩ | ⟨h1, h2⟩
  · rw [if_pos (by rw [h2]; decide)]
    simp [subByte, h2, h1]
  · rw [if_pos (by rw [h2]; decide)]
    simp [subByte, h2, h1]

theorem plain_tight (cfg : Config) (t : JType) (p : Parser σ) (c : Byte) (hs : p.sub = 0) (h : plain c = true) :
    tight cfg t p c := by
  simp only [plain, Bool.and_eq_true, Bool.not_eq_true', bne_iff_ne] at h
  exact ⟨hs, h.2, h.1.1.2, h.1.2, Or.inl h.1.1.1⟩

theorem step_tight (cfg : Config) (cb : Callback σ) (t : JType) (p : Parser σ) (c : Byte) (ha : InStr t p)
    (he : 0 ≤ p.err) (h : tight cfg t p c) :
    step cfg cb p c = chkS cfg t (advance (append p [c]) 1) := by
  rw [step_str cfg cb t p c ha he, strByte_not_again cfg cb t p c (by rw [strCharA_tight _ _ _ _ _ h]; simp),
    strCharA_tight _ _ _ _ _ h]
  rfl

/-- A run of plain bytes, taken one at a time. -/
theorem run_tight (cfg : Config) (cb : Callback σ) (t : JType) :
    ∀ (rs : List Byte) (c : Byte) (p : Parser σ), InStr t p → 0 ≤ p.err → tight cfg t p c →
      (∀ r ∈ rs, plain r = true) → p.vpos.offset ≤ p.pos.offset →
      (strMax cfg t = 0 ∨ p.pos.offset - p.vpos.offset + rs.length ≤ strMax cfg t) →
      run cfg cb p (c :: rs) = chkS cfg t (advance (append p (c :: rs)) (rs.length + 1))
  | [], c, p, ha, he, h, _, _, _ => by
    rw [run_cons, step_tight cfg cb t p c ha he h]
    rfl
  | r :: rs, c, p, ha, he, h, hr, hv, hl => by
    rw [run_cons, step_tight cfg cb t p c ha he h]
    rw [chkS_le cfg t (advance (append p [c]) 1) (by
      show _ ∨ p.pos.offset + 1 - p.vpos.offset ≤ _
      simp only [List.length_cons] at hl
      omega)]
    rw [run_tight cfg cb t rs r (advance (append p [c]) 1) (ha.keep rfl) he
      (plain_tight cfg t _ r h.1 (hr r (List.mem_cons_self ..))) (fun x hx => hr x (List.mem_cons_of_mem _ hx))
      (by show p.vpos.offset ≤ p.pos.offset + 1; omega)
      (by
        show _ ∨ p.pos.offset + 1 - p.vpos.offset + rs.length ≤ _
        simp only [List.length_cons] at hl
        omega)]
    congr 1
    simp only [advance, append, List.append_assoc, List.cons_append, List.nil_append, List.length_cons]
    congr 2 <;> omega

theorem mem_takeWhile {α : Type} (f : α → Bool) : ∀ (l : List α) (x : α), x ∈ l.takeWhile f → f x = true
  | [], x, h => by cases h
  | a :: l, x, h => by
    rw [List.takeWhile_cons] at h
    by_cases ha : f a = true
    · rw [if_pos ha] at h
      cases h with
      | head => exact ha
      | tail _ h => exact mem_takeWhile f l x h
    · rw [if_neg ha] at h
      cases h

def replayRank (p : Parser σ) : Nat := if p.sub = 0 ∨ p.sub = 0x5c then 0 else 1

theorem replayRank_le (p : Parser σ) : replayRank p ≤ 1 := by
  unfold replayRank
  split <;> omega

theorem strLoop_run (cfg : Config) (cb : Callback σ) (t : JType) (tail : List Byte) :
    ∀ (fuel off : Nat) (p : Parser σ) (inp : List Byte),
      InStr t p → 0 ≤ p.err → StrOk p → p.vpos.offset ≤ p.pos.offset →
      (strMax cfg t = 0 ∨ p.pos.offset - p.vpos.offset + inp.length ≤ strMax cfg t + 1) →
      2 * inp.length + replayRank p ≤ fuel →
      Same (run cfg cb (chkS cfg t p) (inp ++ tail))
        (run cfg cb (chkS cfg t (strLoop cfg cb t (ignoreIll cfg t) (fixIll cfg t) fuel off p inp).1)
          ((inp ++ tail).drop ((strLoop cfg cb t (ignoreIll cfg t) (fixIll cfg t) fuel off p inp).2 - off))) ∧
      off ≤ (strLoop cfg cb t (ignoreIll cfg t) (fixIll cfg t) fuel off p inp).2 ∧
      (0 ≤ (strLoop cfg cb t (ignoreIll cfg t) (fixIll cfg t) fuel off p inp).1.err → inp ≠ [] →
        off < (strLoop cfg cb t (ignoreIll cfg t) (fixIll cfg t) fuel off p inp).2) := by
  intro fuel
  induction fuel with
  | zero =>
    intro off p inp ha he ho hv hl hf
    cases inp with
    | nil =>
      simp only [strLoop]
      exact ⟨by simp; exact Same.rfl, by omega, fun _ h => absurd rfl h⟩
    | cons c cs =>
      simp only [List.length_cons] at hf
      omega
  | succ fuel ih =>
    intro off p inp ha he ho hv hl hf
    cases inp with
    | nil =>
      simp only [strLoop]
      exact ⟨by simp; exact Same.rfl, by omega, fun _ h => absurd rfl h⟩
    | cons c cs =>
      have hlc : (c :: cs).length = cs.length + 1 := rfl
      have hp : chkS cfg t p = p := chkS_le cfg t p (by rw [hlc] at hl; omega)
      rw [hp]
      simp only [strLoop]
      by_cases ht : tight cfg t p c
      · have ht' : p.sub = 0 ∧ c ≠ 0x22#8 ∧ isControl c = false ∧ c ≠ 0x5c#8 ∧
            (isAscii c = true ∨ ignoreIll cfg t = true) := ht
        rw [if_pos ht']
        have hsplit : cs = cs.takeWhile plain ++ cs.dropWhile plain := (List.takeWhile_append_dropWhile).symm
        generalize hrun : cs.takeWhile plain = rs at hsplit ⊢
        generalize hrest : cs.dropWhile plain = rest at hsplit ⊢
        have hrs : ∀ r ∈ rs, plain r = true := by
          intro r hr
          rw [← hrun] at hr
          exact mem_takeWhile plain cs r hr
        have hlen : cs.length = rs.length + rest.length := by rw [hsplit, List.length_append]
        by_cases hq : p.buf.length + off = 0 ∧ rest.head? = some 0x22#8
        · rw [if_pos hq]
          obtain ⟨hb, hh⟩ := hq
          have hoff : off = 0 := by omega
          have hbuf : p.buf = [] := List.length_eq_zero_iff.mp (by omega)
          cases rest with
          | nil => cases hh
          | cons d rest =>
            have hd : d = 0x22#8 := by simpa using hh
            subst hd
            have hlen' : cs.length = rs.length + (rest.length + 1) := hlen
            refine ⟨?_, by omega, fun _ _ => by omega⟩
            rw [chkS_process]
            have e1 : (c :: cs ++ tail) = (c :: rs) ++ (0x22#8 :: (rest ++ tail)) := by
              rw [hsplit]; simp
            rw [e1, run_append, run_tight cfg cb t rs c p ha he ht hrs hv (by omega)]
            rw [chkS_le cfg t (advance (append p (c :: rs)) (rs.length + 1)) (by
              show _ ∨ p.pos.offset + (rs.length + 1) - p.vpos.offset ≤ _
              omega)]
            rw [run_cons, step_str cfg cb t (advance (append p (c :: rs)) (rs.length + 1)) 0x22#8 (ha.keep rfl) he]
            have hnt : ¬ tight cfg t (advance (append p (c :: rs)) (rs.length + 1)) 0x22#8 := fun h => h.2.1 rfl
            have hch : strCharA cfg cb t (advance (append p (c :: rs)) (rs.length + 1)) 0x22#8 =
                .closed (process cfg cb (advance (advance (append p (c :: rs)) (rs.length + 1)) 1) t
                  (advance (append p (c :: rs)) (rs.length + 1)).buf) := by
              rw [strCharA_not _ _ _ _ _ hnt]
              unfold strChar
              rw [if_pos (show (advance (append p (c :: rs)) (rs.length + 1)).sub = 0 from ht.1), if_pos rfl]
            rw [strByte_not_again cfg cb t _ _ (by rw [hch]; simp), hch]
            have e2 : (c :: rs ++ 0x22#8 :: (rest ++ tail)).drop (rs.length + 2 - off) = rest ++ tail := by
              subst hoff
              rw [show rs.length + 2 - 0 = (c :: rs).length + 1 by simp]
              rw [List.drop_append]
              simp
            rw [e2]
            apply run_same
            show Same (chkS cfg t (process cfg cb _ t _)) _
            rw [chkS_process]
            have e3 : (advance (append p (c :: rs)) (rs.length + 1)).buf = c :: rs := by
              show p.buf ++ (c :: rs) = _
              rw [hbuf]; rfl
            rw [e3]
            have e4 : advance (advance (append p (c :: rs)) (rs.length + 1)) 1 =
                { advance p (rs.length + 2) with buf := p.buf ++ (c :: rs) } := by
              simp only [advance, append]
              congr 2
            rw [e4]
            exact (process_buf cfg cb (advance p (rs.length + 2)) t (c :: rs) _).symm
        · rw [if_neg hq]
          have hrest1 : strMax cfg t = 0 ∨ p.pos.offset - p.vpos.offset + (rs.length + 1) + rest.length ≤
              strMax cfg t + 1 := by
            rw [hlc] at hl
            omega
          have hih := ih (off + (rs.length + 1)) (advance (append p (c :: rs)) (rs.length + 1)) rest (ha.keep rfl)
            he (StrOk.of_sub (Or.inl ht.1)) (by show p.vpos.offset ≤ p.pos.offset + (rs.length + 1); omega)
            (by show _ ∨ p.pos.offset + (rs.length + 1) - p.vpos.offset + rest.length ≤ _; omega)
            (by
              have : replayRank (advance (append p (c :: rs)) (rs.length + 1)) = 0 := by
                unfold replayRank
                exact if_pos (Or.inl ht.1)
              rw [this]
              rw [hlc] at hf
              omega)
          generalize strLoop cfg cb t (ignoreIll cfg t) (fixIll cfg t) fuel (off + (rs.length + 1))
            (advance (append p (c :: rs)) (rs.length + 1)) rest = r at hih ⊢
          refine ⟨?_, by omega, fun _ _ => by omega⟩
          have e1 : (c :: cs ++ tail) = (c :: rs) ++ (rest ++ tail) := by rw [hsplit]; simp
          rw [e1, run_append, run_tight cfg cb t rs c p ha he ht hrs hv (by
            rw [hlc] at hl
            omega)]
          have e2 : (c :: rs ++ (rest ++ tail)).drop (r.2 - off) = (rest ++ tail).drop (r.2 - (off + (rs.length + 1))) := by
            rw [show r.2 - off = (c :: rs).length + (r.2 - (off + (rs.length + 1))) by
              simp only [List.length_cons]; omega]
            rw [List.drop_append]
            simp
          rw [e2]
          exact hih.1
      · have ht' : ¬ (p.sub = 0 ∧ c ≠ 0x22#8 ∧ isControl c = false ∧ c ≠ 0x5c#8 ∧
            (isAscii c = true ∨ ignoreIll cfg t = true)) := ht
        rw [if_neg ht']
        have hA := strCharA_not cfg cb t p c ht
        have hok := strCharA_ok cfg cb t p c ho
        rw [← hA]
        cases hs : strCharA cfg cb t p c with
        | adv q =>
          rw [hs] at hok
          have hk := hok.1
          simp only
          have hih := ih (off + 1) (advance q 1) cs (ha.keep hk.auto) (by show 0 ≤ q.err; rw [hk.err]; exact he)
            hok.2 (by show q.vpos.offset ≤ q.pos.offset + 1; rw [hk.pos, hk.vpos]; omega)
            (by
              show _ ∨ q.pos.offset + 1 - q.vpos.offset + cs.length ≤ _
              rw [hk.pos, hk.vpos]
              rw [hlc] at hl
              omega)
            (by
              have := replayRank_le (advance q 1)
              rw [hlc] at hf
              omega)
          generalize strLoop cfg cb t (ignoreIll cfg t) (fixIll cfg t) fuel (off + 1) (advance q 1) cs = r at hih ⊢
          refine ⟨?_, by omega, fun _ _ => by omega⟩
          rw [List.cons_append, run_cons, step_str cfg cb t p c ha he,
            strByte_not_again cfg cb t p c (by rw [hs]; simp), hs]
          have e2 : (c :: (cs ++ tail)).drop (r.2 - off) = (cs ++ tail).drop (r.2 - (off + 1)) := by
            rw [show r.2 - off = (r.2 - (off + 1)) + 1 by omega]
            rfl
          rw [e2]
          exact hih.1
        | again q =>
          rw [hs] at hok
          have hk := hok.1
          have hag := strByte_again cfg cb t p q c ho hs
          simp only
          have hrank : replayRank q = 0 := if_pos hok.2.1
          have hrankp : replayRank p = 1 := if_neg (by intro h; rcases h with h | h; exact hok.2.2.1 h; exact hok.2.2.2 h)
          have hih := ih off q (c :: cs) (ha.keep hk.auto) (by rw [hk.err]; exact he) hag.2
            (by rw [hk.pos, hk.vpos]; exact hv) (by rw [hk.pos, hk.vpos]; exact hl) (by omega)
          refine ⟨?_, hih.2⟩
          refine Same.trans ?_ hih.1
          have hq : chkS cfg t q = q := chkS_le cfg t q (by rw [hk.pos, hk.vpos]; rw [hlc] at hl; omega)
          rw [hq, List.cons_append, run_cons, run_cons, step_str cfg cb t p c ha he,
            step_str cfg cb t q c (ha.keep hk.auto) (by rw [hk.err]; exact he), hag.1]
          exact Same.rfl
        | closed q =>
          simp only
          refine ⟨?_, by omega, fun _ _ => by omega⟩
          rw [List.cons_append, run_cons, step_str cfg cb t p c ha he,
            strByte_not_again cfg cb t p c (by rw [hs]; simp), hs, show off + 1 - off = 1 by omega]
          exact Same.rfl
        | fail q =>
          rw [hs] at hok
          have hq : q.err < 0 := hok.1
          simp only
          refine ⟨?_, by omega, fun h => by omega⟩
          rw [List.cons_append, run_cons, step_str cfg cb t p c ha he,
            strByte_not_again cfg cb t p c (by rw [hs]; simp), hs]
          show Same (run cfg cb (chkS cfg t q) _) _
          rw [chkS_of_neg cfg t q hq, run_err cfg cb q hq, run_err cfg cb q hq]
          exact Same.rfl

theorem cut_split (maxLen : Nat) (p : Parser σ) (input : List Byte) :
    ∃ tail, input = cut maxLen p input ++ tail := by
  unfold cut
  split
  · exact ⟨_, (List.take_append_drop _ _).symm⟩
  · exact ⟨[], by simp⟩

theorem cut_length (maxLen : Nat) (p : Parser σ) (input : List Byte)
    (h : maxLen = 0 ∨ p.pos.offset - p.vpos.offset ≤ maxLen) :
    maxLen = 0 ∨ p.pos.offset - p.vpos.offset + (cut maxLen p input).length ≤ maxLen + 1 := by
  unfold cut
  split
  · rw [List.length_take]
    omega
  · omega

theorem cut_ne_nil (maxLen : Nat) (p : Parser σ) (input : List Byte) (h : input ≠ []) :
    cut maxLen p input ≠ [] := by
  unfold cut
  split
  · cases input with
    | nil => exact absurd rfl h
    | cons a l => simp
  · exact h

/-- A chunk handed to the string automaton. -/
theorem strAutomaton_run (cfg : Config) (cb : Callback σ) (t : JType) (p : Parser σ) (input : List Byte)
    (ha : InStr t p) (he : 0 ≤ p.err) (ho : StrOk p) (hv : p.vpos.offset ≤ p.pos.offset)
    (hl : strMax cfg t = 0 ∨ p.pos.offset - p.vpos.offset ≤ strMax cfg t) :
    Same (run cfg cb p input)
      (run cfg cb (strAutomaton cfg cb t p input false).1 (input.drop (strAutomaton cfg cb t p input false).2)) ∧
    (0 ≤ (strAutomaton cfg cb t p input false).1.err → input ≠ [] → 0 < (strAutomaton cfg cb t p input false).2) := by
  obtain ⟨tail, htail⟩ := cut_split (strMax cfg t) p input
  have h := strLoop_run cfg cb t tail (2 * (cut (strMax cfg t) p input).length + 1) 0 p
    (cut (strMax cfg t) p input) ha he ho hv (cut_length _ p input hl) (by have := replayRank_le p; omega)
  rw [chkS_le cfg t p hl, ← htail] at h
  have e1 : (strAutomaton cfg cb t p input false).1 =
      chkS cfg t (strLoop cfg cb t (ignoreIll cfg t) (fixIll cfg t) (2 * (cut (strMax cfg t) p input).length + 1) 0 p
        (cut (strMax cfg t) p input)).1 := rfl
  have e2 : (strAutomaton cfg cb t p input false).2 =
      (strLoop cfg cb t (ignoreIll cfg t) (fixIll cfg t) (2 * (cut (strMax cfg t) p input).length + 1) 0 p
        (cut (strMax cfg t) p input)).2 := rfl
  rw [e1, e2]
  refine ⟨h.1, ?_⟩
  intro h1 h2
  refine h.2.2 ?_ (cut_ne_nil _ p input h2)
  exact (chkS_err cfg t _ h1).1

/-! ### A chunk of a literal -/

/-- The literal automaton of type `t` is active. -/
def InLit (t : JType) (lit : List Byte) (p : Parser σ) : Prop :=
  (t = .null ∧ lit = litNull ∧ p.auto = .null) ∨ (t = .false ∧ lit = litFalse ∧ p.auto = .false) ∨
  (t = .true ∧ lit = litTrue ∧ p.auto = .true)

theorem InLit.keep {t : JType} {lit : List Byte} {p q : Parser σ} (h : InLit t lit p) (k : q.auto = p.auto) :
    InLit t lit q := by
  unfold InLit at h ⊢
  rw [k]
  exact h

theorem step_lit (cfg : Config) (cb : Callback σ) (t : JType) (lit : List Byte) (p : Parser σ) (c : Byte)
    (ha : InLit t lit p) (he : 0 ≤ p.err) :
    step cfg cb p c =
      if (litByte cfg cb t lit p c).2 = true ∨ (litByte cfg cb t lit p c).1.err < 0 then (litByte cfg cb t lit p c).1
      else mainByte cfg cb (litByte cfg cb t lit p c).1 c := by
  unfold step
  rw [if_neg (by omega)]
  rcases ha with ⟨h1, h2, h3⟩ | ⟨h1, h2, h3⟩ | ⟨h1, h2, h3⟩ <;>
  · rw [if_pos (by rw [h3]; decide)]
    simp [subByte, h3, h1, h2]

theorem litLoop_run (cfg : Config) (cb : Callback σ) (t : JType) (lit : List Byte) :
    ∀ (inp : List Byte) (off : Nat) (p : Parser σ), InLit t lit p → 0 ≤ p.err →
      ((litLoop lit p off inp).2.2 = true → (litLoop lit p off inp).1.err < 0 ∧
        run cfg cb p inp = (litLoop lit p off inp).1) ∧
      ((litLoop lit p off inp).2.2 = false →
        off ≤ (litLoop lit p off inp).2.1 ∧
        run cfg cb p inp = run cfg cb (litLoop lit p off inp).1 (inp.drop ((litLoop lit p off inp).2.1 - off)) ∧
        InLit t lit (litLoop lit p off inp).1 ∧ (litLoop lit p off inp).1.err = p.err ∧
        (inp.drop ((litLoop lit p off inp).2.1 - off) = [] ∨ lit[(litLoop lit p off inp).1.sub]? = none) ∧
        ((litLoop lit p off inp).2.1 = off → (litLoop lit p off inp).1 = p))
  | [], off, p, ha, he => by
    simp only [litLoop]
    exact ⟨(fun h => by cases h), fun _ => ⟨by omega, by simp, ha, trivial, Or.inl (by simp), fun _ => trivial⟩⟩
  | c :: cs, off, p, ha, he => by
    simp only [litLoop]
    cases hl : lit[p.sub]? with
    | none =>
      simp only
      refine ⟨(fun h => by cases h), fun _ => ⟨by omega, by simp, ha, trivial, Or.inr hl, fun _ => trivial⟩⟩
    | some l =>
      simp only
      by_cases hc : c ≠ l
      · rw [if_pos hc]
        have hneg : (raiseForValue p errSyntax).err < 0 := raiseAt_err_neg p errSyntax p.vpos (by decide)
        refine ⟨fun _ => ⟨hneg, ?_⟩, fun h => by cases h⟩
        have hb : litByte cfg cb t lit p c = (raiseForValue p errSyntax, false) := by
          unfold litByte
          rw [hl]
          simp only
          rw [if_pos hc]
        rw [run_cons, step_lit cfg cb t lit p c ha he, hb]
        simp only
        rw [if_pos (Or.inr hneg)]
        exact run_err cfg cb _ hneg cs
      · rw [if_neg hc]
        have hb : litByte cfg cb t lit p c = ({ advance p 1 with sub := p.sub + 1 }, true) := by
          unfold litByte
          rw [hl]
          simp only
          rw [if_neg hc]
        have hstep : step cfg cb p c = { advance p 1 with sub := p.sub + 1 } := by
          rw [step_lit cfg cb t lit p c ha he, hb]
          exact if_pos (Or.inl rfl)
        have ih := litLoop_run cfg cb t lit cs (off + 1) { advance p 1 with sub := p.sub + 1 } (ha.keep rfl) he
        rw [run_cons, hstep]
        generalize litLoop lit { advance p 1 with sub := p.sub + 1 } (off + 1) cs = r at ih ⊢
        refine ⟨ih.1, fun h => ?_⟩
        obtain ⟨h1, h2, h3, h4, h5, h6⟩ := ih.2 h
        have e : (c :: cs).drop (r.2.1 - off) = cs.drop (r.2.1 - (off + 1)) := by
          rw [show r.2.1 - off = (r.2.1 - (off + 1)) + 1 by omega]
          rfl
        rw [e]
        exact ⟨by omega, h2, h3, h4, h5, fun h => by omega⟩

theorem nextBits_lit (t : JType) (lit : List Byte) (p : Parser σ) (h : InLit t lit p) (b : Bool) :
    (nextBits t b).value = false := by
  rcases h with ⟨h1, _, _⟩ | ⟨h1, _, _⟩ | ⟨h1, _, _⟩ <;> (subst h1; cases b <;> rfl)

theorem litAutomaton_run (cfg : Config) (cb : Callback σ) (t : JType) (lit : List Byte) (p : Parser σ)
    (input : List Byte) (ha : InLit t lit p) (he : 0 ≤ p.err) :
    run cfg cb p input =
      run cfg cb (litAutomaton cfg cb t lit p input false).1 (input.drop (litAutomaton cfg cb t lit p input false).2) ∧
    (0 ≤ (litAutomaton cfg cb t lit p input false).1.err → input ≠ [] →
      0 < (litAutomaton cfg cb t lit p input false).2 ∨
        ((litAutomaton cfg cb t lit p input false).1.auto = .main ∧
         (litAutomaton cfg cb t lit p input false).1.state.value = false)) := by
  have h := litLoop_run cfg cb t lit input 0 p ha he
  unfold litAutomaton
  generalize litLoop lit p 0 input = r at h ⊢
  obtain ⟨p', off, b⟩ := r
  cases b with
  | true =>
    have h1 := h.1 rfl
    simp only at h1 ⊢
    refine ⟨?_, fun h2 => by omega⟩
    rw [run_err cfg cb p' h1.1]
    exact h1.2
  | false =>
    obtain ⟨_, h2, h3, h4, h5, h6⟩ := h.2 rfl
    simp only [Nat.sub_zero] at h2 h3 h4 h5 h6 ⊢
    have he' : 0 ≤ p'.err := by omega
    cases hd : input.drop off with
    | nil =>
      simp only
      rw [if_neg (by simp)]
      refine ⟨h2, fun _ hne => ?_⟩
      left
      apply Nat.pos_of_ne_zero
      intro h0
      have h0' : off = 0 := h0
      rw [h0'] at hd
      exact hne (by simpa using hd)
    | cons c cs =>
      rw [hd] at h2 h5
      have hnone : lit[p'.sub]? = none := by
        rcases h5 with h5 | h5
        · cases h5
        · exact h5
      simp only
      by_cases hb : isTokenBoundary c = false
      · rw [if_pos hb]
        have hneg : (raise { p' with pos := p'.vpos } errSyntax).err < 0 :=
          raiseAt_err_neg { p' with pos := p'.vpos } errSyntax p'.vpos (by decide)
        have hby : litByte cfg cb t lit p' c = (raise { p' with pos := p'.vpos } errSyntax, false) := by
          unfold litByte
          rw [hnone]
          simp only
          rw [if_pos hb]
        have hst : step cfg cb p' c = raise { p' with pos := p'.vpos } errSyntax := by
          rw [step_lit cfg cb t lit p' c h3 he', hby]
          exact if_pos (Or.inr hneg)
        refine ⟨?_, fun hx => by simp only at hx; omega⟩
        rw [h2, run_cons, hst, hd, run_err cfg cb _ hneg, run_err cfg cb _ hneg]
      · rw [if_neg hb]
        have hby : litByte cfg cb t lit p' c = (process cfg cb p' t [], false) := by
          unfold litByte
          rw [hnone]
          simp only
          rw [if_neg hb]
        by_cases hneg : (process cfg cb p' t []).err < 0
        · have hst : step cfg cb p' c = process cfg cb p' t [] := by
            rw [step_lit cfg cb t lit p' c h3 he', hby]
            exact if_pos (Or.inr hneg)
          refine ⟨?_, fun hx => by simp only at hx; omega⟩
          rw [h2, run_cons, hst, hd, run_err cfg cb _ hneg, run_err cfg cb _ hneg]
        · have hge : 0 ≤ (process cfg cb p' t []).err := by omega
          have hm := process_auto cfg cb p' t [] hge
          have hst : step cfg cb p' c = step cfg cb (process cfg cb p' t []) c := by
            rw [step_lit cfg cb t lit p' c h3 he', hby]
            rw [if_neg (by simp; omega)]
            unfold step
            rw [if_neg hneg, if_neg (by simp [hm])]
          refine ⟨?_, fun _ _ => Or.inr ⟨hm, ?_⟩⟩
          · rw [h2, run_cons, hst, hd, run_cons]
          · show (process cfg cb p' t []).state.value = false
            rw [process_state cfg cb p' t [] hge]
            exact nextBits_lit t lit p' h3 _

/-! ### A chunk of a number -/

theorem chkN_of_neg (cfg : Config) (q : Parser σ) (h : q.err < 0) : chkN cfg q = q := by
  unfold chkN
  split
  · exact raiseAt_of_neg _ _ _ h
  · rfl

theorem numChar_next (sub : Nat) (c : Byte) (s : Nat) (h : numChar sub c = .next s) : s ≠ 0 := by
  intro hs
  subst hs
  unfold numChar at h
  repeat' split at h
  all_goals first | cases h | (injection h with h; simp at h)

theorem step_num (cfg : Config) (cb : Callback σ) (p : Parser σ) (c : Byte) (ha : p.auto = .number)
    (he : 0 ≤ p.err) :
    step cfg cb p c =
      if (numByte cfg cb p c).2 = true ∨ (numByte cfg cb p c).1.err < 0 then (numByte cfg cb p c).1
      else mainByte cfg cb (numByte cfg cb p c).1 c := by
  unfold step
  rw [if_neg (by omega), if_pos (by rw [ha]; decide)]
  simp only [subByte, ha]

def NumExit.Ok (cfg : Config) (cb : Callback σ) (p : Parser σ) (seen inp tail : List Byte) : NumExit σ → Prop
  | .ranOut p2 seen2 =>
    Same (run cfg cb (chkN cfg (append p seen)) (inp ++ tail)) (run cfg cb (chkN cfg (append p2 seen2)) tail) ∧
    seen2.length = seen.length + inp.length ∧ p2.err = p.err
  | .returned p2 off =>
    Same (run cfg cb (chkN cfg (append p seen)) (inp ++ tail)) (run cfg cb p2 ((inp ++ tail).drop (off - seen.length))) ∧
    (0 ≤ p2.err → seen.length ≤ off ∧ p2.auto = .main ∧ p2.state.value = false)

theorem numLoop_run (cfg : Config) (cb : Callback σ) (tail : List Byte) :
    ∀ (inp : List Byte) (p : Parser σ) (seen : List Byte), p.auto = .number → 0 ≤ p.err → p.sub ≠ 0 →
      p.vpos.offset ≤ p.pos.offset →
      (cfg.maxNumberLen = 0 ∨ p.pos.offset - p.vpos.offset + inp.length ≤ cfg.maxNumberLen + 1) →
      NumExit.Ok cfg cb p seen inp tail (numLoop cfg cb p seen inp)
  | [], p, seen, _, _, _, _, _ => by
    simp only [numLoop]
    exact ⟨Same.rfl, by simp, rfl⟩
  | c :: cs, p, seen, ha, he, hs, hv, hl => by
    have hlc : (c :: cs).length = cs.length + 1 := rfl
    have hchk : chkN cfg (append p seen) = append p seen := chkN_le cfg _ (by
      show _ ∨ p.pos.offset - p.vpos.offset ≤ _
      rw [hlc] at hl
      omega)
    have hfix : numFix (append p seen) = append p seen := if_neg hs
    have hst := step_num cfg cb (append p seen) c ha he
    simp only [numLoop]
    cases hn : numChar p.sub c with
    | next s =>
      simp only
      have hby : numByte cfg cb (append p seen) c =
          (chkN cfg (append (advance { append p seen with sub := s } 1) [c]), true) := by
        unfold numByte
        rw [hfix, show (append p seen).sub = p.sub from rfl, hn]
      rw [hby] at hst
      rw [if_pos (Or.inl rfl)] at hst
      have e : append (advance { append p seen with sub := s } 1) [c] =
          append (advance { p with sub := s } 1) (seen ++ [c]) := by
        simp [append, advance]
      rw [e] at hst
      have ih := numLoop_run cfg cb tail cs (advance { p with sub := s } 1) (seen ++ [c]) ha he
        (numChar_next _ _ _ hn) (by show p.vpos.offset ≤ p.pos.offset + 1; omega)
        (by
          show _ ∨ p.pos.offset + 1 - p.vpos.offset + cs.length ≤ _
          rw [hlc] at hl
          omega)
      generalize numLoop cfg cb (advance { p with sub := s } 1) (seen ++ [c]) cs = r at ih ⊢
      cases r with
      | ranOut p2 seen2 =>
        refine ⟨?_, ?_, ih.2.2⟩
        · rw [hchk, List.cons_append, run_cons, hst]
          exact ih.1
        · rw [ih.2.1]
          simp only [List.length_append, List.length_cons, List.length_nil]
          omega
      | returned p2 off =>
        refine ⟨?_, ?_⟩
        · rw [hchk, List.cons_append, run_cons, hst]
          by_cases hneg : p2.err < 0
          · have h1 := ih.1
            rw [run_err cfg cb p2 hneg] at h1 ⊢
            exact h1
          · have h2 := ih.2 (by omega)
            simp only [List.length_append, List.length_cons, List.length_nil] at h2
            have h1 := ih.1
            simp only [List.length_append, List.length_cons, List.length_nil] at h1
            rw [show off - seen.length = (off - (seen.length + 1)) + 1 by omega]
            exact h1
        · intro h
          have h2 := ih.2 h
          simp only [List.length_append, List.length_cons, List.length_nil] at h2
          exact ⟨by omega, h2.2⟩
    | finish =>
      simp only
      have hby : numByte cfg cb (append p seen) c =
          (process cfg cb (append p seen) .number (append p seen).buf, false) := by
        unfold numByte
        rw [hfix, show (append p seen).sub = p.sub from rfl, hn]
      have main : ∀ p2 : Parser σ, Same (process cfg cb (append p seen) .number (append p seen).buf) p2 →
          NumExit.Ok cfg cb p seen (c :: cs) tail (.returned p2 seen.length) := by
        intro p2 hsame
        rw [hby] at hst
        simp only at hst
        have herr := hsame.err_eq
        refine ⟨?_, ?_⟩
        · rw [hchk, List.cons_append, run_cons, hst, Nat.sub_self, List.drop_zero]
          by_cases hneg : (process cfg cb (append p seen) .number (append p seen).buf).err < 0
          · rw [if_pos (Or.inr hneg), run_err cfg cb _ hneg, run_err cfg cb p2 (by omega)]
            exact hsame
          · rw [if_neg (by simp; omega)]
            have hge : 0 ≤ (process cfg cb (append p seen) .number (append p seen).buf).err := by omega
            have hm := process_auto cfg cb _ _ _ hge
            have hp2 : process cfg cb (append p seen) .number (append p seen).buf = p2 := by
              rcases hsame with h | h
              · exact h
              · omega
            rw [← hp2]
            have hst2 : step cfg cb (process cfg cb (append p seen) .number (append p seen).buf) c =
                mainByte cfg cb (process cfg cb (append p seen) .number (append p seen).buf) c := by
              unfold step
              rw [if_neg hneg, if_neg (by simp [hm])]
            rw [run_cons, hst2]
            exact Same.rfl
        · intro hge2
          have hge : 0 ≤ (process cfg cb (append p seen) .number (append p seen).buf).err := by omega
          have hp2 : process cfg cb (append p seen) .number (append p seen).buf = p2 := by
            rcases hsame with h | h
            · exact h
            · omega
          rw [← hp2]
          refine ⟨by omega, process_auto cfg cb _ _ _ hge, ?_⟩
          rw [process_state cfg cb _ _ _ hge]
          cases (!(append p seen).nest.isEmpty) <;> rfl
      by_cases hb : p.buf.length = 0
      · rw [if_pos hb]
        apply main
        have hb' : p.buf = [] := List.length_eq_zero_iff.mp hb
        have e : (append p seen).buf = seen := by show p.buf ++ seen = seen; rw [hb']; rfl
        rw [e]
        exact (process_buf cfg cb p .number seen (p.buf ++ seen)).symm
      · rw [if_neg hb]
        exact main _ Same.rfl
    | bad =>
      simp only
      have hby : numByte cfg cb (append p seen) c = (raiseForValue (append p seen) errSyntax, false) := by
        unfold numByte
        rw [hfix, show (append p seen).sub = p.sub from rfl, hn]
      have hneg : (raiseForValue (append p seen) errSyntax).err < 0 :=
        raiseAt_err_neg (append p seen) errSyntax (append p seen).vpos (by decide)
      have hneg2 : (raiseForValue p errSyntax).err < 0 := raiseAt_err_neg p errSyntax p.vpos (by decide)
      rw [hby] at hst
      rw [if_pos (Or.inr hneg)] at hst
      refine ⟨?_, fun h => by omega⟩
      rw [hchk, List.cons_append, run_cons, hst]
      have e1 := run_err cfg cb _ hneg (cs ++ tail)
      have e2 := run_err cfg cb _ hneg2 ((c :: (cs ++ tail)).drop (0 - seen.length))
      rw [e1, e2]
      exact (raiseAt_buf p errSyntax p.vpos (by decide) (p.buf ++ seen)).symm

theorem run_numFix (cfg : Config) (cb : Callback σ) (p : Parser σ) (ha : p.auto = .number) (he : 0 ≤ p.err)
    (inp : List Byte) (h : inp ≠ []) : run cfg cb (numFix p) inp = run cfg cb p inp := by
  cases inp with
  | nil => exact absurd rfl h
  | cons c cs =>
    have ha' : (numFix p).auto = .number := by unfold numFix; split <;> exact ha
    have he' : 0 ≤ (numFix p).err := by unfold numFix; split <;> exact he
    have hff : numFix (numFix p) = numFix p := by
      unfold numFix
      by_cases h0 : p.sub = 0 <;> simp [h0]
    have hb : numByte cfg cb (numFix p) c = numByte cfg cb p c := by
      unfold numByte
      rw [hff]
      have e1 : (numFix p).buf = p.buf := by unfold numFix; split <;> rfl
      have e2 : ∀ s, ({ numFix p with sub := s } : Parser σ) = { p with sub := s } := by
        intro s
        unfold numFix
        by_cases h0 : p.sub = 0 <;> simp [h0]
      have e3 : ∀ s, chkN cfg (append (advance { numFix p with sub := s } 1) [c]) =
          chkN cfg (append (advance { p with sub := s } 1) [c]) := fun s => by rw [e2 s]
      cases numChar (numFix p).sub c with
      | next s => exact congrArg (fun x => (x, true)) (e3 s)
      | finish => exact congrArg (fun b => (process cfg cb (numFix p) .number b, false)) e1
      | bad => rfl
    rw [run_cons, run_cons, step_num cfg cb (numFix p) c ha' he', step_num cfg cb p c ha he, hb]

theorem numAutomaton_run (cfg : Config) (cb : Callback σ) (p : Parser σ) (input : List Byte)
    (ha : p.auto = .number) (he : 0 ≤ p.err) (hv : p.vpos.offset ≤ p.pos.offset)
    (hl : cfg.maxNumberLen = 0 ∨ p.pos.offset - p.vpos.offset ≤ cfg.maxNumberLen) (hne : input ≠ []) :
    Same (run cfg cb p input)
      (run cfg cb (numAutomaton cfg cb p input false).1 (input.drop (numAutomaton cfg cb p input false).2)) ∧
    (0 ≤ (numAutomaton cfg cb p input false).1.err → 0 < (numAutomaton cfg cb p input false).2 ∨
      ((numAutomaton cfg cb p input false).1.auto = .main ∧
       (numAutomaton cfg cb p input false).1.state.value = false)) := by
  obtain ⟨tail, htail⟩ := cut_split cfg.maxNumberLen p input
  have hfa : (numFix p).auto = .number := by unfold numFix; split <;> exact ha
  have hfe : (numFix p).err = p.err := by unfold numFix; split <;> rfl
  have hfp : (numFix p).pos = p.pos := by unfold numFix; split <;> rfl
  have hfv : (numFix p).vpos = p.vpos := by unfold numFix; split <;> rfl
  have hfs : (numFix p).sub ≠ 0 := by
    unfold numFix
    by_cases h0 : p.sub = 0 <;> simp [h0]
  have h := numLoop_run cfg cb tail (cut cfg.maxNumberLen p input) (numFix p) [] hfa (by omega) hfs
    (by rw [hfp, hfv]; exact hv) (by rw [hfp, hfv]; exact cut_length _ p input hl)
  have hcne := cut_ne_nil cfg.maxNumberLen p input hne
  have e0 : chkN cfg (append (numFix p) []) = numFix p := by
    have : append (numFix p) [] = numFix p := by simp [append]
    rw [this]
    exact chkN_le cfg _ (by rw [hfp, hfv]; exact hl)
  have hgoal : numAutomaton cfg cb p input false =
      (match numLoop cfg cb (numFix p) [] (cut cfg.maxNumberLen p input) with
        | .returned p2 off => (p2, off)
        | .ranOut p2 seen =>
          if 0 ≤ (chkN cfg p2).err ∧ 0 < seen.length then (append (chkN cfg p2) seen, seen.length)
          else (chkN cfg p2, seen.length)) := rfl
  rw [hgoal]
  generalize numLoop cfg cb (numFix p) [] (cut cfg.maxNumberLen p input) = r at h ⊢
  cases r with
  | returned p2 off =>
    obtain ⟨h1, h2⟩ := h
    rw [e0, ← htail, run_numFix cfg cb p ha he input hne] at h1
    refine ⟨h1, fun hx => Or.inr (h2 hx).2⟩
  | ranOut p2 seen =>
    obtain ⟨h1, h2, h3⟩ := h
    rw [e0, ← htail, run_numFix cfg cb p ha he input hne] at h1
    have hlen : seen.length = (cut cfg.maxNumberLen p input).length := by simpa using h2
    have hpos : 0 < seen.length := by
      rw [hlen]
      exact List.length_pos_iff.mpr hcne
    have hdrop : input.drop seen.length = tail := by
      rw [hlen]
      generalize cut cfg.maxNumberLen p input = x at htail
      rw [htail, List.drop_left]
    simp only
    by_cases hc : 0 ≤ (chkN cfg p2).err
    · rw [if_pos ⟨hc, hpos⟩]
      refine ⟨?_, fun _ => Or.inl hpos⟩
      simp only
      rw [hdrop]
      refine Same.trans h1 ?_
      have : chkN cfg (append p2 seen) = append (chkN cfg p2) seen := by
        unfold chkN at hc ⊢
        by_cases hcond : cfg.maxNumberLen ≠ 0 ∧ p2.pos.offset - p2.vpos.offset > cfg.maxNumberLen
        · rw [if_pos hcond] at hc
          have := raiseAt_err_neg p2 errMaxNumberLen p2.vpos (by decide)
          unfold raiseForValue at hc
          omega
        · rw [if_neg hcond]
          rw [if_neg (show ¬ (cfg.maxNumberLen ≠ 0 ∧ (append p2 seen).pos.offset - (append p2 seen).vpos.offset > cfg.maxNumberLen) from hcond)]
      rw [this]
      exact Same.rfl
    · rw [if_neg (by omega)]
      have hneg : (chkN cfg p2).err < 0 := by omega
      refine ⟨?_, fun hx => by simp only at hx; omega⟩
      simp only
      rw [hdrop]
      refine Same.trans h1 ?_
      apply run_same
      unfold chkN at hneg ⊢
      by_cases hcond : cfg.maxNumberLen ≠ 0 ∧ p2.pos.offset - p2.vpos.offset > cfg.maxNumberLen
      · rw [if_pos hcond]
        rw [if_pos (show (cfg.maxNumberLen ≠ 0 ∧ (append p2 seen).pos.offset - (append p2 seen).vpos.offset > cfg.maxNumberLen) from hcond)]
        exact (raiseAt_buf p2 errMaxNumberLen p2.vpos (by decide) (p2.buf ++ seen)).symm
      · rw [if_neg hcond] at hneg
        omega

end
end WS.Sax
