import Verif.Proof.JsonUser
/-
Where the parser's codes come from: its own, or a callback's (C93).
-/
namespace WS.Sax

/-- The codes the parser raises itself. -/
def ownCodes : List Int := [-1, -4, -5, -6, -7, -8, -9, -10, -11, -12, -13, -14, -15, -16, -17, -18, -19, -20, -21, -22, -23]

section
variable {σ : Type} {P : Int → Prop} (cfg : Config) (cb : Callback σ) (hcb : ∀ u e v q, P (cb u e v q).2.1) (hown : ∀ e, e ∈ ownCodes → P e)
include hown

omit cfg cb in
theorem raiseAt_err (p : Parser σ) (e : Int) (pos : Pos) (he : e ∈ ownCodes) (h : P p.err) : P (raiseAt p e pos).err := by
  unfold raiseAt; split
  · exact hown e he
  · exact h
omit cfg cb in
theorem raise_err (p : Parser σ) (e : Int) (he : e ∈ ownCodes) (h : P p.err) : P (raise p e).err := raiseAt_err hown p e _ he h
omit cfg cb in
theorem raiseForValue_err (p : Parser σ) (e : Int) (he : e ∈ ownCodes) (h : P p.err) : P (raiseForValue p e).err := raiseAt_err hown p e _ he h
omit hown cfg cb in
theorem unexpected_own (s : Bits) : unexpectedCode s ∈ ownCodes := by
  unfold unexpectedCode; repeat' split
  all_goals decide
omit cfg cb in
theorem raiseUnexpected_err (p : Parser σ) (h : P p.err) : P (raiseUnexpected p).err := raiseAt_err hown p _ _ (unexpected_own _) h
omit hown cfg cb in
theorem handleNewLine_err (p : Parser σ) (c : Byte) : (handleNewLine p c).err = p.err := by
  unfold handleNewLine; repeat' split
  all_goals rfl

include hcb

theorem process_err (p : Parser σ) (t : JType) (d : List Byte) (h : P p.err) : P (process cfg cb p t d).err := by
  unfold process
  repeat' split
  · exact h
  · exact hcb _ _ _ _
  · exact raiseForValue_err hown _ _ (by decide) (h)
  · exact raiseForValue_err hown _ _ (by decide) (h)
  · exact hcb _ _ _ _

omit hcb in
theorem litLoop_err (lit : List Byte) : ∀ (inp : List Byte) (p : Parser σ) (off : Nat), P p.err → P (litLoop lit p off inp).1.err
  | [], p, off, h => by simpa [litLoop] using h
  | c :: cs, p, off, h => by
    unfold litLoop
    split
    · exact h
    · split
      · exact raiseForValue_err hown _ _ (by decide) (h)
      · exact litLoop_err lit cs _ _ h

theorem litAutomaton_err (t : JType) (lit : List Byte) (p : Parser σ) (inp : List Byte) (eof : Bool) (h : P p.err) :
    P (litAutomaton cfg cb t lit p inp eof).1.err := by
  have h1 := litLoop_err hown lit inp p 0 h
  unfold litAutomaton
  split
  · rename_i p' off e; rw [e] at h1; exact h1
  · rename_i p' off e
    rw [e] at h1
    split
    · split
      · exact raise_err hown _ _ (by decide) (h1)
      · exact process_err cfg cb hcb hown _ _ _ h1
    · split
      · exact process_err cfg cb hcb hown _ _ _ h1
      · exact h1

theorem numLoop_err : ∀ (inp : List Byte) (p : Parser σ) (seen : List Byte), P p.err → P (numLoop cfg cb p seen inp).parser.err
  | [], p, seen, h => h
  | c :: cs, p, seen, h => by
    unfold numLoop
    split
    · exact numLoop_err cs _ _ h
    · split
      · exact process_err cfg cb hcb hown _ _ _ h
      · exact process_err cfg cb hcb hown _ _ _ h
    · show P (raiseForValue p errSyntax).err
      exact raiseForValue_err hown _ _ (by decide) (h)

theorem numAutomaton_err (p : Parser σ) (inp : List Byte) (eof : Bool) (h : P p.err) : P (numAutomaton cfg cb p inp eof).1.err := by
  unfold numAutomaton
  simp only
  have h1 := numLoop_err cfg cb hcb hown (cut cfg.maxNumberLen p inp) (if p.sub = 0 then { p with sub := 0x0003 } else p) [] (by split <;> exact h)
  split
  · rename_i q off e; rw [e] at h1; exact h1
  · rename_i q seen e
    rw [e] at h1
    have h1 : P q.err := h1
    have h3 : ∀ c : Prop, ∀ _ : Decidable c, P (if c then raiseForValue q errMaxNumberLen else q).err := by
      intro c _
      split
      · exact raiseForValue_err hown _ _ (by decide) (h1)
      · exact h1
    repeat' split
    all_goals first
      | exact process_err cfg cb hcb hown _ _ _ (h3 _ _)
      | (exact raiseForValue_err hown _ _ (by decide) (h3 _ _))
      | exact h3 _ _
      | exact h1
      | exact process_err cfg cb hcb hown _ _ _ h1
      | (exact raiseForValue_err hown _ _ (by decide) (h1))
      | (exact raiseForValue_err hown _ _ (by decide) (raiseForValue_err hown _ _ (by decide) h1))
      | (apply process_err cfg cb hcb hown; exact raiseForValue_err hown _ _ (by decide) (h1))


omit hcb in
theorem illSurrogate_err (p : Parser σ) (cp : Nat) (i f : Bool) (h : P p.err) : P (illSurrogate p cp i f).1.err := by
  unfold illSurrogate
  repeat' split
  · exact h
  · exact h
  · exact raise_err hown _ _ (by decide) (h)

omit hcb in
theorem finishEscape_err (p : Parser σ) (i f : Bool) (h : P p.err) : P (finishEscape p i f).parser.err := by
  have key : ∀ (q : Parser σ × Bool), P q.1.err → P (if q.2 = false then StrStep.fail q.1
    else
      if q.1.cp0 = 0 ∧ isLo q.1.cp1 = true then
        match illSurrogate q.1 q.1.cp1 i f with
        | (q, false) => .fail q
        | (q, true) => .adv { q with sub := 0, cp1 := 0 }
      else if q.1.cp0 ≠ 0 ∧ isLo q.1.cp1 = true then
        .adv { appendCodepoint q.1 (0x10000 + (q.1.cp0 - 0xd800) * 0x400 + (q.1.cp1 - 0xdc00)) with
               sub := 0, cp0 := 0, cp1 := 0 }
      else if isHi q.1.cp1 = true then
        .adv { q.1 with cp0 := q.1.cp1, sub := 0xabcd - 2, cp1 := 0 }
      else
        .adv { appendCodepoint q.1 q.1.cp1 with sub := 0, cp1 := 0 }).parser.err := by
    intro q hq
    have h2 := illSurrogate_err hown q.1 q.1.cp1 i f hq
    repeat' split
    all_goals first
      | exact hq
      | (rename_i e; rw [e] at h2; exact h2)
  unfold finishEscape
  refine key _ ?_
  have h2 := illSurrogate_err hown p p.cp0 i f h
  split
  · split
    · rename_i e; rw [e] at h2; exact h2
    · rename_i e; rw [e] at h2; exact h2
  · exact h

theorem strChar_err (t : JType) (i f : Bool) (p : Parser σ) (c : Byte) (h : P p.err) : P (strChar cfg cb t i f p c).parser.err := by
  have h2 := illSurrogate_err hown p p.cp0 i f h
  have hp := process_err cfg cb hcb hown (advance p 1) t p.buf h
  unfold strChar
  repeat' split
  all_goals first
    | exact h
    | exact hp
    | (show P (raiseForValue _ _).err; exact raiseForValue_err hown _ _ (by decide) (h))
    | (show P (raise _ _).err; exact raise_err hown _ _ (by decide) (h))
    | exact finishEscape_err hown _ _ _ h
    | (rename_i e; rw [e] at h2; exact h2)
    | (rename_i e _; rw [e] at h2; exact h2)
    | (split
       · exact finishEscape_err hown _ _ _ h
       · exact h)
    | (show P (StrStep.parser (if _ then _ else _)).err
       split
       · exact finishEscape_err hown _ _ _ h
       · exact h)

theorem strLoop_err (t : JType) (i f : Bool) : ∀ (fuel off : Nat) (p : Parser σ) (inp : List Byte), P p.err →
    P (strLoop cfg cb t i f fuel off p inp).1.err
  | fuel, off, p, [], h => by cases fuel <;> exact h
  | 0, off, p, _ :: _, h => h
  | fuel + 1, off, p, c :: cs, h => by
    have hs := strChar_err cfg cb hcb hown t i f p c h
    unfold strLoop
    split
    · simp only
      split
      · exact process_err cfg cb hcb hown _ _ _ h
      · exact strLoop_err t i f fuel _ _ _ h
    · split
      · rename_i e; rw [e] at hs; exact strLoop_err t i f fuel _ _ _ hs
      · rename_i e; rw [e] at hs; exact strLoop_err t i f fuel _ _ _ hs
      · rename_i e; rw [e] at hs; exact hs
      · rename_i e; rw [e] at hs; exact hs

theorem strAutomaton_err (t : JType) (p : Parser σ) (inp : List Byte) (eof : Bool) (h : P p.err) : P (strAutomaton cfg cb t p inp eof).1.err := by
  have h1 := strLoop_err cfg cb hcb hown t (ignoreIll cfg t) (fixIll cfg t) (2 * (cut (strMax cfg t) p inp).length + 1) 0 p (cut (strMax cfg t) p inp) h
  unfold strAutomaton
  simp only
  repeat' split
  all_goals first
    | exact h1
    | (exact raiseForValue_err hown _ _ (by decide) (h1))
    | (exact raiseForValue_err hown _ _ (by decide) (raiseForValue_err hown _ _ (by decide) h1))

theorem dispatch_err (p : Parser σ) (inp : List Byte) (eof : Bool) (h : P p.err) : P (dispatch cfg cb p inp eof).1.err := by
  unfold dispatch
  split
  · exact litAutomaton_err cfg cb hcb hown _ _ _ _ _ h
  · exact litAutomaton_err cfg cb hcb hown _ _ _ _ _ h
  · exact litAutomaton_err cfg cb hcb hown _ _ _ _ _ h
  · exact numAutomaton_err cfg cb hcb hown _ _ _ h
  · exact strAutomaton_err cfg cb hcb hown _ _ _ _ h
  · exact strAutomaton_err cfg cb hcb hown _ _ _ _ h
  · show P (raise p errInternal).err
    exact raise_err hown _ _ (by decide) (h)

theorem mainChar_err (p : Parser σ) (c : Byte) (h : P p.err) : P (mainChar cfg cb p c).parser.err := by
  unfold mainChar
  repeat' split
  all_goals first
    | exact h
    | exact process_err cfg cb hcb hown _ _ _ h
    | (show P (raise _ _).err; exact raise_err hown _ _ (by decide) (h))
    | (show P (raiseUnexpected _).err; exact raiseUnexpected_err hown _ (h))

theorem feedLoop_err : ∀ (fuel : Nat) (p : Parser σ) (inp : List Byte), P p.err → P (feedLoop cfg cb fuel p inp).err
  | fuel, p, [], h => by cases fuel <;> exact h
  | 0, p, _ :: _, h => h
  | fuel + 1, p, c :: cs, h => by
    have hd := dispatch_err cfg cb hcb hown p (c :: cs) false h
    have hm := mainChar_err cfg cb hcb hown p c h
    unfold feedLoop
    split
    · exact h
    · split
      · simp only
        split
        · exact hd
        · exact feedLoop_err fuel _ _ hd
      · split
        · rename_i e; rw [e] at hm; exact feedLoop_err fuel _ _ (by rw [handleNewLine_err]; exact hm)
        · rename_i e; rw [e] at hm; exact feedLoop_err fuel _ _ hm
        · rename_i e; rw [e] at hm; exact hm

omit hcb hown in
theorem skipTo_err' : ∀ (inp : List Byte) (p : Parser σ), (skipTo cfg p inp).err = p.err
  | [], p => by unfold skipTo; split <;> rfl
  | c :: cs, p => by
    unfold skipTo
    split
    · cases cs with
      | nil => rfl
      | cons d ds => simp only; rw [skipTo_err' (d :: ds), handleNewLine_err]; rfl
    · rfl

theorem feed_err (p : Parser σ) (inp : List Byte) (h : P p.err) : P (feed cfg cb p inp).err := by
  unfold feed
  refine feedLoop_err cfg cb hcb hown _ _ _ ?_
  split
  · exact raise_err hown _ _ (by decide) (by rw [skipTo_err']; exact h)
  · exact h

theorem flush_err (p : Parser σ) (h : P p.err) : P (flush cfg cb p).err := by
  have hd := dispatch_err cfg cb hcb hown p [] true h
  unfold flush
  split
  · split
    · simp only
      split
      · exact raise_err hown _ _ (by decide) (hd)
      · exact hd
    · split
      · exact raiseUnexpected_err hown _ (h)
      · exact h
  · exact h

/-- What holds of 0, of the parser's own codes and of the callback's codes holds of the code of every parse. -/
theorem parse_err (u : σ) (chunks : List (List Byte)) (h : P 0) : P (parse cfg cb u chunks).ret := by
  unfold parse fini
  refine flush_err cfg cb hcb hown _ ?_
  have : ∀ (chunks : List (List Byte)) (p : Parser σ), P p.err → P (chunks.foldl (feed cfg cb) p).err := by
    intro chunks
    induction chunks with
    | nil => exact fun p h => h
    | cons c cs ih => exact fun p h => ih _ (feed_err cfg cb hcb hown p c h)
  exact this chunks _ h

end
end WS.Sax
