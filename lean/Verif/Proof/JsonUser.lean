import Verif.Model.JsonSax
/-
What the callback preserves, the parser preserves: the user data is changed by the callback only.
-/
namespace WS.Sax
section
variable {σ : Type} (P : σ → Prop)

theorem raiseAt_user (p : Parser σ) (e : Int) (pos : Pos) : (raiseAt p e pos).user = p.user := by
  unfold raiseAt; split <;> rfl
theorem raise_user (p : Parser σ) (e : Int) : (raise p e).user = p.user := raiseAt_user p e _
theorem raiseForValue_user (p : Parser σ) (e : Int) : (raiseForValue p e).user = p.user := raiseAt_user p e _
theorem raiseUnexpected_user (p : Parser σ) : (raiseUnexpected p).user = p.user := raiseAt_user p _ _
theorem handleNewLine_user (p : Parser σ) (c : Byte) : (handleNewLine p c).user = p.user := by
  unfold handleNewLine; repeat' split
  all_goals rfl
theorem advance_user (p : Parser σ) (n : Nat) : (advance p n).user = p.user := rfl
theorem append_user (p : Parser σ) (d : List Byte) : (append p d).user = p.user := rfl
theorem switch_user (p : Parser σ) (a : Automaton) : (switchAutomaton p a).user = p.user := rfl

variable {P} (cfg : Config) (cb : Callback σ) (hcb : ∀ u e v q, P u → P (cb u e v q).1)
include hcb

theorem process_user (p : Parser σ) (t : JType) (d : List Byte) (h : P p.user) : P (process cfg cb p t d).user := by
  unfold process
  repeat' split
  · exact h
  · exact hcb _ _ _ _ h
  · rw [raiseForValue_user]; exact h
  · rw [raiseForValue_user]; exact h
  · exact hcb _ _ _ _ h

omit hcb in
theorem litLoop_user (lit : List Byte) : ∀ (inp : List Byte) (p : Parser σ) (off : Nat), P p.user → P (litLoop lit p off inp).1.user
  | [], p, off, h => by simpa [litLoop] using h
  | c :: cs, p, off, h => by
    unfold litLoop
    split
    · exact h
    · split
      · rw [raiseForValue_user]; exact h
      · exact litLoop_user lit cs _ _ h

theorem litAutomaton_user (t : JType) (lit : List Byte) (p : Parser σ) (inp : List Byte) (eof : Bool) (h : P p.user) :
    P (litAutomaton cfg cb t lit p inp eof).1.user := by
  have h1 := litLoop_user lit inp p 0 h
  unfold litAutomaton
  split
  · rename_i p' off e; rw [e] at h1; exact h1
  · rename_i p' off e
    rw [e] at h1
    split
    · split
      · rw [raise_user]; exact h1
      · exact process_user cfg cb hcb _ _ _ h1
    · split
      · exact process_user cfg cb hcb _ _ _ h1
      · exact h1

def NumExit.parser : NumExit σ → Parser σ
  | .ranOut p _ => p
  | .returned p _ => p

theorem numLoop_user : ∀ (inp : List Byte) (p : Parser σ) (seen : List Byte), P p.user → P (numLoop cfg cb p seen inp).parser.user
  | [], p, seen, h => h
  | c :: cs, p, seen, h => by
    unfold numLoop
    split
    · exact numLoop_user cs _ _ h
    · split
      · exact process_user cfg cb hcb _ _ _ h
      · exact process_user cfg cb hcb _ _ _ h
    · show P (raiseForValue p errSyntax).user
      rw [raiseForValue_user]; exact h

theorem numAutomaton_user (p : Parser σ) (inp : List Byte) (eof : Bool) (h : P p.user) : P (numAutomaton cfg cb p inp eof).1.user := by
  unfold numAutomaton
  simp only
  have h1 := numLoop_user cfg cb hcb (cut cfg.maxNumberLen p inp) (if p.sub = 0 then { p with sub := 0x0003 } else p) [] (by split <;> exact h)
  split
  · rename_i q off e; rw [e] at h1; exact h1
  · rename_i q seen e
    rw [e] at h1
    have h1 : P q.user := h1
    have h3 : ∀ c : Prop, ∀ _ : Decidable c, P (if c then raiseForValue q errMaxNumberLen else q).user := by
      intro c _
      split
      · rw [raiseForValue_user]; exact h1
      · exact h1
    repeat' split
    all_goals first
      | exact process_user cfg cb hcb _ _ _ (h3 _ _)
      | (rw [raiseForValue_user]; exact h3 _ _)
      | exact h3 _ _
      | exact h1
      | exact process_user cfg cb hcb _ _ _ h1
      | (rw [raiseForValue_user]; exact h1)
      | (rw [raiseForValue_user, raiseForValue_user]; exact h1)
      | (apply process_user cfg cb hcb; rw [raiseForValue_user]; exact h1)
      | (rw [append_user, raiseForValue_user]; exact h1)

omit hcb in
theorem illSurrogate_user (p : Parser σ) (cp : Nat) (i f : Bool) (h : P p.user) : P (illSurrogate p cp i f).1.user := by
  unfold illSurrogate
  repeat' split
  · exact h
  · exact h
  · rw [raise_user]; exact h

def StrStep.parser : StrStep σ → Parser σ
  | .adv p => p
  | .again p => p
  | .closed p => p
  | .fail p => p

omit hcb in
theorem finishEscape_user (p : Parser σ) (i f : Bool) (h : P p.user) : P (finishEscape p i f).parser.user := by
  have key : ∀ (q : Parser σ × Bool), P q.1.user → P (if q.2 = false then StrStep.fail q.1
    else
      if q.1.cp0 = 0 ∧ isLo q.1.cp1 = true then
        match illSurrogate q.1 q.1.cp1 i f with
        | (q, false) => .fail q
        | (q, true) => .adv { q with sub := 0, cp1 := 0 }
      else if q.1.cp0 ≠ 0 ∧ isLo q.1.cp1 = true then
        .adv { appendCodepoint q.1 (0x10000 + (q.1.cp0 - 0xd800) * 0x400 + (q.1.cp1 - 0xdc00)) with
               sub := 0, cp0 := 0, cp1 := 0 }
      else if isHi q.1.cp1 = true then
        .adv { q.1 with cp0 := q.1.cp1, sub := 0xabcd - 2, cp1 := 0 }
      else
        .adv { appendCodepoint q.1 q.1.cp1 with sub := 0, cp1 := 0 }).parser.user := by
    intro q hq
    have h2 := illSurrogate_user q.1 q.1.cp1 i f hq
    repeat' split
    all_goals first
      | exact hq
      | (rename_i e; rw [e] at h2; exact h2)
  unfold finishEscape
  refine key _ ?_
  have h2 := illSurrogate_user p p.cp0 i f h
  split
  · split
    · rename_i e; rw [e] at h2; exact h2
    · rename_i e; rw [e] at h2; exact h2
  · exact h

theorem strChar_user (t : JType) (i f : Bool) (p : Parser σ) (c : Byte) (h : P p.user) : P (strChar cfg cb t i f p c).parser.user := by
  have h2 := illSurrogate_user p p.cp0 i f h
  have hp := process_user cfg cb hcb (advance p 1) t p.buf h
  unfold strChar
  repeat' split
  all_goals first
    | exact h
    | exact hp
    | (show P (raiseForValue _ _).user; rw [raiseForValue_user]; exact h)
    | (show P (raise _ _).user; rw [raise_user]; exact h)
    | exact finishEscape_user _ _ _ h
    | (rename_i e; rw [e] at h2; exact h2)
    | (rename_i e _; rw [e] at h2; exact h2)
    | (split
       · exact finishEscape_user _ _ _ h
       · exact h)
    | (show P (StrStep.parser (if _ then _ else _)).user
       split
       · exact finishEscape_user _ _ _ h
       · exact h)

theorem strLoop_user (t : JType) (i f : Bool) : ∀ (fuel off : Nat) (p : Parser σ) (inp : List Byte), P p.user →
    P (strLoop cfg cb t i f fuel off p inp).1.user
  | fuel, off, p, [], h => by cases fuel <;> exact h
  | 0, off, p, _ :: _, h => h
  | fuel + 1, off, p, c :: cs, h => by
    have hs := strChar_user cfg cb hcb t i f p c h
    unfold strLoop
    split
    · simp only
      split
      · exact process_user cfg cb hcb _ _ _ h
      · exact strLoop_user t i f fuel _ _ _ h
    · split
      · rename_i e; rw [e] at hs; exact strLoop_user t i f fuel _ _ _ hs
      · rename_i e; rw [e] at hs; exact strLoop_user t i f fuel _ _ _ hs
      · rename_i e; rw [e] at hs; exact hs
      · rename_i e; rw [e] at hs; exact hs

theorem strAutomaton_user (t : JType) (p : Parser σ) (inp : List Byte) (eof : Bool) (h : P p.user) : P (strAutomaton cfg cb t p inp eof).1.user := by
  have h1 := strLoop_user cfg cb hcb t (ignoreIll cfg t) (fixIll cfg t) (2 * (cut (strMax cfg t) p inp).length + 1) 0 p (cut (strMax cfg t) p inp) h
  unfold strAutomaton
  simp only
  repeat' split
  all_goals first
    | exact h1
    | (rw [raiseForValue_user]; exact h1)
    | (rw [raiseForValue_user, raiseForValue_user]; exact h1)

theorem dispatch_user (p : Parser σ) (inp : List Byte) (eof : Bool) (h : P p.user) : P (dispatch cfg cb p inp eof).1.user := by
  unfold dispatch
  split
  · exact litAutomaton_user cfg cb hcb _ _ _ _ _ h
  · exact litAutomaton_user cfg cb hcb _ _ _ _ _ h
  · exact litAutomaton_user cfg cb hcb _ _ _ _ _ h
  · exact numAutomaton_user cfg cb hcb _ _ _ h
  · exact strAutomaton_user cfg cb hcb _ _ _ _ h
  · exact strAutomaton_user cfg cb hcb _ _ _ _ h
  · show P (raise p errInternal).user
    rw [raise_user]; exact h

def MainStep.parser : MainStep σ → Parser σ
  | .adv p => p
  | .again p => p
  | .stop p => p

theorem mainChar_user (p : Parser σ) (c : Byte) (h : P p.user) : P (mainChar cfg cb p c).parser.user := by
  unfold mainChar
  repeat' split
  all_goals first
    | exact h
    | exact process_user cfg cb hcb _ _ _ h
    | (show P (raise _ _).user; rw [raise_user]; exact h)
    | (show P (raiseUnexpected _).user; rw [raiseUnexpected_user]; exact h)

theorem feedLoop_user : ∀ (fuel : Nat) (p : Parser σ) (inp : List Byte), P p.user → P (feedLoop cfg cb fuel p inp).user
  | fuel, p, [], h => by cases fuel <;> exact h
  | 0, p, _ :: _, h => h
  | fuel + 1, p, c :: cs, h => by
    have hd := dispatch_user cfg cb hcb p (c :: cs) false h
    have hm := mainChar_user cfg cb hcb p c h
    unfold feedLoop
    split
    · exact h
    · split
      · simp only
        split
        · exact hd
        · exact feedLoop_user fuel _ _ hd
      · split
        · rename_i e; rw [e] at hm; exact feedLoop_user fuel _ _ (by rw [handleNewLine_user]; exact hm)
        · rename_i e; rw [e] at hm; exact feedLoop_user fuel _ _ hm
        · rename_i e; rw [e] at hm; exact hm

omit hcb in
theorem skipTo_user' : ∀ (inp : List Byte) (p : Parser σ), (skipTo cfg p inp).user = p.user
  | [], p => by unfold skipTo; split <;> rfl
  | c :: cs, p => by
    unfold skipTo
    split
    · cases cs with
      | nil => rfl
      | cons d ds => simp only; rw [skipTo_user' (d :: ds), handleNewLine_user]; rfl
    · rfl

theorem feed_user (p : Parser σ) (inp : List Byte) (h : P p.user) : P (feed cfg cb p inp).user := by
  unfold feed
  refine feedLoop_user cfg cb hcb _ _ _ ?_
  split
  · rw [raise_user, skipTo_user']; exact h
  · exact h

theorem flush_user (p : Parser σ) (h : P p.user) : P (flush cfg cb p).user := by
  have hd := dispatch_user cfg cb hcb p [] true h
  unfold flush
  split
  · split
    · simp only
      split
      · rw [raise_user]; exact hd
      · exact hd
    · split
      · rw [raiseUnexpected_user]; exact h
      · exact h
  · exact h

/-- What every callback preserves holds at the end, whatever the text, the chunks and the outcome. -/
theorem parse_user (u : σ) (chunks : List (List Byte)) (h : P u) : P (parse cfg cb u chunks).user := by
  unfold parse fini
  refine flush_user cfg cb hcb _ ?_
  have : ∀ (chunks : List (List Byte)) (p : Parser σ), P p.user → P (chunks.foldl (feed cfg cb) p).user := by
    intro chunks
    induction chunks with
    | nil => exact fun p h => h
    | cons c cs ih => exact fun p h => ih _ (feed_user cfg cb hcb p c h)
  exact this chunks _ h

end
end WS.Sax
