import Verif.Proof.JsonErr
/-
The parser never raises its internal error (C94).
-/
namespace WS.Sax

/-- The codes the parser raises on a text: its own but for the internal error. -/
def textCodes : List Int := [-4, -5, -6, -7, -8, -9, -10, -11, -12, -13, -14, -15, -16, -17, -18, -19, -20, -21, -22, -23]

/-- The substates a string can be in: a plain character, inside a multi-byte character, after a backslash, inside a code point. -/
def SubKnown (s : Nat) : Prop := s ≤ 7 ∨ s = 0x5c ∨ 0xabcd - 2 ≤ s

def InS (p : Parser σ) : Prop := p.auto = .string ∨ p.auto = .key

/-- Outside strings. -/
structure Out (P : Int → Prop) (p : Parser σ) : Prop where
  err : P p.err
  auto : ¬ InS p

/-- Inside a string, or just done with it. -/
structure In (P : Int → Prop) (p : Parser σ) : Prop where
  err : P p.err
  sub : SubKnown p.sub

structure Any (P : Int → Prop) (p : Parser σ) : Prop where
  err : P p.err
  sub : InS p → SubKnown p.sub

section
variable {σ : Type} {P : Int → Prop} (cfg : Config) (cb : Callback σ) (hcb : ∀ u e v q, P (cb u e v q).2.1) (hown : ∀ e, e ∈ textCodes → P e)
include hown

omit cfg cb in
theorem raiseAt_out (p : Parser σ) (e : Int) (pos : Pos) (he : e ∈ textCodes) (h : Out P p) : Out P (raiseAt p e pos) := by
  unfold raiseAt; split
  · exact ⟨hown e he, h.auto⟩
  · exact h
omit cfg cb in
theorem raiseAt_in (p : Parser σ) (e : Int) (pos : Pos) (he : e ∈ textCodes) (h : In P p) : In P (raiseAt p e pos) := by
  unfold raiseAt; split
  · exact ⟨hown e he, h.sub⟩
  · exact h
omit cfg cb in
theorem raiseAt_any (p : Parser σ) (e : Int) (pos : Pos) (he : e ∈ textCodes) (h : Any P p) : Any P (raiseAt p e pos) := by
  unfold raiseAt; split
  · exact ⟨hown e he, h.sub⟩
  · exact h
omit hown cfg cb in
theorem unexpected_text (s : Bits) : unexpectedCode s ∈ textCodes := by
  unfold unexpectedCode; repeat' split
  all_goals decide

include hcb

omit hown in
theorem deliver_all (p : Parser σ) (t : JType) (d : List Byte) : P (deliver cb p t d).err ∧ (deliver cb p t d).auto = .main ∧ (deliver cb p t d).sub = 0 :=
  ⟨hcb _ _ _ _, rfl, rfl⟩

theorem process_out (p : Parser σ) (t : JType) (d : List Byte) (h : Out P p) : Out P (process cfg cb p t d) := by
  have hd : ∀ q, Out P (deliver cb q t d) := fun q =>
    ⟨(deliver_all cb hcb q t d).1, fun g => by unfold InS at g; rw [(deliver_all cb hcb q t d).2.1] at g; rcases g with g | g <;> cases g⟩
  unfold process
  repeat' split
  · exact h
  · exact hd _
  · exact raiseAt_out hown _ _ _ (by decide) h
  · exact raiseAt_out hown _ _ _ (by decide) h
  · exact hd _

theorem process_in (p : Parser σ) (t : JType) (d : List Byte) (h : In P p) : In P (process cfg cb p t d) := by
  have hd : ∀ q, In P (deliver cb q t d) := fun q =>
    ⟨(deliver_all cb hcb q t d).1, by rw [(deliver_all cb hcb q t d).2.2]; exact .inl (by omega)⟩
  unfold process
  repeat' split
  · exact h
  · exact hd _
  · exact raiseAt_in hown _ _ _ (by decide) h
  · exact raiseAt_in hown _ _ _ (by decide) h
  · exact hd _

theorem process_any (p : Parser σ) (t : JType) (d : List Byte) (h : Any P p) : Any P (process cfg cb p t d) := by
  have hd : ∀ q, Any P (deliver cb q t d) := fun q =>
    ⟨(deliver_all cb hcb q t d).1, fun _ => by rw [(deliver_all cb hcb q t d).2.2]; exact .inl (by omega)⟩
  unfold process
  repeat' split
  · exact h
  · exact hd _
  · exact raiseAt_any hown _ _ _ (by decide) h
  · exact raiseAt_any hown _ _ _ (by decide) h
  · exact hd _

omit hcb in
theorem litLoop_out (lit : List Byte) : ∀ (inp : List Byte) (p : Parser σ) (off : Nat), Out P p → Out P (litLoop lit p off inp).1
  | [], p, off, h => by simpa [litLoop] using h
  | c :: cs, p, off, h => by
    unfold litLoop
    split
    · exact h
    · split
      · exact raiseAt_out hown _ _ _ (by decide) h
      · exact litLoop_out lit cs _ _ ⟨h.err, h.auto⟩

theorem litAutomaton_out (t : JType) (lit : List Byte) (p : Parser σ) (inp : List Byte) (eof : Bool) (h : Out P p) :
    Out P (litAutomaton cfg cb t lit p inp eof).1 := by
  have h1 := litLoop_out hown lit inp p 0 h
  unfold litAutomaton
  split
  · rename_i p' off e; rw [e] at h1; exact h1
  · rename_i p' off e
    rw [e] at h1
    split
    · split
      · exact raiseAt_out hown _ _ _ (by decide) ⟨h1.err, h1.auto⟩
      · exact process_out cfg cb hcb hown _ _ _ h1
    · split
      · exact process_out cfg cb hcb hown _ _ _ h1
      · exact h1

theorem numLoop_out : ∀ (inp : List Byte) (p : Parser σ) (seen : List Byte), Out P p → Out P (numLoop cfg cb p seen inp).parser
  | [], p, seen, h => h
  | c :: cs, p, seen, h => by
    unfold numLoop
    split
    · exact numLoop_out cs _ _ ⟨h.err, h.auto⟩
    · split
      · exact process_out cfg cb hcb hown _ _ _ h
      · exact process_out cfg cb hcb hown _ _ _ ⟨h.err, h.auto⟩
    · exact raiseAt_out hown _ _ _ (by decide) h

theorem numAutomaton_out (p : Parser σ) (inp : List Byte) (eof : Bool) (h : Out P p) : Out P (numAutomaton cfg cb p inp eof).1 := by
  unfold numAutomaton
  simp only
  have h1 := numLoop_out cfg cb hcb hown (cut cfg.maxNumberLen p inp) (if p.sub = 0 then { p with sub := 0x0003 } else p) []
    (by split; exact ⟨h.err, h.auto⟩; exact h)
  split
  · rename_i q off e; rw [e] at h1; exact h1
  · rename_i q seen e
    rw [e] at h1
    have h1 : Out P q := h1
    have h3 : Out P (if cfg.maxNumberLen ≠ 0 ∧ q.pos.offset - q.vpos.offset > cfg.maxNumberLen then raiseForValue q errMaxNumberLen else q) := by
      split
      · exact raiseAt_out hown _ _ _ (by decide) h1
      · exact h1
    generalize (if cfg.maxNumberLen ≠ 0 ∧ q.pos.offset - q.vpos.offset > cfg.maxNumberLen then raiseForValue q errMaxNumberLen else q) = q3 at h3 ⊢
    repeat' split
    · exact process_out cfg cb hcb hown _ _ _ h3
    · exact raiseAt_out hown _ _ _ (by decide) h3
    · exact ⟨h3.err, h3.auto⟩
    · exact h3

omit hcb in
theorem illSurrogate_in (p : Parser σ) (cp : Nat) (i f : Bool) (h : In P p) : In P (illSurrogate p cp i f).1 := by
  unfold illSurrogate
  repeat' split
  · exact ⟨h.err, h.sub⟩
  · exact ⟨h.err, h.sub⟩
  · exact raiseAt_in hown _ _ _ (by decide) h

omit hcb in
theorem finishEscape_in (p : Parser σ) (i f : Bool) (h : In P p) : In P (finishEscape p i f).parser := by
  have f0 : SubKnown 0 := .inl (by omega)
  have key : ∀ (q : Parser σ × Bool), In P q.1 → In P (if q.2 = false then StrStep.fail q.1
    else
      if q.1.cp0 = 0 ∧ isLo q.1.cp1 = true then
        match illSurrogate q.1 q.1.cp1 i f with
        | (q, false) => .fail q
        | (q, true) => .adv { q with sub := 0, cp1 := 0 }
      else if q.1.cp0 ≠ 0 ∧ isLo q.1.cp1 = true then
        .adv { appendCodepoint q.1 (0x10000 + (q.1.cp0 - 0xd800) * 0x400 + (q.1.cp1 - 0xdc00)) with
               sub := 0, cp0 := 0, cp1 := 0 }
      else if isHi q.1.cp1 = true then
        .adv { q.1 with cp0 := q.1.cp1, sub := 0xabcd - 2, cp1 := 0 }
      else
        .adv { appendCodepoint q.1 q.1.cp1 with sub := 0, cp1 := 0 }).parser := by
    intro q hq
    have h2 := illSurrogate_in hown q.1 q.1.cp1 i f hq
    split
    · exact hq
    · split
      · split
        · rename_i e; rw [e] at h2; exact h2
        · rename_i e; rw [e] at h2; exact ⟨h2.err, f0⟩
      · split
        · exact ⟨hq.err, f0⟩
        · split
          · exact ⟨hq.err, .inr (.inr (Nat.le_refl _))⟩
          · exact ⟨hq.err, f0⟩
  unfold finishEscape
  refine key _ ?_
  have h2 := illSurrogate_in hown p p.cp0 i f h
  split
  · split
    · rename_i e; rw [e] at h2; exact ⟨h2.err, h2.sub⟩
    · rename_i e; rw [e] at h2; exact h2
  · exact h

omit hcb hown in
theorem leadState_fine {c : Byte} {s : Nat} (h : leadState c = some s) : s ≤ 7 := by
  unfold leadState at h
  repeat' split at h
  all_goals first | (injection h with h; omega) | cases h

omit hcb hown in
theorem trailState_fine {b : Nat} {c : Byte} {s : Nat} (h : trailState b c = some s) : s ≤ 7 := by
  unfold trailState at h
  repeat' split at h
  all_goals first | (injection h with h; omega) | cases h

theorem strChar_in (t : JType) (i f : Bool) (p : Parser σ) (c : Byte) (h : In P p) : In P (strChar cfg cb t i f p c).parser := by
  have h2 := illSurrogate_in hown p p.cp0 i f h
  have hp := process_in cfg cb hcb hown (advance p 1) t p.buf ⟨h.err, h.sub⟩
  have f0 : SubKnown 0 := .inl (by omega)
  unfold strChar
  split
  · split
    · exact hp
    · split
      · split
        · exact raiseAt_in hown _ _ _ (by decide) h
        · exact raiseAt_in hown _ _ _ (by decide) h
      · split
        · exact ⟨h.err, .inr (.inl rfl)⟩
        · split
          · rename_i e; exact ⟨h.err, .inl (leadState_fine e)⟩
          · split
            · exact ⟨h.err, h.sub⟩
            · exact raiseAt_in hown _ _ _ (by decide) h
  · split
    · split
      · rename_i e; exact ⟨h.err, .inl (trailState_fine e)⟩
      · split
        · split
          · exact ⟨h.err, f0⟩
          · exact ⟨h.err, h.sub⟩
        · exact raiseAt_in hown _ _ _ (by decide) h
    · split
      · split
        · exact ⟨h.err, .inr (.inr (by show 0xabcd - 2 ≤ 0xabcd + 4; omega))⟩
        · split
          · exact ⟨h.err, f0⟩
          · exact raiseAt_in hown _ _ _ (by decide) h
      · split
        · rename_i hgt
          split
          · exact raiseAt_in hown _ _ _ (by decide) h
          · have hq : In P { p with cp1 := (p.cp1 <<< 4) ||| resolveXdigit c, sub := p.sub - 1 } :=
              ⟨h.err, .inr (.inr (by show 0xabcd - 2 ≤ p.sub - 1; omega))⟩
            simp only
            split
            · exact finishEscape_in hown _ _ _ hq
            · exact hq
        · split
          · split
            · exact ⟨h.err, .inr (.inr (by show 0xabcd - 2 ≤ 0xabcd - 1; omega))⟩
            · split
              · exact ⟨h.err, .inr (.inr (by show 0xabcd - 2 ≤ 0xabcd + 4; omega))⟩
              · split
                · rename_i e; rw [e] at h2; exact h2
                · rename_i e; rw [e] at h2
                  refine ⟨h2.err, ?_⟩
                  show SubKnown (if p.sub = 0xabcd - 1 then 0x5c else 0)
                  split
                  · exact .inr (.inl rfl)
                  · exact f0
          · have := h.sub
            unfold SubKnown at this
            omega

theorem strLoop_in (t : JType) (i f : Bool) : ∀ (fuel off : Nat) (p : Parser σ) (inp : List Byte), In P p →
    In P (strLoop cfg cb t i f fuel off p inp).1
  | fuel, off, p, [], h => by cases fuel <;> exact h
  | 0, off, p, _ :: _, h => ⟨h.err, h.sub⟩
  | fuel + 1, off, p, c :: cs, h => by
    have hs := strChar_in cfg cb hcb hown t i f p c h
    unfold strLoop
    split
    · simp only
      split
      · exact process_in cfg cb hcb hown _ _ _ ⟨h.err, h.sub⟩
      · exact strLoop_in t i f fuel _ _ _ ⟨h.err, h.sub⟩
    · split
      · rename_i e; rw [e] at hs; exact strLoop_in t i f fuel _ _ _ ⟨hs.err, hs.sub⟩
      · rename_i e; rw [e] at hs; exact strLoop_in t i f fuel _ _ _ hs
      · rename_i e; rw [e] at hs; exact hs
      · rename_i e; rw [e] at hs; exact hs

theorem strAutomaton_in (t : JType) (p : Parser σ) (inp : List Byte) (eof : Bool) (h : In P p) : In P (strAutomaton cfg cb t p inp eof).1 := by
  have h1 := strLoop_in cfg cb hcb hown t (ignoreIll cfg t) (fixIll cfg t) (2 * (cut (strMax cfg t) p inp).length + 1) 0 p (cut (strMax cfg t) p inp) h
  unfold strAutomaton
  simp only
  have h2 : ∀ q : Parser σ, In P q → In P (if eof then raiseForValue q errUnclosedString else q) := by
    intro q hq
    split
    · exact raiseAt_in hown _ _ _ (by decide) hq
    · exact hq
  apply h2
  split
  · split
    · exact raiseAt_in hown _ _ _ (by decide) h1
    · exact raiseAt_in hown _ _ _ (by decide) h1
  · exact h1

theorem dispatch_any (p : Parser σ) (inp : List Byte) (eof : Bool) (hm : p.auto ≠ .main) (h : Any P p) : Any P (dispatch cfg cb p inp eof).1 := by
  have ofOut : ∀ {q : Parser σ}, Out P q → Any P q := fun hq => ⟨hq.err, fun g => absurd g hq.auto⟩
  have ofIn : ∀ {q : Parser σ}, In P q → Any P q := fun hq => ⟨hq.err, fun _ => hq.sub⟩
  have out : ∀ {a : Automaton}, p.auto = a → a ≠ .string → a ≠ .key → Out P p := fun e h1 h2 =>
    ⟨h.err, fun g => by rcases g with g | g <;> rw [e] at g <;> contradiction⟩
  unfold dispatch
  split
  · rename_i e; exact ofOut (litAutomaton_out cfg cb hcb hown _ _ _ _ _ (out e (by simp) (by simp)))
  · rename_i e; exact ofOut (litAutomaton_out cfg cb hcb hown _ _ _ _ _ (out e (by simp) (by simp)))
  · rename_i e; exact ofOut (litAutomaton_out cfg cb hcb hown _ _ _ _ _ (out e (by simp) (by simp)))
  · rename_i e; exact ofOut (numAutomaton_out cfg cb hcb hown _ _ _ (out e (by simp) (by simp)))
  · rename_i e; exact ofIn (strAutomaton_in cfg cb hcb hown _ _ _ _ ⟨h.err, h.sub (.inl e)⟩)
  · rename_i e; exact ofIn (strAutomaton_in cfg cb hcb hown _ _ _ _ ⟨h.err, h.sub (.inr e)⟩)
  · rename_i e; exact absurd e hm

theorem mainChar_any (p : Parser σ) (c : Byte) (h : Any P p) : Any P (mainChar cfg cb p c).parser := by
  have sw : ∀ a, Any P (switchAutomaton p a) := fun a => ⟨h.err, fun _ => .inl (by show 0 ≤ 7; omega)⟩
  unfold mainChar
  repeat' split
  all_goals first
    | exact h
    | exact sw _
    | exact ⟨h.err, h.sub⟩
    | exact process_any cfg cb hcb hown _ _ _ ⟨h.err, h.sub⟩
    | exact raiseAt_any hown _ _ _ (by decide) h
    | exact raiseAt_any hown _ _ _ (unexpected_text _) h

omit hown hcb in
theorem handleNewLine_any (p : Parser σ) (c : Byte) (h : Any P p) : Any P (handleNewLine p c) := by
  unfold handleNewLine; repeat' split
  all_goals exact ⟨h.err, h.sub⟩

theorem feedLoop_any : ∀ (fuel : Nat) (p : Parser σ) (inp : List Byte), Any P p → Any P (feedLoop cfg cb fuel p inp)
  | fuel, p, [], h => by cases fuel <;> exact h
  | 0, p, _ :: _, h => ⟨h.err, h.sub⟩
  | fuel + 1, p, c :: cs, h => by
    have hm := mainChar_any cfg cb hcb hown p c h
    unfold feedLoop
    split
    · exact h
    · split
      · rename_i hne
        have hd := dispatch_any cfg cb hcb hown p (c :: cs) false hne h
        simp only
        split
        · exact hd
        · exact feedLoop_any fuel _ _ hd
      · split
        · rename_i e; rw [e] at hm; exact feedLoop_any fuel _ _ (handleNewLine_any _ _ ⟨hm.err, hm.sub⟩)
        · rename_i e; rw [e] at hm; exact feedLoop_any fuel _ _ hm
        · rename_i e; rw [e] at hm; exact hm

omit hcb hown in
theorem skipTo_any : ∀ (inp : List Byte) (p : Parser σ), Any P p → Any P (skipTo cfg p inp)
  | [], p, h => by unfold skipTo; split; exact ⟨h.err, h.sub⟩; exact h
  | c :: cs, p, h => by
    unfold skipTo
    split
    · cases cs with
      | nil => exact ⟨h.err, h.sub⟩
      | cons d ds => exact skipTo_any (d :: ds) _ (handleNewLine_any _ _ ⟨h.err, h.sub⟩)
    · exact h

theorem feed_any (p : Parser σ) (inp : List Byte) (h : Any P p) : Any P (feed cfg cb p inp) := by
  unfold feed
  refine feedLoop_any cfg cb hcb hown _ _ _ ?_
  split
  · exact raiseAt_any hown _ _ _ (by decide) (skipTo_any cfg _ _ h)
  · exact h

theorem flush_any (p : Parser σ) (h : Any P p) : Any P (flush cfg cb p) := by
  unfold flush
  split
  · split
    · rename_i hne
      have hd := dispatch_any cfg cb hcb hown p [] true hne h
      simp only
      split
      · exact raiseAt_any hown _ _ _ (by decide) ⟨hd.err, hd.sub⟩
      · exact ⟨hd.err, hd.sub⟩
    · split
      · exact raiseAt_any hown _ _ _ (unexpected_text _) h
      · exact h
  · exact h

/-- What holds of 0, of the codes the parser raises on a text and of the callback's codes holds of the code of every parse. -/
theorem parse_text (u : σ) (chunks : List (List Byte)) (h : P 0) : P (parse cfg cb u chunks).ret := by
  unfold parse fini
  refine (flush_any cfg cb hcb hown _ ?_).err
  have : ∀ (chunks : List (List Byte)) (p : Parser σ), Any P p → Any P (chunks.foldl (feed cfg cb) p) := by
    intro chunks
    induction chunks with
    | nil => exact fun p h => h
    | cons c cs ih => exact fun p h => ih _ (feed_any cfg cb hcb hown p c h)
  exact this chunks _ ⟨h, fun g => by rcases g with g | g <;> cases g⟩

end
end WS.Sax
