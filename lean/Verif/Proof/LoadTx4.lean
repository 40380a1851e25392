import Verif.Proof.LoadTx3
import Verif.Spec.LoadTx
/-
Load transaction proofs, part 4: sessions, flushes and the commit.
-/
namespace WS.LT
open WS WS.Conf WS.Sax WS.Time WS.ConfNum WS.Spec.LT

/-! ### Sessions -/

theorem feed_stuck {σ : Type} (cfg : Config) (cb : Callback σ) (p : Parser σ) (inp : List Byte) (h : p.err < 0) :
    (feed cfg cb p inp).err = p.err ∧ (feed cfg cb p inp).user = p.user := by
  have hs : ∀ (l : List Byte) (p : Parser σ), (skipTo cfg p l).err = p.err := by
    intro l
    induction l with
    | nil => intro p; unfold skipTo; split <;> rfl
    | cons c cs ih =>
      intro p
      unfold skipTo
      split
      · split
        · rfl
        · rw [ih]; unfold handleNewLine; grind [advance]
      · rfl
  have h1 : ∀ q : Parser σ, q.err < 0 → ∀ n l, feedLoop cfg cb n q l = q ∨ (feedLoop cfg cb n q l = { q with fault := true }) := by
    intro q hq n l
    cases l with
    | nil => left; cases n <;> rfl
    | cons c cs =>
      cases n with
      | zero => right; rfl
      | succ n => left; unfold feedLoop; rw [if_pos hq]
  unfold feed
  simp only
  have h2 : ∀ q : Parser σ, q.err = p.err → q.user = p.user → ∀ n l, (feedLoop cfg cb n q l).err = p.err ∧ (feedLoop cfg cb n q l).user = p.user := by
    intro q he hu n l
    rcases h1 q (he ▸ h) n l with e | e <;> rw [e] <;> exact ⟨he, hu⟩
  apply h2
  · split
    · have := hs inp p
      unfold raise raiseAt
      rw [if_neg (by rw [this]; omega)]; exact this
    · rfl
  · split
    · rw [raise_user, skipTo_user']
    · rfl

theorem feeds_stuck {σ : Type} (cfg : Config) (cb : Callback σ) (cs : List (List Byte)) : ∀ (p : Parser σ), p.err < 0 →
    (cs.foldl (feed cfg cb) p).err = p.err ∧ (cs.foldl (feed cfg cb) p).user = p.user := by
  induction cs with
  | nil => intro p _; exact ⟨rfl, rfl⟩
  | cons c cs ih =>
    intro p h
    have h1 := feed_stuck cfg cb p c h
    have h2 := ih (feed cfg cb p c) (by rw [h1.1]; exact h)
    exact ⟨h2.1.trans h1.1, h2.2.trans h1.2⟩

theorem fini_stuck {σ : Type} (cfg : Config) (cb : Callback σ) (p : Parser σ) (h : p.err < 0) :
    (fini cfg cb p).ret = p.err ∧ (fini cfg cb p).user = p.user := by
  unfold Sax.fini Sax.flush
  rw [if_neg (by omega)]
  exact ⟨rfl, rfl⟩

variable (H : Host) (tail : Tail)

/-- After the feeds: either all accepted, or one failed. -/
theorem feeds_result (cs : List (List Byte)) : ∀ (s : Session), s.flags.fini = false →
    let P := cs.foldl (feed s.json (loader H.env tail)) s.parser
    let r := feeds H tail s cs
    (0 ≤ P.err ∧ r.1 = { s with parser := P } ∧ ∀ x ∈ r.2, x = none) ∨
    (P.err < 0 ∧ (s.parser.err < 0 ∧ cs = [] ∨ ∃ n k, r.2 = List.replicate n none ++ some (sessionErr P.user.2) :: List.replicate k (some .invalidArg)) ∧
      (r.1.json = s.json ∧ r.1.actual = s.actual ∧ r.1.parser.user = P.user ∧
        (r.1.flags = s.flags ∧ r.1.parser = s.parser ∧ cs = [] ∨ r.1.flags = { s.flags with fini := true } ∧ r.1.finiRet = P.err))) := by
  induction cs with
  | nil =>
    intro s hs
    by_cases h : 0 ≤ s.parser.err
    · left; exact ⟨h, rfl, by simp [feeds]⟩
    · right; exact ⟨by rw [List.foldl_nil]; omega, .inl ⟨by omega, rfl⟩, rfl, rfl, rfl, .inl ⟨rfl, rfl, rfl⟩⟩
  | cons c cs ih =>
    intro s hs
    simp only [List.foldl_cons, feeds]
    by_cases h : (feed s.json (loader H.env tail) s.parser c).err < 0
    · right
      have hst := feeds_stuck s.json (loader H.env tail) cs _ h
      have hf := fini_stuck s.json (loader H.env tail) _ h
      have hx : feedLoad H tail s c =
          ({ s with parser := { feed s.json (loader H.env tail) s.parser c with user := (feed s.json (loader H.env tail) s.parser c).user },
                    finiRet := (feed s.json (loader H.env tail) s.parser c).err, flags := { s.flags with fini := true } },
           some (sessionErr (feed s.json (loader H.env tail) s.parser c).user.2)) := by
        unfold feedLoad
        rw [if_neg (by rw [hs]; decide)]
        simp only
        rw [if_pos h, hf.1, hf.2]
      have hlater : ∀ (cs : List (List Byte)) (s : Session), s.flags.fini = true →
          feeds H tail s cs = (s, List.replicate cs.length (some .invalidArg)) := by
        intro cs
        induction cs with
        | nil => intro s _; rfl
        | cons d ds ih2 =>
          intro s hs
          have : feedLoad H tail s d = (s, some .invalidArg) := by unfold feedLoad; rw [if_pos hs]
          simp only [feeds, this, ih2 s hs]
          rfl
      rw [hx]
      simp only
      rw [hlater _ _ rfl]
      refine ⟨by rw [hst.1]; exact h, .inr ⟨0, cs.length, by rw [hst.2]; rfl⟩, rfl, rfl, hst.2.symm, .inr ⟨rfl, hst.1.symm⟩⟩
    · have hx : feedLoad H tail s c = ({ s with parser := feed s.json (loader H.env tail) s.parser c }, none) := by
        unfold feedLoad
        rw [if_neg (by rw [hs]; decide)]
        simp only
        rw [if_neg h]
      rw [hx]
      simp only
      rcases ih { s with parser := feed s.json (loader H.env tail) s.parser c } hs with ⟨h1, h2, h3⟩ | ⟨h1, h2, h3⟩
      · left; exact ⟨h1, h2, by simpa using h3⟩
      · right
        rcases h2 with ⟨h2, rfl⟩ | ⟨n, k, h2⟩
        · exact absurd h2 h
        · refine ⟨h1, .inr ⟨n + 1, k, by rw [h2]; rfl⟩, h3.1, h3.2.1, h3.2.2.1, ?_⟩
          rcases h3.2.2.2 with ⟨_, _, rfl⟩ | h4
          · cases n <;> cases h2
          · exact .inr h4

/-- How fini ends a session whose parser has this verdict. -/
def ending (H : Host) (f : LoadFlags) (actual : Cx) (ret : Int) (u : World × Res State) : World × Option Err :=
  if ret < 0 then
    if f.onClone then ({ contextFree H.acts u.1 with cx := actual }, some (sessionErr u.2)) else (u.1, some (sessionErr u.2))
  else if f.dryRun then ({ contextFree H.acts u.1 with cx := actual }, none)
  else if f.thenCommit then
    ({ contextFree H.acts { (commit H f actual u.1).2.1 with cx := (commit H f actual u.1).2.2 } with cx := (commit H f actual u.1).2.1.cx }, (commit H f actual u.1).1)
  else (u.1, none)

theorem ending_fini (f : LoadFlags) (a : Cx) (ret : Int) (u : World × Res State) :
    ending H { f with fini := true } a ret u = ending H f a ret u := rfl

theorem finiLoad_ending (s : Session) : finiLoad H tail s =
    if s.flags.fini then ending H s.flags s.actual s.finiRet s.parser.user
    else ending H s.flags s.actual (fini s.json (loader H.env tail) s.parser).ret (fini s.json (loader H.env tail) s.parser).user := by
  unfold finiLoad ending
  by_cases h : s.flags.fini = true
  · simp only [h, if_true]
  · simp only [h, if_false]; rfl

/-- A session is the parse of its chunks, and then its ending. -/
theorem session_eq (s : Session) (hs : s.flags.fini = false) (cs : List (List Byte)) (he : 0 ≤ s.parser.err) :
    let R := fini s.json (loader H.env tail) (cs.foldl (feed s.json (loader H.env tail)) s.parser)
    finiLoad H tail (feeds H tail s cs).1 = ending H s.flags s.actual R.ret R.user ∧
    ((∀ x ∈ (feeds H tail s cs).2, x = none) ∨
     (R.ret < 0 ∧ ∃ n k, (feeds H tail s cs).2 = List.replicate n none ++ some (sessionErr R.user.2) :: List.replicate k (some .invalidArg))) := by
  simp only
  rcases feeds_result H tail cs s hs with ⟨h1, h2, h3⟩ | ⟨h1, h2, h3⟩
  · rw [h2, finiLoad_ending]
    simp only
    rw [hs]
    exact ⟨rfl, .inl h3⟩
  · have hf := fini_stuck s.json (loader H.env tail) _ h1
    rw [finiLoad_ending]
    rcases h3.2.2.2 with ⟨_, _, rfl⟩ | ⟨h4, h5⟩
    · exact absurd h1 (by simpa using he)
    · have e : (feeds H tail s cs).1.flags.fini = true := by rw [h4]
      rw [if_pos e, h4, h5, h3.2.2.1, h3.2.1, ending_fini, hf.1, hf.2]
      refine ⟨rfl, ?_⟩
      rcases h2 with ⟨h2, rfl⟩ | ⟨n, k, h2⟩
      · exact absurd h2 (by omega)
      · exact .inr ⟨h1, n, k, h2⟩

/-- A whole load. -/
theorem use_eq (f : LoadFlags) (hf : f.fini = false) (json : Option Config) (hj : (json.getD defaultJson).maxKeyLen ≤ 32) (w : World)
    (hw : f.onClone = true → cloneable f.how w.cx = true) (cs : List (List Byte)) :
    let t : World := if f.onClone then Draft f w else w
    let w1 : World := if f.onClone then Draft f w else InPlace H f w
    let R := loaded H tail f json t.cx.config w1 cs
    (use H tail f json w cs).world = (ending H f w.cx R.ret R.user).1 ∧
    (use H tail f json w cs).res = (ending H f w.cx R.ret R.user).2 ∧
    ((∀ x ∈ (use H tail f json w cs).fed, x = none) ∨
      (R.ret < 0 ∧ ∃ n k, (use H tail f json w cs).fed = List.replicate n none ++ some (sessionErr R.user.2) :: List.replicate k (some .invalidArg))) := by
  intro t w1 R
  have hi : ∃ w', initLoad H f json w = (w', .ok { flags := f, json := json.getD defaultJson, actual := w.cx, parser := Sax.init (w1, .ok (start f.noRules (ofCfg (cfgGet t.cx.config)))) }) := by
    unfold initLoad
    simp only
    rw [if_neg (by omega), if_neg (by rw [hf]; decide), if_neg (by
      intro h
      obtain ⟨h1, h2⟩ := Bool.and_eq_true_iff.1 h
      rw [hw h1] at h2; cases h2)]
    simp only [t, w1, Draft, InPlace]
    by_cases hc : f.onClone = true
    · simp only [hc, if_true, true_or]; exact ⟨_, rfl⟩
    · simp only [hc, Bool.false_eq_true, if_false, false_or]
      exact ⟨_, rfl⟩
  obtain ⟨w', hi⟩ := hi
  have := session_eq H tail { flags := f, json := json.getD defaultJson, actual := w.cx, parser := Sax.init (w1, .ok (start f.noRules (ofCfg (cfgGet t.cx.config)))) } hf cs (Int.le_refl 0)
  unfold use
  rw [hi]
  simp only
  refine ⟨?_, ?_, this.2⟩
  · rw [this.1]; rfl
  · rw [this.1]; rfl

end WS.LT
