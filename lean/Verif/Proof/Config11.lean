import Verif.Proof.Config10
import Verif.Proof.JsonCut
import Verif.Model.ConfigText
/-
Loader proofs, part 11: the parser in front of the loader.
-/
namespace WS.Conf
open WS WS.Sax WS.Time WS.ConfNum WS.Spec.Load WS.Spec.Conf

variable {α : Type}

/-- What the tokens of a text read in place are followed by. -/
def TextTail (tail : Tail) : Prop :=
  ∀ e vp p, (e.type = .number → Followed (tail e vp p)) ∧ (e.type = .string → Quoted (tail e vp p))

def tailed (tail : Tail) (e : Sax.Event) (vp p : Pos) : Ev :=
  ⟨e.type, e.data, if e.type = .number ∨ e.type = .string then tail e vp p else []⟩

theorem tailed_erase (tail : Tail) (e : Sax.Event) (vp p : Pos) : erase (tailed tail e vp p) = e := rfl

theorem tailed_inText {tail : Tail} (ht : TextTail tail) (e : Sax.Event) (vp p : Pos) : InText (tailed tail e vp p) := by
  refine ⟨fun h => ?_, fun h => ?_, fun h1 h2 => ?_⟩
  · have h' : e.type = .number := h
    simp only [tailed, h', true_or, if_true]
    exact (ht e vp p).1 h'
  · have h' : e.type = .string := h
    simp only [tailed, h', or_true, if_true]
    exact (ht e vp p).2 h'
  · have h1' : e.type ≠ .number := h1
    have h2' : e.type ≠ .string := h2
    simp only [tailed, h1', h2', or_self, if_false]

theorem loader_ok (E : Env α) (tail : Tail) (a : α) (st : State) (e : Sax.Event) (vp p : Pos) :
    (loader E tail (a, .ok st) e vp p).1 = step E a st (tailed tail e vp p) := rfl

theorem loader_nonneg (E : Env α) (tail : Tail) (u : α × Res State) (e : Sax.Event) (vp p : Pos) :
    0 ≤ (loader E tail u e vp p).2.1 ↔ ∃ a st a' st', u = (a, .ok st) ∧ step E a st (tailed tail e vp p) = (a', .ok st') := by
  obtain ⟨a, r⟩ := u
  rcases r with st | er | _
  · have : (loader E tail (a, .ok st) e vp p).2.1 = match (step E a st (tailed tail e vp p)).2 with | .ok _ => 0 | _ => -1 := rfl
    rw [this]
    rcases hs : step E a st (tailed tail e vp p) with ⟨a', st' | er | _⟩
    · exact ⟨fun _ => ⟨_, _, _, _, rfl, hs⟩, fun _ => by simp⟩
    · refine ⟨fun h => absurd h (by simp), ?_⟩
      rintro ⟨_, _, _, _, h1, h2⟩
      cases h1
      rw [hs] at h2
      cases h2
    · refine ⟨fun h => absurd h (by simp), ?_⟩
      rintro ⟨_, _, _, _, h1, h2⟩
      cases h1
      rw [hs] at h2
      cases h2
  · refine ⟨fun h => absurd h (by simp [loader]), ?_⟩
    rintro ⟨_, _, _, _, h1, _⟩
    cases h1
  · refine ⟨fun h => absurd h (by simp [loader]), ?_⟩
    rintro ⟨_, _, _, _, h1, _⟩
    cases h1

/-- The calls the parser makes are a run of the loader. -/
theorem calls_run (E : Env α) {tail : Tail} (ht : TextTail tail) {a : α} {st : State} {u : α × Res State} {evs : List Sax.Event}
    (h : Spec.Json.Calls (loader E tail) (a, .ok st) evs u) :
    ∃ xs a' st', u = (a', .ok st') ∧ xs.map erase = evs ∧ (∀ e ∈ xs, InText e) ∧ run E a st xs = (a', .ok st') := by
  generalize hu : (a, Res.ok st) = u0 at h
  induction h with
  | nil => subst hu; exact ⟨[], a, st, rfl, rfl, by simp, rfl⟩
  | @snoc u' evs e vp p _ hnn ih =>
    obtain ⟨xs, a1, st1, rfl, h1, h2, h3⟩ := ih
    obtain ⟨b, s, a', st', g1, g2⟩ := (loader_nonneg E tail _ e vp p).1 hnn
    cases g1
    refine ⟨xs ++ [tailed tail e vp p], a', st', ?_, ?_, ?_, ?_⟩
    · rw [loader_ok, g2]
    · rw [List.map_append, h1]; rfl
    · intro x hx
      rcases List.mem_append.1 hx with hx | hx
      · exact h2 x hx
      · rw [List.mem_singleton.1 hx]; exact tailed_inText ht e vp p
    · rw [run_append, h3]
      simp only [andThen, run, g2]

theorem good_of_inText {x : Ev} {y : Ev} (h : erase x = erase y) (hx : InText x) (hy : GoodEv y) : GoodEv x := by
  obtain ⟨t, d, r⟩ := x
  obtain ⟨t', d', r'⟩ := y
  simp only [erase, Sax.Event.mk.injEq] at h
  obtain ⟨rfl, rfl⟩ := h
  exact ⟨fun h => ⟨(hy.1 h).1, hx.1 h⟩, fun h => hx.2.1 h⟩

theorem goods_of_inText : ∀ (xs ys : List Ev), xs.map erase = ys.map erase → (∀ e ∈ xs, InText e) → (∀ e ∈ ys, GoodEv e) → ∀ e ∈ xs, GoodEv e
  | [], _, _, _, _, _, he => by cases he
  | x :: xs, [], h, _, _, _, _ => by simp at h
  | x :: xs, y :: ys, h, h1, h2, e, he => by
    simp only [List.map_cons, List.cons.injEq] at h
    rcases List.mem_cons.1 he with rfl | he
    · exact good_of_inText h.1 (h1 _ List.mem_cons_self) (h2 _ List.mem_cons_self)
    · exact goods_of_inText xs ys h.2 (fun e he => h1 e (List.mem_cons_of_mem _ he)) (fun e he => h2 e (List.mem_cons_of_mem _ he)) e he

/-- A successful run stays so when only what follows the tokens changes; the next event then is accepted as well. -/
theorem calls_of_run (E : Env α) {tail : Tail} (ht : TextTail tail) {a a' : α} {st st' : State} {ys : List Ev} (hy : ∀ e ∈ ys, GoodEv e)
    (h : run E a st ys = (a', .ok st')) :
    (∀ pre e suf, ys.map erase = pre ++ e :: suf → ∀ u', Spec.Json.Calls (loader E tail) (a, .ok st) pre u' → ∀ v q, 0 ≤ (loader E tail u' e v q).2.1) := by
  intro pre e suf hsplit u' hc v q
  obtain ⟨xs, a1, st1, rfl, h1, h2, h3⟩ := calls_run E ht hc
  obtain ⟨ys1, ys2, rfl, k1, k2⟩ := map_app hsplit
  obtain ⟨y, ys3, rfl, k3, k4⟩ := map_cons' k2
  have hg : ∀ e ∈ xs, GoodEv e := goods_of_inText xs ys1 (by rw [h1, k1]) h2 (fun e he => hy e (by simp [he]))
  have hrun := (run_after E xs ys1 a st hg (fun e he => hy e (by simp [he])) (by rw [h1, k1]) _ _).1 h3
  rw [run_append, hrun] at h
  simp only [andThen, run] at h
  obtain ⟨a2, st2, g1, g2⟩ := (andThen_ok).1 h
  rw [loader_nonneg]
  have hgood : GoodEv (tailed tail e v q) := good_of_inText (by rw [tailed_erase, k3]) (tailed_inText ht e v q) (hy y (by simp))
  have hyd : y = ⟨e.type, e.data, y.after⟩ := by rw [← k3]; rfl
  rw [hyd] at g1
  refine ⟨a1, st1, a2, st2, rfl, ?_⟩
  have hy' : GoodEv ⟨e.type, e.data, y.after⟩ := by rw [← hyd]; exact hy y (by simp)
  exact (step_after E a1 st1 hgood hy' _ _).2 g1

theorem load_text (E : Env α) (hE : NoEmptyEvent E) {tail : Tail} (ht : TextTail tail) (cfg : Config) (hst : Spec.Json.Strict cfg) (nr : Bool) (c : EventConfig)
    (chunks : List (List Byte)) (hend : ∀ evs, ¬ Spec.Json.CutOff cfg chunks.flatten evs) (a a' : α) :
    (0 ≤ (load E tail cfg nr c a chunks).ret ∧ (load E tail cfg nr c a chunks).user.1 = a') ↔
    ∃ j : J, j.InPlace ∧ Spec.Json.Document cfg chunks.flatten (j.events.map erase) ∧ Loads E nr c j a a' := by
  constructor
  · rintro ⟨h, hu⟩
    obtain ⟨evs, hd, hc⟩ := parse_sound' cfg hst (loader E tail) _ chunks h
    replace hd := hd.resolve_right (hend evs)
    obtain ⟨xs, a1, st1, hu1, h1, h2, h3⟩ := calls_run E ht hc
    have hu' : a1 = a' := by
      have : (load E tail cfg nr c a chunks).user = (a1, .ok st1) := hu1
      rw [this] at hu
      exact hu
    subst hu'
    obtain ⟨w, t, w', _, _, _, hv⟩ := hd.1
    obtain ⟨j, g1, g2⟩ := tree_value hv xs h1 h2
    refine ⟨j, g1, by rw [g2, h1]; exact hd, (load_iff E hE nr c j g1 a a1).1 ⟨st1, by rw [g2]; exact h3⟩⟩
  · rintro ⟨j, hj, hd, hl⟩
    obtain ⟨st', hrun⟩ := (load_iff E hE nr c j hj a a').2 hl
    have hgood := good_value j hj
    obtain ⟨h1, h2⟩ := parse_complete' cfg hst (loader E tail) (a, .ok (start nr c)) chunks
      (calls_of_run E ht hgood hrun) hd
    refine ⟨h1, ?_⟩
    obtain ⟨xs, a1, st1, hu1, k1, k2, k3⟩ := calls_run E ht h2
    have hg := goods_of_inText xs _ k1 k2 hgood
    have := (run_after E xs _ a _ hg hgood k1 _ _).1 k3
    rw [hrun] at this
    cases this
    show (parse cfg (loader E tail) (a, .ok (start nr c)) chunks).user.1 = a'
    rw [hu1]

end WS.Conf
