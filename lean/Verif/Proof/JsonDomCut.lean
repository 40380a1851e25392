import Verif.Proof.JsonCut
import Verif.Proof.JsonDom4
/-
Texts cut off, parsed into values: they give the value of the closed text.
-/
namespace WS.Dom
open WS WS.Sax WS.Spec.Json WS.Spec.Dom WS.JNum WS.Props
variable {S : List Byte → Option (BitVec 64)} {pol : DupKey} {o : Bool}

theorem cutOff_document_det {cfg : Config} (hst : Strict cfg) {text : List Byte} {a b : List Event}
    (ha : Document cfg text a ∨ CutOff cfg text a) (hb : Document cfg text b ∨ CutOff cfg text b) : a = b := by
  have e : [text].flatten = text := by simp
  have use : ∀ {a : List Event}, Document cfg text a ∨ CutOff cfg text a → (Sax.parse cfg recorder [] [text]).user = a := by
    intro a ha
    rcases ha with ha | ha
    · have h1 := (parse_complete' cfg hst recorder [] [text] (fun _ _ _ _ _ _ _ _ => Int.le_refl 0) (by rw [e]; exact ha)).2
      simpa using recorder_calls h1
    · have h1 := (parse_cut cfg hst recorder [] [text] (fun _ _ _ _ _ _ _ _ => Int.le_refl 0) (by rw [e]; exact ha)).2
      simpa using recorder_calls h1
  rw [← use ha, ← use hb]

theorem pop_value {st : State} (hw : st.wrapped = false) (hp : st.path ≠ []) : (pop st).value = st.value ∧ (pop st).wrapped = false := by
  unfold pop
  rw [if_neg (by simp [hw])]
  cases hpath : st.path with
  | nil => exact absurd hpath hp
  | cons f rest =>
    simp only
    cases rest with
    | nil => simp [State.store, State.value, hpath, hw]
    | cons g r => simp [State.store, State.value, hpath, hw]

theorem process_ending {e : Event} (h : Ending e) (st : State) : process S pol o st e = .ok (pop st) := by
  unfold process
  unfold Ending at h
  rw [if_pos h]

theorem pop_wrapped {st : State} (hw : st.wrapped = true) : pop st = st := by
  unfold pop; rw [if_pos hw]

theorem run_endings : ∀ (ce : List Event) (st : State), (∀ e ∈ ce, Ending e) → ∃ st', run S pol o st ce = .ok st' ∧
    (st'.wrapped = false → st'.value = st.value ∧ st.wrapped = false)
  | [], st, _ => ⟨st, rfl, fun h => ⟨rfl, h⟩⟩
  | e :: ce, st, h => by
    obtain ⟨st', h1, h2⟩ := run_endings ce (pop st) (fun x hx => h x (by simp [hx]))
    refine ⟨st', ?_, ?_⟩
    · simp only [run, process_ending (h e (by simp))]
      exact h1
    · intro hw
      obtain ⟨h3, h4⟩ := h2 hw
      have hst : st.wrapped = false := by
        cases hs : st.wrapped with
        | false => rfl
        | true => rw [pop_wrapped hs, hs] at h4; cases h4
      have hp : st.path ≠ [] := by
        intro hp
        unfold pop at h4
        rw [if_neg (by simp [hst]), hp] at h4
        cases h4
      exact ⟨h3.trans (pop_value hst hp).1, hst⟩

/-- A text cut off closes to a tree. -/
theorem cutOff_closes {cfg : Config} {text : List Byte} {evs : List Event} (h : CutOff cfg text evs) :
    ∃ (t : T) (rest : List Byte) (ce : List Event), t.events = evs ++ ce ∧ (∀ e ∈ ce, Ending e) ∧
      (∃ w v, text ++ rest = w ++ v ∧ Spec.Json.WS w ∧ Value cfg 0 v t.events) := by
  obtain ⟨⟨d, t0, tok, e0, ev, htx, hop, htok, hev⟩, _⟩ := h
  obtain ⟨n, hn, hb⟩ := before_of_open hop
  obtain ⟨r, hr⟩ := lastToken_value htok n.length
  obtain ⟨cl, ce, ⟨w, v, g1, g2, g3⟩, g4, _, _⟩ := close_all hb hr
  obtain ⟨t, ht⟩ := tree_value g3
  refine ⟨t, r ++ cl, ce, by rw [ht, hev], g4, w, v, ?_, g2, by rw [ht]; exact g3⟩
  rw [htx, ← g1]; simp

theorem parse_out (S : List Byte → Option (BitVec 64)) (flags : BitVec 32) (cfg : Config) (hst : Strict cfg)
    (chunks : List (List Byte)) (h : 0 ≤ (parse S flags cfg chunks).1) :
    ∃ evs st, (Document cfg chunks.flatten evs ∨ CutOff cfg chunks.flatten evs) ∧
      run S (dupKey flags) (maintainOrder flags) {} evs = .ok st ∧ (parse S flags cfg chunks).2 = st.value := by
  generalize hr : Sax.parse cfg (callback S (dupKey flags) (maintainOrder flags)) (.ok {}) chunks = r
  have hp : parse S flags cfg chunks = if 0 ≤ r.ret then (r.ret, (match r.user with | .ok st => st.value | _ => .null)) else (r.ret, .null) := by
    unfold parse; rw [hr]; rfl
  rw [hp] at h ⊢
  have h0 : 0 ≤ r.ret := by
    split at h
    · assumption
    · exact h
  obtain ⟨evs, hd, hc⟩ := parse_sound' cfg hst _ _ chunks (hr ▸ h0)
  rw [hr] at hc
  obtain ⟨st', hu, hrun⟩ := calls_run hc
  refine ⟨evs, st', hd, hrun, ?_⟩
  rw [if_pos h0, hu]

theorem parse_in (S : List Byte → Option (BitVec 64)) (flags : BitVec 32) (cfg : Config) (hst : Strict cfg)
    (chunks : List (List Byte)) {evs : List Event} {st : State} (hd : Document cfg chunks.flatten evs ∨ CutOff cfg chunks.flatten evs)
    (hrun : run S (dupKey flags) (maintainOrder flags) {} evs = .ok st) :
    0 ≤ (parse S flags cfg chunks).1 ∧ (parse S flags cfg chunks).2 = st.value := by
  generalize hr : Sax.parse cfg (callback S (dupKey flags) (maintainOrder flags)) (.ok {}) chunks = r
  have hp : parse S flags cfg chunks = if 0 ≤ r.ret then (r.ret, (match r.user with | .ok st => st.value | _ => .null)) else (r.ret, .null) := by
    unfold parse; rw [hr]; rfl
  rw [hp]
  have h12 : 0 ≤ (Sax.parse cfg (callback S (dupKey flags) (maintainOrder flags)) (.ok {}) chunks).ret ∧
      Calls (callback S (dupKey flags) (maintainOrder flags)) (.ok {}) evs (Sax.parse cfg (callback S (dupKey flags) (maintainOrder flags)) (.ok {}) chunks).user := by
    rcases hd with hd | hd
    · exact parse_complete' cfg hst _ _ chunks (calls_of_run hrun) hd
    · exact parse_cut cfg hst _ _ chunks (calls_of_run hrun) hd
  obtain ⟨h1, h2⟩ := h12
  rw [hr] at h1 h2
  obtain ⟨st', hu, hrun'⟩ := calls_run h2
  rw [hrun] at hrun'
  cases hrun'
  rw [if_pos h1, hu]
  exact ⟨h1, rfl⟩

theorem run_split {a b : List Event} {st st' : State} (h : run S pol o st (a ++ b) = .ok st') : ∃ st1, run S pol o st a = .ok st1 := by
  induction a generalizing st with
  | nil => exact ⟨st, rfl⟩
  | cons e a ih =>
    simp only [List.cons_append, run] at h ⊢
    cases hp : process S pol o st e with
    | ok s => rw [hp] at h; exact ih h
    | err c => rw [hp] at h; cases h
    | ub => rw [hp] at h; cases h

/-- Exactly what is accepted, and what it gives. -/
theorem parse_exact (S : List Byte → Option (BitVec 64)) (flags : BitVec 32) (hf : dupKey flags ≠ .useFirst) (cfg : Config) (hst : Strict cfg)
    (chunks : List (List Byte)) (v : V) :
    (0 ≤ (parse S flags cfg chunks).1 ∧ (parse S flags cfg chunks).2 = v) ↔
    ∃ (t : T) (evs ce : List Event), t.events = evs ++ ce ∧ (∀ e ∈ ce, Ending e) ∧
      ((Document cfg chunks.flatten evs ∧ ce = []) ∨ (CutOff cfg chunks.flatten evs ∧ ∃ rest w v, chunks.flatten ++ rest = w ++ v ∧ Spec.Json.WS w ∧ Value cfg 0 v t.events)) ∧
      Reads S (dupKey flags) (maintainOrder flags) t v := by
  constructor
  · rintro ⟨h, hv⟩
    obtain ⟨evs, st, hd, hrun, hval⟩ := parse_out S flags cfg hst chunks h
    rcases hd with hd | hd
    · obtain ⟨t, rfl⟩ := document_tree hd
      obtain ⟨v', h1, rfl⟩ := (run_tree t (document_numeric hd) (fun h => absurd h hf) _).1 hrun
      refine ⟨t, t.events, [], by simp, by simp, Or.inl ⟨hd, rfl⟩, ?_⟩
      rw [← hv, hval]
      exact h1
    · obtain ⟨t, rest, ce, h1, h2, w, x, h3, h4, h5⟩ := cutOff_closes hd
      obtain ⟨st', k1, k2⟩ := run_endings (S := S) (pol := dupKey flags) (o := maintainOrder flags) ce st h2
      have hfull : run S (dupKey flags) (maintainOrder flags) {} t.events = .ok st' := by
        rw [h1, run_append_ok _ hrun]; exact k1
      obtain ⟨v', g1, rfl⟩ := (run_tree t (numeric_value t (numbers_value h5)) (fun h => absurd h hf) _).1 hfull
      obtain ⟨g2, _⟩ := k2 rfl
      refine ⟨t, evs, ce, h1, h2, Or.inr ⟨hd, rest, w, x, h3, h4, h5⟩, ?_⟩
      rw [← hv, hval, ← g2]
      exact g1
  · rintro ⟨t, evs, ce, h1, h2, hd, hr⟩
    rcases hd with ⟨hd, hce⟩ | ⟨hd, rest, w, x, h3, h4, h5⟩
    · subst hce
      rw [List.append_nil] at h1
      subst h1
      exact parse_in S flags cfg hst chunks (Or.inl hd) ((run_tree t (document_numeric hd) (fun h => absurd h hf) _).2 ⟨v, hr, rfl⟩)
    · have hfull := (run_tree (S := S) (pol := dupKey flags) (o := maintainOrder flags) t (numeric_value t (numbers_value h5)) (fun h => absurd h hf) { root := v }).2 ⟨v, hr, rfl⟩
      rw [h1] at hfull
      obtain ⟨st, hrun⟩ := run_split hfull
      rw [run_append_ok _ hrun] at hfull
      obtain ⟨st', k1, k2⟩ := run_endings (S := S) (pol := dupKey flags) (o := maintainOrder flags) ce st h2
      rw [k1] at hfull
      cases hfull
      have hval := (k2 rfl).1
      have := parse_in S flags cfg hst chunks (Or.inr hd) hrun
      rw [← hval] at this
      exact this

end WS.Dom
