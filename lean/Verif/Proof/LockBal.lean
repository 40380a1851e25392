import Verif.Spec.LockBal
/-
A checker for lock skeletons, with a proof that its verdicts hold for every run (`outs_sound`) and
that every outcome it lists is the outcome of some run (`outs_complete`).
-/
namespace WS.LockBal

/-- All outcomes at once. -/
abbrev Outs := List (Out × Option Nat)

/-- union without duplicates -/
def union (a b : Outs) : Outs := a.foldr (fun x r => if x ∈ r then r else x :: r) b

instance : Union Outs := ⟨union⟩

theorem mem_union_iff {q : Out × Option Nat} {a b : Outs} : q ∈ a ∪ b ↔ q ∈ a ∨ q ∈ b := by
  show q ∈ union a b ↔ _
  unfold union
  induction a with
  | nil => simp
  | cons x xs ih =>
    simp only [List.foldr_cons]
    split
    · rename_i hx
      rw [ih, List.mem_cons]
      constructor
      · rintro (h | h)
        · exact .inl (.inr h)
        · exact .inr h
      · rintro ((h | h) | h)
        · exact ih.1 (h ▸ hx)
        · exact .inl h
        · exact .inr h
    · rw [List.mem_cons, ih, List.mem_cons, or_assoc]

/-- union of the results of `f` over a list; `none` when one of them is `none` -/
def joinM (f : Out × Option Nat → Option Outs) : Outs → Option Outs
  | [] => some []
  | x :: xs => match f x, joinM f xs with
    | some a, some b => some (a ∪ b)
    | _, _ => none

/-- Possible outcomes of `c` started `e` levels above the caller's (`none`: a level was released
that the caller did not give).  The answer is `none` only when a loop body can change the level. -/
def outs (l : Lk) : Cmd → Option Nat → Option Outs
  | .skip, e => some [(.fall, e)]
  | .acq k a b, e =>
    match outs l a (if k = l then e.map (· + 1) else e), outs l b e with
    | some x, some y => some (x ∪ y)
    | _, _ => none
  | .rel k, e => some [(.fall, if k = l then e.bind (fun d => if d = 0 then none else some (d - 1)) else e)]
  | .ret b, e => some [(.ret b, e)]
  | .seq a b, e =>
    match outs l a e with
    | some x => joinM (fun p => if p.1 = .fall then outs l b p.2 else some [p]) x
    | none => none
  | .alt a b, e =>
    match outs l a e, outs l b e with
    | some x, some y => some (x ∪ y)
    | _, _ => none
  | .loop a, e =>
    match outs l a e with
    | some x => if x.all (fun p => p.1 ≠ .fall || p.2 = e) then some ([(.fall, e)] ∪ x) else none
    | none => none
  | .call f a b, e =>
    match outs l f e with
    | some x => joinM (fun p => if p.1 = .ret false then outs l b p.2 else outs l a p.2) x
    | none => none
  | .callback, e => some [(.fall, e)]

theorem joinM_some {f : Out × Option Nat → Option Outs} :
    ∀ {x y : Outs}, joinM f x = some y → ∀ q, q ∈ y ↔ ∃ p ∈ x, ∃ z, f p = some z ∧ q ∈ z
  | [], y, h, q => by simp [joinM] at h; subst h; simp
  | p :: xs, y, h, q => by
    unfold joinM at h
    cases hp : f p with
    | none => simp [hp] at h
    | some a =>
      cases hx : joinM f xs with
      | none => simp [hp, hx] at h
      | some b =>
        simp [hp, hx] at h; subst h
        have ih := joinM_some hx q
        rw [mem_union_iff, ih]
        constructor
        · rintro (h | ⟨p', h1, z, h2, h3⟩)
          · exact ⟨p, by simp, a, hp, h⟩
          · exact ⟨p', by simp [h1], z, h2, h3⟩
        · rintro ⟨p', h1, z, h2, h3⟩
          rcases List.mem_cons.1 h1 with rfl | h1
          · rw [hp] at h2; cases h2; exact .inl h3
          · exact .inr ⟨p', h1, z, h2, h3⟩

theorem joinM_all {f : Out × Option Nat → Option Outs} :
    ∀ {x y : Outs}, joinM f x = some y → ∀ p ∈ x, ∃ z, f p = some z
  | p :: xs, y, h, p', hp' => by
    unfold joinM at h
    cases hp : f p with
    | none => simp [hp] at h
    | some a =>
      cases hx : joinM f xs with
      | none => simp [hp, hx] at h
      | some b =>
        rcases List.mem_cons.1 hp' with rfl | h1
        · exact ⟨a, hp⟩
        · exact joinM_all hx p' h1

theorem replay_append (l : Lk) : ∀ (t u : List Ev) (n : Nat),
    replay l (t ++ u) n = (replay l t n).bind (replay l u)
  | [], u, n => by simp [replay]
  | .acq k :: t, u, n => by
    simp only [List.cons_append, replay]; split <;> exact replay_append l t u _
  | .rel k :: t, u, n => by
    simp only [List.cons_append, replay]
    split
    · cases n with
      | zero => rfl
      | succ m => exact replay_append l t u m
    · exact replay_append l t u n

/-- levels: an outcome level describes a trace from a start level, whatever the caller holds -/
def Fits (l : Lk) (t : List Ev) (e e' : Option Nat) : Prop :=
  ∀ d', e' = some d' → ∃ d, e = some d ∧ ∀ n, replay l t (n + d) = some (n + d')

theorem Fits.append {l t u e e1 e2} (h : Fits l t e e1) (k : Fits l u e1 e2) : Fits l (t ++ u) e e2 := by
  intro d' hd'
  obtain ⟨d1, h1, k1⟩ := k d' hd'
  obtain ⟨d, h2, k2⟩ := h d1 h1
  refine ⟨d, h2, fun n => ?_⟩
  rw [replay_append, k2 n]; exact k1 n

theorem Fits.nil {l e} : Fits l [] e e := fun d' h => ⟨d', h, fun _ => rfl⟩

/-- Every run has an outcome the checker lists. -/
theorem outs_sound (l : Lk) {c : Cmd} {t : List Ev} {o : Out} (r : Run c t o) :
    ∀ {e : Option Nat} {x : Outs}, outs l c e = some x → ∃ e', (o, e') ∈ x ∧ Fits l t e e' := by
  induction r with
  | skip => intro e x h; simp [outs] at h; subst h; exact ⟨e, by simp, Fits.nil⟩
  | ret => intro e x h; simp [outs] at h; subst h; exact ⟨e, by simp, Fits.nil⟩
  | @granted k a b t o _ ih =>
    intro e x h
    unfold outs at h
    cases ha : outs l a (if k = l then e.map (· + 1) else e) with
    | none => simp [ha] at h
    | some xa =>
      cases hb : outs l b e with
      | none => simp [ha, hb] at h
      | some xb =>
        simp [ha, hb] at h; subst h
        obtain ⟨e', h1, h2⟩ := ih ha
        refine ⟨e', mem_union_iff.2 (.inl h1), ?_⟩
        intro d' hd'
        obtain ⟨d, h3, h4⟩ := h2 d' hd'
        by_cases hk : k = l
        · rw [if_pos hk] at h3
          cases e with
          | none => simp at h3
          | some d0 =>
            simp at h3
            refine ⟨d0, rfl, fun n => ?_⟩
            have := h4 n
            simp only [replay, if_pos hk]
            rw [← h3] at this; exact this
        · rw [if_neg hk] at h3
          exact ⟨d, h3, fun n => by simp only [replay, if_neg hk]; exact h4 n⟩
  | @refused k a b t o _ ih =>
    intro e x h
    unfold outs at h
    cases ha : outs l a (if k = l then e.map (· + 1) else e) with
    | none => simp [ha] at h
    | some xa =>
      cases hb : outs l b e with
      | none => simp [ha, hb] at h
      | some xb =>
        simp [ha, hb] at h; subst h
        obtain ⟨e', h1, h2⟩ := ih hb
        exact ⟨e', mem_union_iff.2 (.inr h1), h2⟩
  | @rel k =>
    intro e x h
    simp only [outs, Option.some.injEq] at h; subst h
    refine ⟨_, List.mem_singleton.2 rfl, ?_⟩
    intro d' hd'
    by_cases hk : k = l
    · rw [if_pos hk] at hd'
      cases e with
      | none => simp at hd'
      | some d =>
        refine ⟨d, rfl, fun n => ?_⟩
        simp at hd'
        obtain ⟨h0, rfl⟩ := hd'
        obtain ⟨m, rfl⟩ : ∃ m, d = m + 1 := ⟨d - 1, by omega⟩
        simp [replay, hk, ← Nat.add_assoc]
    · rw [if_neg hk] at hd'
      exact ⟨d', hd', fun n => by simp [replay, hk]⟩
  | @seqFall a b t u o _ _ ih1 ih2 =>
    intro e x h
    unfold outs at h
    cases ha : outs l a e with
    | none => simp [ha] at h
    | some xa =>
      simp only [ha] at h
      obtain ⟨e1, h1, h2⟩ := ih1 ha
      obtain ⟨z, hz⟩ := joinM_all h _ h1
      rw [if_pos rfl] at hz
      obtain ⟨e2, h3, h4⟩ := ih2 hz
      exact ⟨e2, (joinM_some h _).2 ⟨_, h1, z, by rw [if_pos rfl]; exact hz, h3⟩, h2.append h4⟩
  | @seqRet a b t r _ ih =>
    intro e x h
    unfold outs at h
    cases ha : outs l a e with
    | none => simp [ha] at h
    | some xa =>
      simp only [ha] at h
      obtain ⟨e1, h1, h2⟩ := ih ha
      exact ⟨e1, (joinM_some h _).2 ⟨_, h1, [_], by rw [if_neg (by simp)], by simp⟩, h2⟩
  | @altL a b t o _ ih =>
    intro e x h
    unfold outs at h
    cases ha : outs l a e with
    | none => simp [ha] at h
    | some xa =>
      cases hb : outs l b e with
      | none => simp [ha, hb] at h
      | some xb =>
        simp [ha, hb] at h; subst h
        obtain ⟨e', h1, h2⟩ := ih ha
        exact ⟨e', mem_union_iff.2 (.inl h1), h2⟩
  | @altR a b t o _ ih =>
    intro e x h
    unfold outs at h
    cases ha : outs l a e with
    | none => simp [ha] at h
    | some xa =>
      cases hb : outs l b e with
      | none => simp [ha, hb] at h
      | some xb =>
        simp [ha, hb] at h; subst h
        obtain ⟨e', h1, h2⟩ := ih hb
        exact ⟨e', mem_union_iff.2 (.inr h1), h2⟩
  | @loopDone a =>
    intro e x h
    unfold outs at h
    cases ha : outs l a e with
    | none => simp [ha] at h
    | some xa =>
      simp only [ha] at h
      split at h
      · cases h; exact ⟨e, mem_union_iff.2 (.inl (by simp)), Fits.nil⟩
      · simp at h
  | @loopMore a t u o _ _ ih1 ih2 =>
    intro e x h
    have h' := h
    unfold outs at h
    cases ha : outs l a e with
    | none => simp [ha] at h
    | some xa =>
      simp only [ha] at h
      split at h
      · rename_i hall
        obtain ⟨e1, h1, h2⟩ := ih1 ha
        have he : e1 = e := by
          have := List.all_eq_true.1 hall _ h1
          simpa using this
        subst he
        obtain ⟨e2, h3, h4⟩ := ih2 h'
        exact ⟨e2, h3, h2.append h4⟩
      · simp at h
  | @loopRet a t r _ ih =>
    intro e x h
    unfold outs at h
    cases ha : outs l a e with
    | none => simp [ha] at h
    | some xa =>
      simp only [ha] at h
      split at h
      · cases h
        obtain ⟨e1, h1, h2⟩ := ih ha
        exact ⟨e1, mem_union_iff.2 (.inr h1), h2⟩
      · simp at h
  | @callOk f a b t u o q _ hq _ ih1 ih2 =>
    intro e x h
    unfold outs at h
    cases ha : outs l f e with
    | none => simp [ha] at h
    | some xa =>
      simp only [ha] at h
      obtain ⟨e1, h1, h2⟩ := ih1 ha
      obtain ⟨z, hz⟩ := joinM_all h _ h1
      rw [if_neg hq] at hz
      obtain ⟨e2, h3, h4⟩ := ih2 hz
      exact ⟨e2, (joinM_some h _).2 ⟨_, h1, z, by rw [if_neg hq]; exact hz, h3⟩, h2.append h4⟩
  | @callErr f a b t u o _ _ ih1 ih2 =>
    intro e x h
    unfold outs at h
    cases ha : outs l f e with
    | none => simp [ha] at h
    | some xa =>
      simp only [ha] at h
      obtain ⟨e1, h1, h2⟩ := ih1 ha
      obtain ⟨z, hz⟩ := joinM_all h _ h1
      rw [if_pos rfl] at hz
      obtain ⟨e2, h3, h4⟩ := ih2 hz
      exact ⟨e2, (joinM_some h _).2 ⟨_, h1, z, by rw [if_pos rfl]; exact hz, h3⟩, h2.append h4⟩
  | @callback t hc =>
    intro e x h
    simp [outs] at h; subst h
    exact ⟨e, by simp, fun d' h => ⟨d', h, fun n => hc l _⟩⟩

/-- Every listed outcome is reached by a run. -/
theorem outs_complete (l : Lk) : ∀ {c : Cmd} {e : Option Nat} {x : Outs}, outs l c e = some x →
    ∀ {o e'}, (o, e') ∈ x → ∃ t, Run c t o ∧ e.bind (replay l t) = e'
  | .skip, e, x, h, o, e', hm => by
    simp [outs] at h; subst h; simp at hm; obtain ⟨rfl, rfl⟩ := hm
    exact ⟨[], .skip, by cases e' <;> rfl⟩
  | .ret b, e, x, h, o, e', hm => by
    simp [outs] at h; subst h; simp at hm; obtain ⟨rfl, rfl⟩ := hm
    exact ⟨[], .ret, by cases e' <;> rfl⟩
  | .callback, e, x, h, o, e', hm => by
    simp [outs] at h; subst h; simp at hm; obtain ⟨rfl, rfl⟩ := hm
    exact ⟨[], .callback (fun _ _ => rfl), by cases e' <;> rfl⟩
  | .rel k, e, x, h, o, e', hm => by
    simp only [outs, Option.some.injEq] at h; subst h
    simp only [List.mem_singleton, Prod.mk.injEq] at hm
    obtain ⟨rfl, rfl⟩ := hm
    refine ⟨[.rel k], .rel, ?_⟩
    cases e with
    | none => split <;> rfl
    | some d =>
      by_cases hk : k = l
      · cases d <;> simp [replay, hk]
      · simp [replay, hk]
  | .acq k a b, e, x, h, o, e', hm => by
    unfold outs at h
    cases ha : outs l a (if k = l then e.map (· + 1) else e) with
    | none => simp [ha] at h
    | some xa =>
      cases hb : outs l b e with
      | none => simp [ha, hb] at h
      | some xb =>
        simp [ha, hb] at h; subst h
        rcases mem_union_iff.1 hm with hm | hm
        · obtain ⟨t, h1, h2⟩ := outs_complete l ha hm
          refine ⟨.acq k :: t, .granted h1, ?_⟩
          rw [← h2]
          cases e with
          | none => split <;> rfl
          | some d => by_cases hk : k = l <;> simp [replay, hk]
        · obtain ⟨t, h1, h2⟩ := outs_complete l hb hm
          exact ⟨t, .refused h1, h2⟩
  | .alt a b, e, x, h, o, e', hm => by
    unfold outs at h
    cases ha : outs l a e with
    | none => simp [ha] at h
    | some xa =>
      cases hb : outs l b e with
      | none => simp [ha, hb] at h
      | some xb =>
        simp [ha, hb] at h; subst h
        rcases mem_union_iff.1 hm with hm | hm
        · obtain ⟨t, h1, h2⟩ := outs_complete l ha hm
          exact ⟨t, .altL h1, h2⟩
        · obtain ⟨t, h1, h2⟩ := outs_complete l hb hm
          exact ⟨t, .altR h1, h2⟩
  | .loop a, e, x, h, o, e', hm => by
    unfold outs at h
    cases ha : outs l a e with
    | none => simp [ha] at h
    | some xa =>
      simp only [ha] at h
      split at h
      · cases h
        rcases mem_union_iff.1 hm with hm | hm
        · simp at hm; obtain ⟨rfl, rfl⟩ := hm
          exact ⟨[], .loopDone, by cases e' <;> rfl⟩
        · obtain ⟨t, h1, h2⟩ := outs_complete l ha hm
          cases o with
          | fall => exact ⟨t, by simpa using Run.loopMore h1 .loopDone, h2⟩
          | ret r => exact ⟨t, .loopRet h1, h2⟩
      · simp at h
  | .seq a b, e, x, h, o, e', hm => by
    unfold outs at h
    cases ha : outs l a e with
    | none => simp [ha] at h
    | some xa =>
      simp only [ha] at h
      obtain ⟨⟨o1, e1⟩, h1, z, hz, hq⟩ := (joinM_some h _).1 hm
      obtain ⟨t, r1, k1⟩ := outs_complete l ha h1
      by_cases hf : o1 = .fall
      · subst hf
        rw [if_pos rfl] at hz
        obtain ⟨u, r2, k2⟩ := outs_complete l hz hq
        refine ⟨t ++ u, .seqFall r1 r2, ?_⟩
        rw [← k2, ← k1]
        cases e with
        | none => rfl
        | some d => simp [replay_append]
      · rw [if_neg hf] at hz
        simp at hz; subst hz
        simp at hq; obtain ⟨rfl, rfl⟩ := hq
        cases o with
        | fall => exact absurd rfl hf
        | ret r => exact ⟨t, .seqRet r1, k1⟩
  | .call f a b, e, x, h, o, e', hm => by
    unfold outs at h
    cases ha : outs l f e with
    | none => simp [ha] at h
    | some xa =>
      simp only [ha] at h
      obtain ⟨⟨o1, e1⟩, h1, z, hz, hq⟩ := (joinM_some h _).1 hm
      obtain ⟨t, r1, k1⟩ := outs_complete l ha h1
      by_cases hf : o1 = .ret false
      · subst hf
        rw [if_pos rfl] at hz
        obtain ⟨u, r2, k2⟩ := outs_complete l hz hq
        refine ⟨t ++ u, .callErr r1 r2, ?_⟩
        rw [← k2, ← k1]
        cases e with
        | none => rfl
        | some d => simp [replay_append]
      · rw [if_neg hf] at hz
        obtain ⟨u, r2, k2⟩ := outs_complete l hz hq
        refine ⟨t ++ u, .callOk r1 hf r2, ?_⟩
        rw [← k2, ← k1]
        cases e with
        | none => rfl
        | some d => simp [replay_append]

/-- Decidable test behind `neutral`. -/
def chkNeutral (l : Lk) (c : Cmd) : Bool :=
  match outs l c (some 0) with
  | some x => x.all (fun p => p.2 = some 0)
  | none => false

/-- Decidable test behind `adds`. -/
def chkAdds (l : Lk) (c : Cmd) (k : Nat) : Bool :=
  match outs l c (some 0) with
  | some x => x.all (fun p => p.1 = .ret false || p.2 = some k)
  | none => false

/-- Decidable test behind `canLeak`. -/
def chkLeak (l : Lk) (c : Cmd) : Bool :=
  match outs l c (some 0) with
  | some x => x.any (fun p => p.1 = .ret false && (match p.2 with | some (_ + 1) => true | _ => false))
  | none => false

/-- Decidable test behind `canOverRelease`. -/
def chkOver (l : Lk) (c : Cmd) : Bool :=
  match outs l c (some 0) with
  | some x => x.any (fun p => p.1 = .ret false && p.2 = none)
  | none => false

theorem chkNeutral_sound {l c} (h : chkNeutral l c = true) : neutral l c := by
  intro tr o r n
  unfold chkNeutral at h
  cases hx : outs l c (some 0) with
  | none => simp [hx] at h
  | some x =>
    simp only [hx] at h
    obtain ⟨e', h1, h2⟩ := outs_sound l r hx
    have := List.all_eq_true.1 h _ h1
    simp at this
    obtain ⟨d, h3, h4⟩ := h2 0 this
    simp at h3; subst h3
    exact h4 n

theorem chkAdds_sound {l c k} (h : chkAdds l c k = true) : adds l c k := by
  intro tr o r ho n
  unfold chkAdds at h
  cases hx : outs l c (some 0) with
  | none => simp [hx] at h
  | some x =>
    simp only [hx] at h
    obtain ⟨e', h1, h2⟩ := outs_sound l r hx
    have := List.all_eq_true.1 h _ h1
    simp [ho] at this
    obtain ⟨d, h3, h4⟩ := h2 k this
    simp at h3; subst h3
    exact h4 n

theorem replay_mono (l : Lk) : ∀ (t : List Ev) (n m k : Nat), replay l t n = some m →
    replay l t (n + k) = some (m + k)
  | [], n, m, k, h => by simp [replay] at h ⊢; omega
  | .acq j :: t, n, m, k, h => by
    simp only [replay] at h ⊢
    split
    · rename_i hj; rw [if_pos hj] at h
      have := replay_mono l t _ m k h
      rw [show n + k + 1 = n + 1 + k by omega]; exact this
    · rename_i hj; rw [if_neg hj] at h; exact replay_mono l t _ m k h
  | .rel j :: t, n, m, k, h => by
    simp only [replay] at h ⊢
    split
    · rename_i hj; rw [if_pos hj] at h
      cases n with
      | zero => simp at h
      | succ n =>
        have := replay_mono l t _ m k h
        rw [show n + 1 + k = n + k + 1 by omega]; exact this
    · rename_i hj; rw [if_neg hj] at h; exact replay_mono l t _ m k h

theorem chkLeak_sound {l c} (h : chkLeak l c = true) : canLeak l c := by
  unfold chkLeak at h
  cases hx : outs l c (some 0) with
  | none => simp [hx] at h
  | some x =>
    simp only [hx] at h
    obtain ⟨⟨o, e'⟩, h1, h2⟩ := List.any_eq_true.1 h
    cases e' with
    | none => simp at h2
    | some d =>
      cases d with
      | zero => simp at h2
      | succ d =>
        simp at h2; subst h2
        obtain ⟨t, r, k⟩ := outs_complete l hx h1
        refine ⟨t, r, fun n => ⟨d + 1, by omega, ?_⟩⟩
        have := replay_mono l t 0 (d + 1) n (by simpa using k)
        rw [Nat.zero_add] at this
        rw [this, Nat.add_comm]

theorem chkOver_sound {l c} (h : chkOver l c = true) : canOverRelease l c := by
  unfold chkOver at h
  cases hx : outs l c (some 0) with
  | none => simp [hx] at h
  | some x =>
    simp only [hx] at h
    obtain ⟨⟨o, e'⟩, h1, h2⟩ := List.any_eq_true.1 h
    simp at h2; obtain ⟨rfl, rfl⟩ := h2
    obtain ⟨t, r, k⟩ := outs_complete l hx h1
    exact ⟨t, r, by simpa using k⟩

theorem session_neutral {l : Lk} {fs : List Cmd} (hfs : ∀ f ∈ fs, neutral l f) {tr : List Ev}
    (s : Session fs tr) : ∀ n, replay l tr n = some n := by
  induction s with
  | nil => intro n; rfl
  | call hf r _ ih => intro n; rw [replay_append, hfs _ hf _ _ r n]; exact ih n

end WS.LockBal
