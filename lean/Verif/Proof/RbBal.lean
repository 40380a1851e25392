import Verif.Proof.RbDict
namespace WS.Rb
variable {β : Type}

/-- The innermost step is a red node. -/
def headRed : List (Step β) → Bool
  | [] => false
  | s :: _ => s.color == .red

/-- A path of a red-black tree of black height `N` whose hole takes a subtree of black height `m`. -/
inductive PathBal : List (Step β) → Nat → Nat → Prop
  | nil {N} : PathBal [] N N
  | black {s p m N} : s.color = .black → Balanced s.sib m → PathBal p (m + 1) N → PathBal (s :: p) m N
  | red {s p m N} : s.color = .red → Balanced s.sib m → isRed s.sib = false → PathBal p m N → headRed p = false → p ≠ [] →
      PathBal (s :: p) m N

theorem PathBal.le {p : List (Step β)} {m N : Nat} (h : PathBal p m N) : m ≤ N := by
  induction h with
  | nil => exact Nat.le_refl _
  | black _ _ _ ih => omega
  | red _ _ _ _ _ _ ih => exact ih

/-- Length bounds: a hole, and a hole that may take a red node. -/
theorem PathBal.len {p : List (Step β)} {m N : Nat} (h : PathBal p m N) :
    p.length ≤ 2 * (N - m) ∧ (headRed p = false → p ≠ [] → p.length + 1 ≤ 2 * (N - m)) := by
  induction h with
  | nil => exact ⟨by simp, fun _ h => absurd rfl h⟩
  | @black s p m N hc _ hp ih =>
    have hle := hp.le
    obtain ⟨h1, h2⟩ := ih
    refine ⟨?_, fun _ _ => ?_⟩ <;> simp only [List.length_cons] <;> omega
  | @red s p m N hc _ _ hp hh hne ih =>
    obtain ⟨h1, h2⟩ := ih
    have := h2 hh hne
    refine ⟨by simp only [List.length_cons]; omega, fun h => ?_⟩
    simp [headRed, hc] at h

theorem Balanced.setBlack {t : Tree β} {n : Nat} (h : Balanced t n) (hr : isRed t = true) : Balanced (setColor .black t) (n + 1) := by
  cases h with
  | nil => cases hr
  | red hl hr' _ _ => exact .black hl hr'
  | black hl hr' => cases hr

theorem Balanced.nil_of {t : Tree β} (h : Balanced t 0) (hr : isRed t = false) : t = .nil := by
  cases h with
  | nil => rfl
  | red => cases hr

theorem Balanced.ne_nil {t : Tree β} {n : Nat} (h : Balanced t (n + 1)) : t ≠ .nil := by
  intro hc
  subst hc
  cases h

theorem zip_balanced {p : List (Step β)} {m N : Nat} (h : PathBal p m N) : ∀ {t : Tree β}, Balanced t m →
    (isRed t = true → headRed p = false) → Balanced (zip p t) N ∧ (isRed (zip p t) = true → p = [] ∧ isRed t = true) := by
  induction h with
  | nil => intro t ht _; exact ⟨ht, fun h => ⟨rfl, h⟩⟩
  | @black s p m N hc hb hp ih =>
    intro t ht _
    have hpl : Balanced (plug s t) (m + 1) := by
      unfold plug
      rw [hc]
      split
      · exact .black ht hb
      · exact .black hb ht
    have hnr : isRed (plug s t) = false := by unfold plug; rw [hc]; split <;> rfl
    obtain ⟨h1, h2⟩ := ih hpl (fun h => by rw [hnr] at h; cases h)
    exact ⟨h1, fun h => by rw [(h2 h).2] at hnr; cases hnr⟩
  | @red s p m N hc hb hbr hp hh hne ih =>
    intro t ht hcol
    have htb : isRed t = false := by
      cases h : isRed t with
      | false => rfl
      | true => have := hcol h; simp [headRed, hc] at this
    have hpl : Balanced (plug s t) m := by
      unfold plug
      rw [hc]
      split
      · exact .red ht hb htb hbr
      · exact .red hb ht hbr htb
    obtain ⟨h1, h2⟩ := ih hpl (fun _ => hh)
    exact ⟨h1, fun h => absurd (h2 h).1 hne⟩

theorem fixBlackUncle_bal {g s : Step β} {l r : Tree β} {k : Key} {v : β} {m : Nat} (hs : s.color = .red) (hg : g.color = .black)
    (hsb : Balanced s.sib m) (hsr : isRed s.sib = false) (hgb : Balanced g.sib m) (hgr : isRed g.sib = false)
    (hl : Balanced l m) (hr : Balanced r m) (hlr : isRed l = false) (hrr : isRed r = false) :
    ∃ u, fixBlackUncle g s (.node .red l k v r) = some u ∧ Balanced u (m + 1) ∧ isRed u = false := by
  unfold fixBlackUncle plug
  rw [hs]
  cases g.left <;> cases s.left <;> simp only [Bool.and_self, Bool.not_true, Bool.not_false, Bool.and_true, Bool.and_false,
    Bool.true_and, Bool.false_and, if_true, if_false, Bool.false_eq_true, rotateLeft, rotateRight, setColor, Option.some.injEq,
    exists_eq_left']
  · exact ⟨.black (.red hgb hsb hgr hsr) (.red hl hr hlr hrr), rfl⟩
  · exact ⟨.black (.red hgb hl hgr hlr) (.red hr hsb hrr hsr), rfl⟩
  · exact ⟨.black (.red hsb hl hsr hlr) (.red hr hgb hrr hgr), rfl⟩
  · exact ⟨.black (.red hl hr hlr hrr) (.red hsb hgb hsr hgr), rfl⟩

theorem fixInsert_bal : ∀ (p : List (Step β)) {m N : Nat} {l r : Tree β} {k : Key} {v : β}, PathBal p m N → Balanced l m → Balanced r m →
    isRed l = false → isRed r = false → ∃ u, fixInsert p (.node .red l k v r) = some u ∧ RedBlack u
  | [], m, N, l, r, k, v, _, hl, hr, _, _ => ⟨_, rfl, ⟨_, .black hl hr⟩, rfl⟩
  | [s], m, N, l, r, k, v, hp, hl, hr, hlr, hrr => by
    rw [fixInsert]
    have hsb : s.color = .black := by cases hp with
      | black h => exact h
      | red _ _ _ _ _ h => exact absurd rfl h
    rw [if_pos hsb]
    obtain ⟨h1, h2⟩ := zip_balanced hp (.red (k := k) (v := v) hl hr hlr hrr) (fun _ => by simp [headRed, hsb])
    exact ⟨_, rfl, ⟨_, h1⟩, Bool.eq_false_iff.2 (fun hc => by have := (h2 hc).1; cases this)⟩
  | s :: g :: p, m, N, l, r, k, v, hp, hl, hr, hlr, hrr => by
    rw [fixInsert]
    by_cases hsb : s.color = .black
    · rw [if_pos hsb]
      obtain ⟨h1, h2⟩ := zip_balanced hp (.red (k := k) (v := v) hl hr hlr hrr) (fun _ => by simp [headRed, hsb])
      exact ⟨_, rfl, ⟨_, h1⟩, Bool.eq_false_iff.2 (fun hc => by have := (h2 hc).1; cases this)⟩
    · rw [if_neg hsb]
      cases hp with
      | black h => exact absurd h hsb
      | red hs hbs hrs hp' hh _ =>
        cases hp' with
        | red hc => simp [headRed, hc] at hh
        | black hg hbg hp'' =>
          by_cases hu : isRed g.sib = true
          · rw [if_pos hu]
            have hu' := hbg.setBlack hu
            have hpl : Balanced (plug { s with color := .black } (.node .red l k v r)) (m + 1) := by
              unfold plug
              dsimp only
              split
              · exact .black (.red hl hr hlr hrr) hbs
              · exact .black hbs (.red hl hr hlr hrr)
            have hnr : isRed (plug { s with color := .black } (.node .red l k v r)) = false := by
              unfold plug; dsimp only; split <;> rfl
            have hub : isRed (setColor .black g.sib) = false := by cases g.sib <;> rfl
            cases hgl : g.left with
            | true =>
              have := fixInsert_bal p (k := g.key) (v := g.val) hp'' hpl hu' hnr hub
              simpa [plug, hgl] using this
            | false =>
              have := fixInsert_bal p (k := g.key) (v := g.val) hp'' hu' hpl hub hnr
              simpa [plug, hgl] using this
          · rw [if_neg hu]
            obtain ⟨u, h1, h2, h3⟩ := fixBlackUncle_bal (k := k) (v := v) hs hg hbs hrs hbg (by simpa using hu) hl hr hlr hrr
            obtain ⟨h4, h5⟩ := zip_balanced hp'' h2 (fun h => by rw [h3] at h; cases h)
            refine ⟨_, by rw [h1]; rfl, ⟨_, h4⟩, Bool.eq_false_iff.2 (fun hc => ?_)⟩
            rw [(h5 hc).2] at h3
            cases h3

theorem redBlack_zip {p : List (Step β)} {m N : Nat} {t : Tree β} (h : PathBal p m N) (ht : Balanced t m) (hr : isRed t = false) :
    RedBlack (zip p t) := by
  obtain ⟨h4, h5⟩ := zip_balanced h ht (fun h => by rw [hr] at h; cases h)
  exact ⟨⟨_, h4⟩, Bool.eq_false_iff.2 (fun hc => by rw [(h5 hc).2] at hr; cases hr)⟩

theorem fixRedNephew_bal {s : Step β} {t sl sr : Tree β} {sk : Key} {sv : β} {m : Nat} (ht : Balanced t m) (htr : isRed t = false)
    (hsl : Balanced sl m) (hsr : Balanced sr m) (hred : (isRed sl || isRed sr) = true) :
    ∃ u, fixRedNephew s t sl sk sv sr = some u ∧
      (s.color = .black → Balanced u (m + 2) ∧ isRed u = false) ∧ (s.color = .red → Balanced u (m + 1)) := by
  have fin : ∀ (a b : Tree β) (k : Key) (v : β), Balanced a (m + 1) → Balanced b (m + 1) → isRed a = false → isRed b = false →
      (s.color = .black → Balanced (.node s.color a k v b) (m + 2) ∧ isRed (.node s.color a k v b) = false) ∧
      (s.color = .red → Balanced (.node s.color a k v b) (m + 1)) := by
    intro a b k v ha hb har hbr
    refine ⟨fun h => ?_, fun h => ?_⟩
    · rw [h]; exact ⟨.black ha hb, rfl⟩
    · rw [h]; exact .red ha hb har hbr
  have sb : ∀ x : Tree β, isRed (setColor .black x) = false := fun x => by cases x <;> rfl
  unfold fixRedNephew
  cases hl : s.left with
  | true =>
    simp only [Bool.true_and, Bool.not_true, Bool.false_and, if_true]
    cases h2 : isRed sr with
    | true =>
      simp only [Bool.not_true, Bool.false_eq_true, if_false]
      have hn : sr.isNil = false := by cases sr with
        | nil => cases h2
        | node => rfl
      rw [if_neg (by rw [hn]; decide)]
      refine ⟨_, rfl, ?_⟩
      exact fin _ _ _ _ (.black ht hsl) (hsr.setBlack h2) rfl (sb _)
    | false =>
      rw [h2, Bool.or_false] at hred
      simp only [Bool.not_false, if_true]
      cases hsl with
      | nil => cases hred
      | black => cases hred
      | red ha hb har hbr =>
        refine ⟨_, rfl, ?_⟩
        exact fin _ _ _ _ (.black ht ha) (.black hb hsr) rfl rfl
  | false =>
    simp only [Bool.false_and, Bool.not_false, Bool.true_and, Bool.false_eq_true, if_false]
    cases h2 : isRed sl with
    | true =>
      simp only [Bool.not_true, Bool.false_eq_true, if_false]
      have hn : sl.isNil = false := by cases sl with
        | nil => cases h2
        | node => rfl
      rw [if_neg (by rw [hn]; decide)]
      refine ⟨_, rfl, ?_⟩
      exact fin _ _ _ _ (hsl.setBlack h2) (.black hsr ht) (sb _) rfl
    | false =>
      rw [h2, Bool.false_or] at hred
      simp only [Bool.not_false, if_true]
      cases hsr with
      | nil => cases hred
      | black => cases hred
      | red ha hb har hbr =>
        refine ⟨_, rfl, ?_⟩
        exact fin _ _ _ _ (.black hsl ha) (.black hb ht) rfl rfl

theorem fixRemove_bal (cap : Nat) : ∀ (n : Nat) (p : List (Step β)) (t : Tree β) {m N : Nat}, 2 * sibSizes p + p.length ≤ n →
    PathBal p (m + 1) N → Balanced t m → 2 * N ≤ cap → ∃ u, fixRemove cap p t = some u ∧ RedBlack u := by
  intro n
  induction n with
  | zero =>
    intro p t m N hn hp ht _
    cases p with
    | cons => simp at hn
    | nil =>
      rw [fixRemove]
      by_cases hr : isRed t = true
      · rw [if_pos hr]
        exact ⟨_, rfl, ⟨_, ht.setBlack hr⟩, by cases t <;> rfl⟩
      · rw [if_neg hr]
        exact ⟨_, rfl, ⟨_, ht⟩, by simpa using hr⟩
  | succ n ih =>
    intro p t m N hn hp ht hcap
    cases p with
    | nil =>
      rw [fixRemove]
      by_cases hr : isRed t = true
      · rw [if_pos hr]
        exact ⟨_, rfl, ⟨_, ht.setBlack hr⟩, by cases t <;> rfl⟩
      · rw [if_neg hr]
        exact ⟨_, rfl, ⟨_, ht⟩, by simpa using hr⟩
    | cons s p' =>
      rw [fixRemove]
      by_cases hr : isRed t = true
      · rw [if_pos hr]
        exact ⟨_, rfl, redBlack_zip hp (ht.setBlack hr) (by cases t <;> rfl)⟩
      · rw [if_neg hr]
        have htr : isRed t = false := by simpa using hr
        have hsib : Balanced s.sib (m + 1) := by cases hp <;> assumption
        obtain ⟨left, color, key, val, sib⟩ := s
        dsimp only at hsib ⊢
        cases hsib with
        | red hsl hsr hslr hsrr =>
          rename_i sl sk sv sr
          dsimp only
          rw [if_pos rfl]
          cases hp with
          | red _ _ h => cases h
          | black hc _ hp' =>
            have hlen := hp'.len.1
            have hle := hp'.le
            rw [if_neg (by omega)]
            simp only [sibSizes, size, List.length_cons] at hn
            cases left with
            | true =>
              rw [if_pos rfl]
              exact ih _ t (by simp only [sibSizes, List.length_cons]; omega)
                (.red rfl hsl hslr (.black rfl hsr hp') rfl (by simp)) ht hcap
            | false =>
              rw [if_neg (by decide)]
              exact ih _ t (by simp only [sibSizes, List.length_cons]; omega)
                (.red rfl hsr hsrr (.black rfl hsl hp') rfl (by simp)) ht hcap
        | black hsl hsr =>
          rename_i sl sk sv sr
          dsimp only
          rw [if_neg (by decide)]
          by_cases hn2 : (isRed sl || isRed sr) = true
          · rw [if_pos hn2]
            obtain ⟨u, h1, h2, h3⟩ := fixRedNephew_bal (s := ⟨left, color, key, val, .node .black sl sk sv sr⟩) (sk := sk) (sv := sv) ht htr hsl hsr hn2
            rw [h1]
            cases hp with
            | black hc _ hp' => exact ⟨_, rfl, redBlack_zip hp' (h2 hc).1 (h2 hc).2⟩
            | red hc _ _ hp' hh hne =>
              obtain ⟨h4, h5⟩ := zip_balanced hp' (h3 hc) (fun _ => hh)
              exact ⟨_, rfl, ⟨_, h4⟩, Bool.eq_false_iff.2 (fun hcc => hne (h5 hcc).1)⟩
          · rw [if_neg hn2]
            simp only [Bool.or_eq_true, not_or, Bool.not_eq_true] at hn2
            have hsr' : Balanced (.node .red sl sk sv sr) m := .red hsl hsr hn2.1 hn2.2
            cases hp with
            | red hc _ _ hp' hh hne =>
              dsimp only at hc
              rw [if_pos hc]
              refine ⟨_, rfl, redBlack_zip hp' ?_ ?_⟩
              · unfold plug; dsimp only; split
                · exact .black ht hsr'
                · exact .black hsr' ht
              · unfold plug; dsimp only; split <;> rfl
            | black hc _ hp' =>
              dsimp only at hc
              rw [if_neg (by rw [hc]; decide)]
              simp only [sibSizes, List.length_cons] at hn
              refine ih p' _ (by omega) hp' ?_ hcap
              unfold plug; dsimp only; rw [hc]; split
              · exact .black ht hsr'
              · exact .black hsr' ht

/-! ### descending -/

/-- The two children of a node in a hole. -/
theorem pathBal_step {p : List (Step β)} {c : Color} {l r : Tree β} {k : Key} {v : β} {m N : Nat} (hp : PathBal p m N)
    (ht : Balanced (.node c l k v r) m) (hcol : c = .red → headRed p = false ∧ p ≠ []) :
    ∃ m', Balanced l m' ∧ Balanced r m' ∧ PathBal (⟨true, c, k, v, r⟩ :: p) m' N ∧ PathBal (⟨false, c, k, v, l⟩ :: p) m' N ∧
      (isRed l = true → c = .black) ∧ (isRed r = true → c = .black) ∧ (c = .black → m = m' + 1) ∧ (c = .red → m = m') := by
  cases ht with
  | red hl hr hlr hrr =>
    obtain ⟨h1, h2⟩ := hcol rfl
    exact ⟨m, hl, hr, .red rfl hr hrr hp h1 h2, .red rfl hl hlr hp h1 h2, (fun h => absurd h (by simp [hlr])),
      (fun h => absurd h (by simp [hrr])), (fun h => by cases h), fun _ => rfl⟩
  | black hl hr => exact ⟨_, hl, hr, .black rfl hr hp, .black rfl hl hp, fun _ => rfl, fun _ => rfl, fun _ => rfl, fun h => by cases h⟩

theorem node_len {p : List (Step β)} {c : Color} {l r : Tree β} {k : Key} {v : β} {m N : Nat} (hp : PathBal p m N)
    (ht : Balanced (.node c l k v r) m) (hcol : c = .red → headRed p = false ∧ p ≠ []) : p.length + 1 ≤ 2 * N := by
  obtain ⟨h1, h2⟩ := hp.len
  have hle := hp.le
  cases ht with
  | red hl hr hlr hrr =>
    obtain ⟨h3, h4⟩ := hcol rfl
    have := h2 h3 h4
    omega
  | black hl hr => omega

theorem isRed_node (c : Color) (l r : Tree β) (k : Key) (v : β) : isRed (.node c l k v r) = true ↔ c = .red := by
  cases c <;> simp [isRed]

theorem descend_spec (cmp : Key → Key → Ordering) (cap : Nat) (k : Key) : ∀ (t : Tree β) (p : List (Step β)) {m N : Nat}, PathBal p m N →
    Balanced t m → (isRed t = true → headRed p = false ∧ p ≠ []) → 2 * N ≤ cap →
    ∃ p' t' m', descend cmp cap k p t = some (p', t') ∧ PathBal p' m' N ∧ Balanced t' m' ∧
      (isRed t' = true → headRed p' = false ∧ p' ≠ []) ∧ zip p' t' = zip p t := by
  intro t
  induction t with
  | nil => intro p m N hp ht hcol hcap; exact ⟨p, .nil, m, rfl, hp, ht, hcol, rfl⟩
  | node c l k' v r ihl ihr =>
    intro p m N hp ht hcol hcap
    have hcol' : c = .red → headRed p = false ∧ p ≠ [] := fun h => hcol ((isRed_node ..).2 h)
    have hlen := node_len hp ht hcol'
    obtain ⟨m', hl, hr, hpl, hpr, hlr, hrr, _, _⟩ := pathBal_step hp ht hcol'
    rw [descend, if_neg (by omega)]
    cases cmp k k' with
    | lt =>
      obtain ⟨p', t', m2, h1, h2, h3, h4, h5⟩ := ihl _ hpl hl (fun h => ⟨by simp [headRed, hlr h], by simp⟩) hcap
      exact ⟨p', t', m2, h1, h2, h3, h4, by rw [h5]; rfl⟩
    | gt =>
      obtain ⟨p', t', m2, h1, h2, h3, h4, h5⟩ := ihr _ hpr hr (fun h => ⟨by simp [headRed, hrr h], by simp⟩) hcap
      exact ⟨p', t', m2, h1, h2, h3, h4, by rw [h5]; rfl⟩
    | eq => exact ⟨p, _, m, rfl, hp, ht, hcol, rfl⟩

theorem leftmost_spec (cap : Nat) (p : List (Step β)) : ∀ (t : Tree β) (q : List (Step β)) {m N : Nat}, t ≠ .nil → PathBal (q ++ p) m N →
    Balanced t m → (isRed t = true → headRed (q ++ p) = false ∧ (q ++ p) ≠ []) → 2 * N ≤ cap →
    ∃ q' c k v r m', leftmost cap p.length q t = some (q', .node c .nil k v r) ∧ PathBal (q' ++ p) m' N ∧ Balanced (.node c .nil k v r) m' ∧
      (c = .red → headRed (q' ++ p) = false ∧ (q' ++ p) ≠ []) := by
  intro t
  induction t with
  | nil => intro q m N h; exact absurd rfl h
  | node c l k v r ihl _ =>
    intro q m N _ hp ht hcol hcap
    have hcol' : c = .red → headRed (q ++ p) = false ∧ q ++ p ≠ [] := fun h => hcol ((isRed_node ..).2 h)
    have hlen := node_len hp ht hcol'
    rw [List.length_append] at hlen
    rw [leftmost, if_neg (by omega)]
    cases hl : l with
    | nil =>
      subst hl
      exact ⟨q, c, k, v, r, m, rfl, hp, ht, hcol'⟩
    | node c2 l2 k2 v2 r2 =>
      rw [← hl]
      obtain ⟨m', hbl, hbr, hpl, hpr, hlr, _⟩ := pathBal_step hp ht hcol'
      have hne : l ≠ .nil := by rw [hl]; intro h; cases h
      rw [if_neg (by rw [hl]; exact Bool.false_ne_true)]
      exact ihl (⟨true, c, k, v, r⟩ :: q) hne hpl hbl (fun h => ⟨by simp [headRed, hlr h], by simp⟩) hcap

/-- Replacing key and value of a step does not change balance. -/
theorem pathBal_rekey (q : List (Step β)) : ∀ {a b : Step β} {p : List (Step β)} {m N : Nat}, a.color = b.color → a.sib = b.sib →
    PathBal (q ++ a :: p) m N → PathBal (q ++ b :: p) m N := by
  induction q with
  | nil =>
    intro a b p m N hc hs h
    cases h with
    | black h1 h2 h3 => exact .black (hc ▸ h1) (hs ▸ h2) h3
    | red h1 h2 h3 h4 h5 h6 => exact .red (hc ▸ h1) (hs ▸ h2) (hs ▸ h3) h4 h5 h6
  | cons s q ih =>
    intro a b p m N hc hs h
    cases h with
    | black h1 h2 h3 => exact .black h1 h2 (ih hc hs h3)
    | red h1 h2 h3 h4 h5 h6 =>
      refine .red h1 h2 h3 (ih hc hs h4) ?_ (by simp)
      cases q with
      | nil => simpa [headRed, hc] using h5
      | cons => simpa [headRed] using h5

theorem disconnect_spec (cap : Nat) {p : List (Step β)} {c : Color} {l r : Tree β} {k : Key} {v : β} {m N : Nat} (hp : PathBal p m N)
    (ht : Balanced (.node c l k v r) m) (hcol : c = .red → headRed p = false ∧ p ≠ []) (hcap : 2 * N ≤ cap) :
    ∃ p' child col m', disconnect cap p c l r = some (p', child, col) ∧ Balanced child m' ∧
      (col = .black → PathBal p' (m' + 1) N) ∧ (col = .red → PathBal p' m' N ∧ isRed child = false) := by
  obtain ⟨m', hl, hr, hpl, hpr, hlr, hrr, hmb, hmr⟩ := pathBal_step hp ht hcol
  cases r with
  | nil =>
    cases hr
    refine ⟨p, l, c, 0, ?_, hl, fun h => by rw [← hmb h]; exact hp, fun h => ⟨by rw [← hmr h]; exact hp, ?_⟩⟩
    · unfold disconnect
      cases l <;> rfl
    · cases h2 : isRed l with
      | false => rfl
      | true => rw [hlr h2] at h; cases h
  | node rc rl rk rv rr =>
    have hcolr : rc = .red → headRed (⟨false, c, k, v, l⟩ :: p) = false ∧ (⟨false, c, k, v, l⟩ :: p) ≠ [] := by
      intro h
      exact ⟨by simp [headRed, hrr ((isRed_node ..).2 h)], by simp⟩
    unfold disconnect
    dsimp only
    cases hrl : rl with
    | node a b c' d e =>
      rw [← hrl]
      rw [if_pos (by rw [hrl]; rfl)]
      obtain ⟨q', sc, sk, sv, sr, m2, h1, h2, h3, h4⟩ := leftmost_spec cap (⟨false, c, k, v, l⟩ :: p) (.node rc rl rk rv rr) [] (by simp)
        hpr hr (fun h => hcolr ((isRed_node ..).1 h)) hcap
      rw [List.length_cons] at h1
      rw [h1]
      dsimp only
      have h5 := pathBal_rekey q' (a := ⟨false, c, k, v, l⟩) (b := ⟨false, c, sk, sv, l⟩) rfl rfl h2
      cases h3 with
      | red ha hb har hbr =>
        exact ⟨_, _, _, m2, rfl, hb, (fun h => by cases h), fun _ => ⟨h5, hbr⟩⟩
      | black ha hb => exact ⟨_, _, _, _, rfl, hb, fun _ => h5, fun h => by cases h⟩
    | nil =>
      subst hrl
      rw [if_neg (by simp [Tree.isNil])]
      cases l with
      | node lc ll lk lv lr =>
        rw [if_pos (by simp [Tree.isNil])]
        have hlen := node_len hpr hr hcolr
        simp only [List.length_cons] at hlen
        rw [if_neg (by omega)]
        have h5 := pathBal_rekey [] (a := ⟨false, c, k, v, .node lc ll lk lv lr⟩) (b := ⟨false, c, rk, rv, .node lc ll lk lv lr⟩) rfl rfl hpr
        cases hr with
        | red ha hb har hbr => exact ⟨_, _, _, m', rfl, hb, (fun h => by cases h), fun _ => ⟨h5, hbr⟩⟩
        | black ha hb => exact ⟨_, _, _, _, rfl, hb, fun _ => h5, fun h => by cases h⟩
      | nil =>
        rw [if_neg (by simp [Tree.isNil])]
        cases hl
        refine ⟨p, _, c, 0, rfl, hr, fun h => by rw [← hmb h]; exact hp, fun h => ⟨by rw [← hmr h]; exact hp, ?_⟩⟩
        cases h2 : isRed (.node rc .nil rk rv rr) with
        | false => rfl
        | true => rw [hrr h2] at h; cases h

end WS.Rb
