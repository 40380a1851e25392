import Verif.Spec.RbDict
namespace WS.Rb
variable {β : Type}

/-! ### paths -/

def pre : List (Step β) → List (Key × β)
  | [] => []
  | s :: p => pre p ++ (if s.left then [] else toList s.sib ++ [(s.key, s.val)])

def post : List (Step β) → List (Key × β)
  | [] => []
  | s :: p => (if s.left then (s.key, s.val) :: toList s.sib else []) ++ post p

theorem toList_plug (s : Step β) (t : Tree β) :
    toList (plug s t) = (if s.left then [] else toList s.sib ++ [(s.key, s.val)]) ++ toList t ++
      (if s.left then (s.key, s.val) :: toList s.sib else []) := by
  unfold plug
  cases s.left <;> simp [toList]

theorem toList_zip (p : List (Step β)) : ∀ t, toList (zip p t) = pre p ++ toList t ++ post p := by
  induction p with
  | nil => intro t; simp [zip, pre, post]
  | cons s p ih =>
    intro t
    rw [zip, ih, toList_plug, pre, post]
    simp only [List.append_assoc]

@[simp] theorem toList_setColor (c : Color) (t : Tree β) : toList (setColor c t) = toList t := by cases t <;> rfl

theorem toList_rotateLeft {t t' : Tree β} (h : rotateLeft t = some t') : toList t' = toList t := by
  unfold rotateLeft at h
  split at h
  · simp only [Option.some.injEq] at h; subst h; simp [toList]
  · cases h

theorem toList_rotateRight {t t' : Tree β} (h : rotateRight t = some t') : toList t' = toList t := by
  unfold rotateRight at h
  split at h
  · simp only [Option.some.injEq] at h; subst h; simp [toList]
  · cases h

theorem fixBlackUncle_toList {g s : Step β} {t t' : Tree β} (h : fixBlackUncle g s t = some t') :
    toList t' = toList (plug g (plug s t)) := by
  unfold fixBlackUncle at h
  simp only at h
  have hinner : ∀ par, (if g.left && !s.left then rotateLeft (plug s t) else if !g.left && s.left then rotateRight (plug s t)
      else some (plug s t)) = some par → toList par = toList (plug s t) := by
    intro par hp
    split at hp
    · exact toList_rotateLeft hp
    · split at hp
      · exact toList_rotateRight hp
      · simp only [Option.some.injEq] at hp; rw [hp]
  split at h
  · cases h
  · rename_i par hpar
    have e1 := hinner _ hpar
    have e2 : toList (plug { g with color := .red } (setColor .black par)) = toList (plug g (plug s t)) := by
      rw [toList_plug, toList_plug, toList_setColor, e1]
    generalize (if g.left && !s.left then true else if !g.left && s.left then false else s.left) = nl at h
    cases nl with
    | true => rw [if_pos rfl] at h; rw [toList_rotateRight h, e2]
    | false => rw [if_neg (by decide)] at h; rw [toList_rotateLeft h, e2]

theorem fixInsert_toList : ∀ (p : List (Step β)) (t r : Tree β), fixInsert p t = some r → toList r = pre p ++ toList t ++ post p
  | [], t, r, h => by
    simp only [fixInsert, Option.some.injEq] at h
    subst h
    simp [pre, post]
  | [s], t, r, h => by
    rw [fixInsert] at h
    split at h
    · simp only [Option.some.injEq] at h; subst h; exact toList_zip _ _
    · cases h
  | s :: g :: p, t, r, h => by
    rw [fixInsert] at h
    split at h
    · simp only [Option.some.injEq] at h; subst h; exact toList_zip _ _
    · split at h
      · have := fixInsert_toList p _ _ h
        rw [this, toList_plug, toList_plug, toList_setColor]
        simp only [pre, post, List.append_assoc]
      · rw [Option.map_eq_some_iff] at h
        obtain ⟨u, hu, rfl⟩ := h
        rw [toList_zip, fixBlackUncle_toList hu, toList_plug, toList_plug]
        simp only [pre, post, List.append_assoc]

theorem fixRedNephew_toList {s : Step β} {t sl : Tree β} {sk : Key} {sv : β} {sr u : Tree β} {sc : Color} (h : fixRedNephew s t sl sk sv sr = some u)
    (hs : s.sib = .node sc sl sk sv sr) : toList u = toList (plug s t) := by
  unfold fixRedNephew at h
  simp only at h
  have hinner : ∀ x, (if s.left && !isRed sr then rotateRight (.node .red (setColor .black sl) sk sv sr)
    else if !s.left && !isRed sl then rotateLeft (.node .red sl sk sv (setColor .black sr))
    else some (.node .black sl sk sv sr)) = some x → toList x = toList s.sib := by
    intro x hx
    split at hx
    · rw [toList_rotateRight hx, hs]; simp [toList]
    · split at hx
      · rw [toList_rotateLeft hx, hs]; simp [toList]
      · simp only [Option.some.injEq] at hx; rw [← hx, hs]; rfl
  split at h
  · rename_i c l k v r hx
    have e := hinner _ hx
    rw [toList_plug, ← e]
    split at h
    · rename_i hl
      rw [if_pos hl, if_pos hl]
      split at h
      · cases h
      · rw [toList_rotateLeft h]; simp [toList]
    · rename_i hl
      rw [if_neg hl, if_neg hl]
      split at h
      · cases h
      · rw [toList_rotateRight h]; simp [toList]
  · cases h

theorem fixRemove_toList (cap : Nat) : ∀ (n : Nat) (p : List (Step β)) (t r : Tree β), 2 * sibSizes p + p.length ≤ n →
    fixRemove cap p t = some r → toList r = pre p ++ toList t ++ post p := by
  intro n
  induction n with
  | zero =>
    intro p t r hn h
    cases p with
    | nil =>
      rw [fixRemove] at h
      split at h
      · simp only [Option.some.injEq] at h; subst h; simp [zip, pre, post]
      · simp only [Option.some.injEq] at h; subst h; simp [pre, post]
    | cons s p => simp at hn
  | succ n ih =>
    intro p t r hn h
    cases p with
    | nil =>
      rw [fixRemove] at h
      split at h
      · simp only [Option.some.injEq] at h; subst h; simp [zip, pre, post]
      · simp only [Option.some.injEq] at h; subst h; simp [pre, post]
    | cons s p' =>
      rw [fixRemove] at h
      split at h
      · simp only [Option.some.injEq] at h; subst h; rw [toList_zip, toList_setColor]
      · split at h
        · cases h
        · rename_i sc sl sk sv sr hs
          simp only [sibSizes, hs, size, List.length_cons] at hn
          split at h
          · split at h
            · cases h
            · split at h
              · rename_i hl
                have := ih _ _ _ (by simp only [sibSizes, List.length_cons]; omega) h
                rw [this]
                simp [pre, post, hl, hs, toList]
              · rename_i hl
                have := ih _ _ _ (by simp only [sibSizes, List.length_cons]; omega) h
                rw [this]
                simp [pre, post, hl, hs, toList]
          · split at h
            · rw [Option.map_eq_some_iff] at h
              obtain ⟨u, hu, rfl⟩ := h
              rw [toList_zip, fixRedNephew_toList hu hs, toList_plug]
              simp only [pre, post, List.append_assoc]
            · split at h
              · simp only [Option.some.injEq] at h
                subst h
                rw [toList_zip, toList_plug]
                simp only [pre, post, hs, toList, List.append_assoc]
              · have := ih _ _ _ (by omega) h
                rw [this, toList_plug]
                simp only [pre, post, hs, toList, List.append_assoc]

theorem leftmost_toList (cap base : Nat) : ∀ (t : Tree β) (q q' : List (Step β)) (u : Tree β), leftmost cap base q t = some (q', u) →
    zip q' u = zip q t ∧ ∃ c k v r, u = .node c .nil k v r := by
  intro t
  induction t with
  | nil => intro q q' u h; simp [leftmost] at h
  | node c l k v r ihl _ =>
    intro q q' u h
    rw [leftmost] at h
    split at h
    · cases h
    · split at h
      · rename_i hl
        simp only [Option.some.injEq, Prod.mk.injEq] at h
        obtain ⟨rfl, rfl⟩ := h
        refine ⟨rfl, c, k, v, r, ?_⟩
        cases l with
        | nil => rfl
        | node => simp [Tree.isNil] at hl
      · obtain ⟨h1, h2⟩ := ihl _ _ _ h
        exact ⟨by rw [h1]; rfl, h2⟩

theorem pre_append (p q : List (Step β)) : pre (p ++ q) = pre q ++ pre p := by
  induction p with
  | nil => simp [pre]
  | cons s p ih => simp only [List.cons_append, pre, ih, List.append_assoc]

theorem post_append (p q : List (Step β)) : post (p ++ q) = post p ++ post q := by
  induction p with
  | nil => simp [post]
  | cons s p ih => simp only [List.cons_append, post, ih, List.append_assoc]

theorem disconnect_toList {cap : Nat} {p p' : List (Step β)} {c col : Color} {l r child : Tree β}
    (h : disconnect cap p c l r = some (p', child, col)) :
    pre p' ++ toList child ++ post p' = pre p ++ (toList l ++ toList r) ++ post p := by
  unfold disconnect at h
  split at h
  · simp only [Option.some.injEq, Prod.mk.injEq] at h
    obtain ⟨rfl, rfl, rfl⟩ := h
    cases l <;> simp [Tree.isNil, toList]
  · rename_i rc rl rk rv rr
    split at h
    · split at h
      · rename_i q sc x sk sv sr hq
        simp only [Option.some.injEq, Prod.mk.injEq] at h
        obtain ⟨rfl, rfl, rfl⟩ := h
        obtain ⟨h1, c', k', v', r', h2⟩ := leftmost_toList _ _ _ _ _ _ hq
        have h3 := toList_zip q (.node sc x sk sv sr)
        rw [h1] at h3
        simp only [Tree.node.injEq] at h2
        obtain ⟨rfl, rfl, rfl, rfl, rfl⟩ := h2
        have hpre : pre q = [] := by
          have : ∀ (t : Tree β) (q q' : List (Step β)) (u : Tree β), leftmost cap (p.length + 1) q t = some (q', u) → pre q = [] → pre q' = [] := by
            intro t
            induction t with
            | nil => intro q q' u h; simp [leftmost] at h
            | node c l k v r ihl _ =>
              intro q q' u h h0
              rw [leftmost] at h
              split at h
              · cases h
              · split at h
                · simp only [Option.some.injEq, Prod.mk.injEq] at h; rw [← h.1]; exact h0
                · exact ihl _ _ _ h (by simp [pre, h0])
          exact this _ _ _ _ hq rfl
        simp only [zip, toList] at h3
        rw [hpre] at h3
        simp only [pre_append, post_append, pre, post, hpre, Bool.false_eq_true, if_false, toList, h3]
        simp
      · cases h
    · split at h
      · split at h
        · cases h
        · simp only [Option.some.injEq, Prod.mk.injEq] at h
          obtain ⟨rfl, rfl, rfl⟩ := h
          rename_i hrl _ _
          have : rl = .nil := by cases rl with
            | nil => rfl
            | node => simp [Tree.isNil] at hrl
          subst this
          simp [pre, post, toList]
      · simp only [Option.some.injEq, Prod.mk.injEq] at h
        obtain ⟨rfl, rfl, rfl⟩ := h
        rename_i hl
        have : l = .nil := by cases l with
          | nil => rfl
          | node => simp [Tree.isNil] at hl
        subst this
        simp [toList]

end WS.Rb
