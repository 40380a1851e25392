import Verif.Model.EventGraph
/- Property C42: the aux-event relation stays safe to follow. -/
namespace WS.Props
open WS WS.EG

/-- Every aux event carries the sub-event flag; aux edges other than self loops go down some rank. -/
structure GInv (g : G) : Prop where
  sub : ∀ x y, g.aux x = some y → g.isSub y = true
  rank : ∃ r : Nat → Nat, ∀ x y, g.aux x = some y → y ≠ x → r y < r x

theorem assign_inv {g : G} (h : GInv g) (e : Nat) (hs : g.isSub e = false) (a : Option Nat) : GInv (assign g e a) := by
  obtain ⟨r, hr⟩ := h.rank
  cases a with
  | none =>
    constructor
    · intro x y hxy
      simp only [assign, upd] at hxy ⊢
      by_cases hx : x = e
      · simp [hx] at hxy
      · simp [hx] at hxy; exact h.sub x y hxy
    · refine ⟨r, ?_⟩
      intro x y hxy
      simp only [assign, upd] at hxy
      by_cases hx : x = e
      · simp [hx] at hxy
      · simp [hx] at hxy; exact hr x y hxy
  | some t =>
    constructor
    · intro x y hxy
      simp only [assign, upd] at hxy ⊢
      by_cases hx : x = e
      · simp [hx] at hxy; simp [hxy]
      · simp [hx] at hxy
        have := h.sub x y hxy
        by_cases hy : y = t
        · simp [hy]
        · simp [hy, this]
    · -- nothing points to `e`, so its rank can be raised above that of its new aux event
      refine ⟨fun z => if z = e then r t + 1 else r z, ?_⟩
      intro x y hxy hne
      simp only [assign, upd] at hxy
      have hye : x ≠ e → y ≠ e := by
        rintro hx rfl
        simp [hx] at hxy
        have := h.sub x y hxy
        rw [hs] at this; cases this
      by_cases hx : x = e
      · subst hx
        simp at hxy
        subst hxy
        simp [hne]
      · have := hye hx
        simp [hx] at hxy
        simp [hx, this]
        exact hr x y hxy hne

theorem step_ginv {g : G} (h : GInv g) (o : Op) : GInv (step g o) := by
  cases o with
  | create l =>
    simp only [step, create]
    split
    · exact h
    · exact ⟨h.sub, h.rank⟩
  | delete l =>
    simp only [step, delete]
    split
    · exact h
    · exact ⟨h.sub, h.rank⟩
  | flush => exact ⟨h.sub, h.rank⟩
  | setAux l a =>
    simp only [step, setAux]
    split
    · exact h
    · rename_i e he
      split
      · exact h
      · rename_i hs
        have hs : g.isSub e = false := by simpa using hs
        split
        · exact assign_inv h e hs none
        · split
          · exact h
          · split
            · exact h
            · exact assign_inv h e hs (some _)
  | markParent l =>
    simp only [step, markParent]
    split
    · exact h
    · exact ⟨h.sub, h.rank⟩

theorem run_ginv (ops : List Op) : GInv (run ops) := by
  unfold run
  suffices ∀ g, GInv g → GInv (ops.foldl step g) from
    this {} ⟨(by intro x y h; cases h), ⟨fun _ => 0, (by intro x y h; cases h)⟩⟩
  induction ops with
  | nil => intro g h; exact h
  | cons o os ih => intro g h; exact ih _ (step_ginv h o)

/-- C42: after any history of event creations, deletions, rule insertions and aux-event assignments,
following aux events from any event reaches, in finitely many steps, an event that has no aux event
or that is its own. -/
theorem C42_follow_terminates (ops : List Op) (x : Nat) :
    ∃ n y, follow (run ops) n x = some y ∧ ((run ops).aux y = none ∨ (run ops).aux y = some y) := by
  obtain ⟨r, hr⟩ := (run_ginv ops).rank
  generalize run ops = g at hr
  have key : ∀ k x, r x ≤ k → ∃ n y, follow g n x = some y ∧ (g.aux y = none ∨ g.aux y = some y) := by
    intro k
    induction k with
    | zero =>
      intro x hx
      cases ha : g.aux x with
      | none => exact ⟨0, x, rfl, Or.inl ha⟩
      | some y =>
        by_cases hy : y = x
        · subst hy; exact ⟨0, y, rfl, Or.inr ha⟩
        · have := hr x y ha hy; omega
    | succ k ih =>
      intro x hx
      cases ha : g.aux x with
      | none => exact ⟨0, x, rfl, Or.inl ha⟩
      | some y =>
        by_cases hy : y = x
        · subst hy; exact ⟨0, y, rfl, Or.inr ha⟩
        · have := hr x y ha hy
          obtain ⟨n, z, h1, h2⟩ := ih y (by omega)
          exact ⟨n + 1, z, by simp only [follow, ha]; exact h1, h2⟩
  exact key (r x) x (Nat.le_refl _)

/-- C42: no cycles other than explicit self reference: an event that is reached again by following
aux events from it is its own aux event. -/
theorem C42_no_longer_cycle (ops : List Op) (x n : Nat) (h : follow (run ops) (n + 1) x = some x) :
    (run ops).aux x = some x := by
  obtain ⟨r, hr⟩ := (run_ginv ops).rank
  generalize run ops = g at hr h
  have mono : ∀ n x y, follow g n x = some y → y = x ∨ r y < r x := by
    intro n
    induction n with
    | zero => intro x y h; simp [follow] at h; exact Or.inl h.symm
    | succ n ih =>
      intro x y h
      simp only [follow] at h
      cases ha : g.aux x with
      | none => rw [ha] at h; cases h
      | some z =>
        rw [ha] at h
        by_cases hz : z = x
        · subst hz; exact ih z y h
        · have h1 := hr x z ha hz
          rcases ih z y h with rfl | h2
          · exact Or.inr h1
          · exact Or.inr (by omega)
  simp only [follow] at h
  cases ha : g.aux x with
  | none => rw [ha] at h; cases h
  | some z =>
    rw [ha] at h
    by_cases hz : z = x
    · rw [hz]
    · have h1 := hr x z ha hz
      rcases mono n z x h with h2 | h2
      · exact absurd h2.symm hz
      · omega

/-- C42: an event that is somebody's aux event can no longer be given one itself: the attempt fails
with `INCOMPATIBLE_STATE` and changes nothing.  This is what keeps cycles out. -/
theorem C42_subevent_refused (ops : List Op) (l : Label) (e x : Nat) (a : Option Label)
    (he : (run ops).get l = some e) (hx : (run ops).aux x = some e) :
    setAux (run ops) l a = (.error .incompatibleState, run ops) := by
  have := (run_ginv ops).sub x e hx
  unfold setAux
  rw [he]
  simp [this]

/-- C42: an event that rules already have as parent cannot become an aux event. -/
theorem C42_parent_refused (g : G) (l al : Label) (e x : Nat) (he : g.get l = some e) (hs : g.isSub e = false)
    (hx : g.get al = some x) (hp : g.isParent x = true) :
    setAux g l (some al) = (.error .incompatibleState, g) := by
  simp [setAux, he, hs, hx, hp]

/-- C42: a successful assignment makes the aux event of the named event exactly the requested one and
leaves every other event's alone. -/
theorem C42_assignment_effect (g : G) (l : Label) (al : Option Label) (h : (setAux g l al).1 = .ok ()) :
    ∃ e, g.get l = some e ∧ (setAux g l al).2.aux e = al.bind g.get ∧
      (∀ a, al = some a → ∃ x, g.get a = some x) ∧
      ∀ y, y ≠ e → (setAux g l al).2.aux y = g.aux y := by
  unfold setAux at h ⊢
  cases hg : g.get l with
  | none => rw [hg] at h; cases h
  | some e =>
    rw [hg] at h
    refine ⟨e, rfl, ?_⟩
    simp only at h ⊢
    by_cases hs : g.isSub e = true
    · rw [if_pos hs] at h; cases h
    · rw [if_neg hs] at h ⊢
      cases al with
      | none => simp [assign, upd]; intro y hy; simp [hy]
      | some a =>
        simp only at h ⊢
        cases ha : g.get a with
        | none => rw [ha] at h; cases h
        | some x =>
          rw [ha] at h
          simp only at h ⊢
          by_cases hp : g.isParent x = true
          · rw [if_pos hp] at h; cases h
          · rw [if_neg hp]
            refine ⟨by simp [assign, upd, ha], by intro a' ha'; cases ha'; exact ⟨x, ha⟩, ?_⟩
            intro y hy; simp [assign, upd, hy]

/-- A failed assignment changes nothing. -/
theorem C42_failed_assignment (g : G) (l : Label) (al : Option Label) (x : Err) (h : (setAux g l al).1 = .error x) :
    (setAux g l al).2 = g := by
  unfold setAux at h ⊢
  repeat' split at h
  all_goals first
    | cases h; done
    | simp_all

/-! ### non-trivial cases -/

def lA : Label := [0x61#8]
def lB : Label := [0x62#8]
def lC : Label := [0x63#8]

/-- A chain of length two: a → b → c, built from the far end. -/
def demoChain : List Op := [.create lA, .create lB, .create lC, .setAux lB (some lC), .setAux lA (some lB)]
theorem C42_chain_of_two : follow (run demoChain) 2 0 = some 2 ∧ (run demoChain).aux 2 = none := by decide
/-- Closing it into a cycle is refused. -/
theorem C42_cycle_attempt_refused : (setAux (run demoChain) lC (some lA)).1 = .error .incompatibleState := by decide

/-- C42: the self reference the property allows for is reachable … -/
theorem C42_self_loop_reachable : (run [.create lA, .setAux lA (some lA)]).aux 0 = some 0 := by decide
/-- … and cannot be undone by another assignment (finding). -/
theorem C42_self_loop_permanent (ops : List Op) (l : Label) (e : Nat) (a : Option Label)
    (he : (run ops).get l = some e) (hx : (run ops).aux e = some e) :
    setAux (run ops) l a = (.error .incompatibleState, run ops) :=
  C42_subevent_refused ops l e e a he hx

end WS.Props
