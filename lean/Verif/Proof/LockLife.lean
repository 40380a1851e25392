import Verif.Proof.RwLockF
import Verif.Model.LockLife
/-
What is left in a lock nobody uses.
-/
namespace WS.RW
open WS.RW.Spec

/-- The counts of a reservation and of a promotion are zero when there is none. -/
def Clean (l : Lock) : Prop :=
  (l.rh = none → l.r2w = 0) ∧ (l.st = .exclusive → l.wh ≠ none → l.r2w = 0) ∧ (l.st ≠ .exclusive → l.prom = 0)

theorem clean_notify {l : Lock} (h : Clean l) (hw : l.st = .exclusive → False) (hn : l.wh = none) : Clean (notify l) := by
  obtain ⟨h1, h2, h3⟩ := h
  unfold notify
  split
  · split
    · exact ⟨h1, fun _ q => absurd hn q, fun q => absurd rfl q⟩
    · exact ⟨h1, h2, h3⟩
  · split
    · exact ⟨h1, fun q => (by cases q), fun _ => h3 hw⟩
    · exact ⟨h1, h2, h3⟩

theorem clean_unlockCS {t : Tid} {l : Lock} {x : Thr} {ab ad : Bool} (h : Clean l) (hs : l.st = .shared → l.wh = none) : Clean (unlockCS t l x ab ad).1 := by
  unfold unlockCS
  split
  · next hst =>
    have hwh := hs hst
    split
    · exact h
    · next ab' _ =>
      have hA : Clean (unlockAbandon t l x ab').1 ∧ (unlockAbandon t l x ab').1.st = .shared ∧ (unlockAbandon t l x ab').1.wh = none := by
        unfold unlockAbandon
        split
        · exact ⟨⟨fun _ => rfl, fun _ _ => rfl, h.2.2⟩, hst, hwh⟩
        · exact ⟨h, hst, hwh⟩
      show Clean (unlockSharedTail t (unlockAbandon t l x ab').1)
      generalize (unlockAbandon t l x ab').1 = l1 at hA
      obtain ⟨⟨h1, h2, h3⟩, a1, a2⟩ := hA
      have hp : l1.prom = 0 := h3 (by rw [a1]; decide)
      unfold unlockSharedTail
      split
      · exact clean_notify ⟨h1, fun q => (by cases q), fun _ => hp⟩ (fun q => by cases q) a2
      · split
        · exact ⟨fun _ => rfl, fun _ _ => rfl, fun q => absurd rfl q⟩
        · split
          · next _ _ hr =>
            exact clean_notify ⟨fun q => (by rw [show l1.rh = none from q] at hr; cases hr), fun _ q => absurd a2 q, fun _ => hp⟩
              (fun q => by rw [show l1.st = .exclusive from q] at a1; cases a1) a2
          · exact clean_notify ⟨h1, fun _ q => absurd a2 q, fun _ => hp⟩ (fun q => by rw [show l1.st = .exclusive from q] at a1; cases a1) a2
  · next hst =>
    split
    · exact h
    · next hw =>
      have hw : l.wh = some t := by simpa using hw
      have hz : l.r2w = 0 := h.2.1 hst (by rw [hw]; simp)
      dsimp only
      split
      · exact ⟨fun _ => hz, fun _ _ => hz, h.2.2⟩
      · split
        · exact clean_notify ⟨fun _ => hz, fun _ _ => hz, fun _ => rfl⟩ (fun q => by cases q) rfl
        · split
          · split
            · refine ⟨?_, ?_, ?_⟩ <;> (unfold notify; repeat' split) <;> first | (intros; exact hz) | (intros; rfl)
            · exact ⟨fun _ => hz, fun _ _ => hz, fun _ => rfl⟩
          · exact ⟨fun _ => hz, fun _ _ => hz, h.2.2⟩
  · exact h

theorem clean_redeemEntry {t l x w k} (h : Clean l) : Clean (redeemEntry t l x w k).1 := by
  unfold redeemEntry; split <;> exact h
theorem clean_promoted {l x k} (h : Clean l) : Clean (promoted l x k).1 := by
  unfold promoted; split <;> exact h
theorem clean_s2mEntry {t l x w k} (h : Clean l) : Clean (s2mEntry t l x w k).1 := by
  unfold s2mEntry
  split
  · split
    · exact clean_promoted h
    · exact h
  · split
    · exact clean_redeemEntry h
    · exact h
  · exact h
theorem clean_hc {l : Lock} (h : Clean l) (c : Int) : Clean { l with hc := c } := h
theorem clean_mutexEntry {t l x w b} (h : Clean l) : Clean (mutexEntry t l x w b).1 := by
  unfold mutexEntry
  split
  · split
    · split
      · exact h
      · exact clean_hc h _
    · exact h
  · split
    · split
      · exact h
      · exact clean_redeemEntry h
    · split
      · exact clean_s2mEntry h
      · exact h
  · exact h

theorem clean_tstep {n : Nat} {s : Sys} {t : Tid} {c : Choice} {o : Out} (i : Inv n s) (ht : t < n) (hu : untimedPc (s.th t).pc)
    (ho : tstep t s.l (s.th t) c = some o) (h : Clean s.l) : Clean o.1 := by
  have hs : s.l.st = .shared → s.l.wh = none := fun q => (i.g.sh q).1
  cases c with
  | call op =>
    simp only [tstep] at ho
    split at ho
    · cases ho
      cases op with
      | lockShared r w nrs nrm =>
        simp only [callOp, sharedEntry]
        split
        · exact clean_mutexEntry h
        · split <;> exact h
      | lockMutex w nrm => exact clean_mutexEntry h
      | unlock ab ad =>
        simp only [callOp, unlockEntry]
        split
        · exact clean_hc h _
        · exact h
      | mutex2shared a b =>
        simp only [callOp, m2sEntry]
        split
        · exact h
        · split <;> exact h
      | reserve => simp only [callOp, reserveEntry]; split <;> exact h
      | redeem w => exact clean_redeemEntry h
      | abandon => simp only [callOp, abandonEntry]; split <;> exact h
      | shared2mutex w => exact clean_s2mEntry h
    · cases ho
  | fail =>
    simp only [tstep] at ho
    have hsf : ∀ w, semFail s.l (s.th t) w = some o → Clean o.1 := by
      intro w q; cases w <;> cases q <;> exact h
    unfold failStep at ho
    split at ho
    · exact hsf _ ho
    · exact hsf _ ho
    · exact hsf _ ho
    · exact hsf _ ho
    all_goals (cases ho; try exact h)
  | run =>
    simp only [tstep] at ho
    have cx := i.ctx ht
    have g := i.g
    obtain ⟨h1, h2, h3⟩ := h
    unfold runStep at ho
    split at ho <;> rename_i e <;> rw [e] at hu
    · cases ho
    · cases ho
      simp only [sharedCS]
      split
      · split <;> exact ⟨h1, h2, h3⟩
      · next hc =>
        have hne : s.l.st ≠ .exclusive := fun q => hc (Or.inl q)
        split
        · exact ⟨h1, h2, h3⟩
        · split
          · exact ⟨fun q => (by cases q), fun q => (by cases q), fun _ => h3 hne⟩
          · refine ⟨?_, fun q => (by cases q), fun _ => h3 hne⟩
            intro q
            show (if s.l.rh = some t then s.l.r2w + 1 else s.l.r2w) = 0
            rw [show s.l.rh = none from q, if_neg (by simp)]
            exact h1 q
    · split at ho
      · cases ho
        simp only [sharedWoken]
        split <;> exact ⟨h1, h2, h3⟩
      · cases ho
    · exact hu.elim
    · cases ho
      simp only [sharedResv]
      split
      · split <;> exact ⟨h1, h2, h3⟩
      · simp only [reserveEntry]; split <;> exact ⟨h1, h2, h3⟩
    · -- shResvCS
      cases ho
      have hr : Clean (reserveCS t s.l (s.th t)).1 := by
        unfold reserveCS
        split
        · exact ⟨h1, h2, h3⟩
        · next hsh =>
          split
          · exact ⟨h1, h2, h3⟩
          · exact ⟨fun q => (by cases q), fun q => absurd (show s.l.st = .exclusive from q) (by simp at hsh; rw [hsh]; decide), h3⟩
      simp only [sharedResvCS]
      split
      · next he => rw [he] at hr; split <;> exact hr
      · next he => rw [he] at hr; exact hr
      · next he => rw [he] at hr; exact hr
    · cases ho
      have hr := clean_unlockCS (t := t) (x := s.th t) (ab := false) (ad := false) ⟨h1, h2, h3⟩ hs
      simp only [sharedUnlockCS]
      split
      · next he => rw [he] at hr; exact hr
      · next he => rw [he] at hr; exact hr
    · cases ho
      simp only [mutexCS]
      split
      · split <;> exact ⟨h1, h2, h3⟩
      · next hun =>
        have hun : s.l.st = .unlocked := by simpa using hun
        have hz := h1 (g.un hun).2.1
        split <;> exact ⟨fun _ => hz, fun _ _ => hz, fun q => absurd rfl q⟩
    · split at ho
      · cases ho; exact ⟨h1, h2, h3⟩
      · cases ho
    · exact hu.elim
    · -- mxOwn
      cases ho
      have ho1 : 1 ≤ (tots n s.th).O := by have := cx.oO; rw [e] at this; exact this
      have hrh : s.l.rh = none := by
        cases hst : s.l.st with
        | unlocked => have := (g.un hst).2.2.2.2.2.2.2.2.2.1; omega
        | shared => have := (g.sh hst).2.2.2.2.2.1; omega
        | exclusive =>
          by_cases hw : s.l.wh = none
          · exact (g.ex0 hst hw).1
          · have := (g.ex1 hst hw).2.2.1; omega
      exact ⟨h1, fun _ _ => h1 hrh, h3⟩
    · cases ho; exact ⟨h1, h2, h3⟩
    · cases ho; exact clean_unlockCS ⟨h1, h2, h3⟩ hs
    · -- m2sCS
      cases ho
      simp only [m2sCS]
      split
      · exact ⟨h1, h2, h3⟩
      · next a1 =>
        split
        · exact ⟨h1, h2, h3⟩
        · next a2 =>
          split
          · exact ⟨h1, h2, h3⟩
          · split
            · exact ⟨h1, h2, h3⟩
            · have a1 : s.l.st = .exclusive := by simpa using a1
              have a2 : s.l.wh = some t := by simpa using a2
              have hz : s.l.r2w = 0 := h2 a1 (by rw [a2]; simp)
              rename_i rsv nrs _ _ _ _
              have key : Clean { s.l with st := .shared, wh := none, prom := 0, rh := (if rsv then some t else s.l.rh), r2w := (if rsv then s.l.hc else s.l.r2w), hc := s.l.hc + (if rsv then 1 else 0) } := by
                refine ⟨?_, fun q => (by cases q), fun _ => rfl⟩
                intro q
                cases rsv
                · exact hz
                · cases q
              split
              · exact key
              · exact key
    · cases ho
      simp only [fin3, fin]
      unfold reserveCS
      split
      · exact ⟨h1, h2, h3⟩
      · next hsh =>
        split
        · exact ⟨h1, h2, h3⟩
        · exact ⟨fun q => (by cases q), fun q => absurd (show s.l.st = .exclusive from q) (by simp at hsh; rw [hsh]; decide), h3⟩
    · -- rdCS
      cases ho
      simp only [redeemCS]
      split
      · exact ⟨h1, h2, h3⟩
      · next hsh =>
        have hsh : s.l.st = .shared := by simpa using hsh
        split
        · exact ⟨h1, h2, h3⟩
        · next hr =>
          split
          · exact ⟨h1, h2, h3⟩
          · split
            · exact ⟨h1, h2, h3⟩
            · split
              · exact clean_promoted ⟨fun _ => rfl, fun _ _ => rfl, fun q => absurd rfl q⟩
              · split
                · exact ⟨h1, h2, h3⟩
                · exact ⟨fun q => absurd q hr, fun q => absurd (show s.l.st = .exclusive from q) (by rw [hsh]; decide), h3⟩
    · split at ho
      · cases ho; exact ⟨h1, h2, h3⟩
      · cases ho
    · exact hu.elim
    · -- rdOwn
      cases ho
      have hx1 : 1 ≤ (tots n s.th).X := by have := cx.oX; rw [e] at this; exact this
      have hz : s.l.r2w = 0 := by
        cases hst : s.l.st with
        | unlocked => have := (g.un hst).2.2.2.2.2.2.2.2.2.2.2; omega
        | shared => have := (g.sh hst).2.2.2.2.2.2.1; omega
        | exclusive =>
          by_cases hw : s.l.wh = none
          · have := (g.ex0 hst hw).2.2.2.2.2.2.1; omega
          · exact h2 hst hw
      exact clean_promoted ⟨fun _ => hz, fun _ _ => hz, h3⟩
    · cases ho
      simp only [abandonCS]
      split
      · exact ⟨h1, h2, h3⟩
      · exact ⟨fun _ => rfl, fun _ _ => rfl, h3⟩
    · -- smCS
      cases ho
      simp only [s2mCS]
      split
      · exact ⟨h1, h2, h3⟩
      · next hsh =>
        have hsh : s.l.st = .shared := by simpa using hsh
        split
        · exact ⟨h1, h2, h3⟩
        · next hr =>
          have hr : s.l.rh = none := by simpa using hr
          split
          · exact clean_promoted ⟨h1, fun _ _ => h1 hr, fun q => absurd rfl q⟩
          · split
            · exact ⟨h1, h2, h3⟩
            · exact ⟨fun q => (by cases q), fun q => absurd (show s.l.st = .exclusive from q) (by rw [hsh]; decide), h3⟩
    · split at ho
      · cases ho; exact ⟨h1, h2, h3⟩
      · cases ho
    · exact hu.elim
    · -- smOwn
      cases ho
      have hx1 : 1 ≤ (tots n s.th).X := by have := cx.oX; rw [e] at this; exact this
      have hz : s.l.r2w = 0 := by
        cases hst : s.l.st with
        | unlocked => have := (g.un hst).2.2.2.2.2.2.2.2.2.2.2; omega
        | shared => have := (g.sh hst).2.2.2.2.2.2.1; omega
        | exclusive =>
          by_cases hw : s.l.wh = none
          · have := (g.ex0 hst hw).2.2.2.2.2.2.1; omega
          · exact h2 hst hw
      exact clean_promoted ⟨fun _ => hz, fun _ _ => hz, h3⟩

theorem clean_reach {n : Nat} {s : Sys} (h : ReachP UntimedOk n s) : Clean s.l := by
  induction h with
  | init => exact ⟨fun _ => rfl, fun _ _ => rfl, fun _ => rfl⟩
  | @step s s' t c hr ht hp hs ih =>
    obtain ⟨o, ho, rfl⟩ := step_some hs
    obtain ⟨r1, r2⟩ := untimed_reach hr
    exact clean_tstep (inv_of_reach r1) ht (r2 t) ho ih

end WS.RW
