import Verif.Spec.Thread
import Verif.Proof.RwLockE
/-
Read-only threads keep the invariant of the lock, and never own it or the reservation.
-/
namespace WS.RW
open WS.RW.Spec

/-- A step of `t` that is good keeps the invariant. -/
theorem Inv.refuse {n : Nat} {s : Sys} {t : Tid} (i : Inv n s) (ht : t < n) (hp : (s.th t).pc = .idle) (op : Op) (e : Err) :
    Inv n (commit s t (fin s.l { s.th t with cur := op } (.err e))) := by
  have hth : ∀ u, u ≠ t → (commit s t (fin s.l { s.th t with cur := op } (.err e))).th u = s.th u := by
    intro u hu; simp [commit, upd, hu]
  have htt : (commit s t (fin s.l { s.th t with cur := op } (.err e))).th t = { s.th t with cur := op, pc := .idle } := by
    simp [commit, upd, fin]
  have hlog : ∀ u, holds (commit s t (fin s.l { s.th t with cur := op } (.err e))).log u = holds s.log u := by
    intro u
    simp only [commit, fin, holds]
    by_cases hu : t = u
    · rw [if_pos hu, hold_err]
    · rw [if_neg hu]
  have hl : (commit s t (fin s.l { s.th t with cur := op } (.err e))).l = s.l := rfl
  obtain ⟨g1, g2, g3, _, _⟩ := good_call_err (i.ctx ht) (i.hl t) hp op e
  refine ⟨?_, ?_, ?_, ?_⟩
  · intro u
    rw [hl]
    by_cases hu : u = t
    · subst hu; rw [htt]; exact g1
    · rw [hth u hu]; exact i.ti u
  · intro u
    rw [hl, hlog]
    by_cases hu : u = t
    · subst hu; rw [htt]
      have : HL u s.l { s.th u with cur := op, pc := .idle } (holdStep (holds s.log u) op (.err e)) := g2
      rwa [hold_err] at this
    · rw [hth u hu]; exact i.hl u
  · show G s.l (tots n (upd s.th t { s.th t with cur := op, pc := .idle }))
    rw [tots_upd ht]
    exact g3
  · intro u hu
    rw [hth u (by intro hc; subst hc; exact Nat.not_le.2 ht hu)]
    exact i.out u hu

/-- Where a read-only thread can be. -/
def roPc : Pc → Prop
  | .idle | .shCS .no _ | .shWait .no _ | .shTimed .no | .unCS .. | .m2sCS .. | .rdCS _ false => True
  | _ => False

structure RoInv (n : Nat) (y : SysRo) : Prop where
  inv : Inv n y.s
  ro : ∀ t, y.ro t = true → y.s.l.wh ≠ some t ∧ y.s.l.rh ≠ some t ∧ roPc (y.s.th t).pc

/-- The others of a good step: a thread without lock and reservation stays without. -/
theorem others_without {n : Nat} {s s' : Sys} {t u : Tid} {c : Choice} (i : Inv n s) (ht : t < n) (hok : StepOk s t c)
    (hs : step s t c = some s') (hu : u ≠ t) (h : s.l.wh ≠ some u ∧ s.l.rh ≠ some u) : s'.l.wh ≠ some u ∧ s'.l.rh ≠ some u ∧ s'.th u = s.th u := by
  unfold WS.RW.step at hs
  cases ho : tstep t s.l (s.th t) c with
  | none => rw [ho] at hs; cases hs
  | some o =>
    rw [ho] at hs
    have hs := Option.some.inj hs
    subst hs
    have hgood : Good t s.l (s.th t) (holds s.log t) (tots n s.th) o := by
      apply good_tstep (i.ctx ht) (i.hl t) _ ho
      cases c <;> exact hok
    obtain ⟨_, _, _, g4, _⟩ := hgood
    refine ⟨?_, ?_, by simp [commit, upd, hu]⟩
    · rcases g4 u hu (Ne.symm hu) with f | f
      · intro hc; exact h.1 (f.1.1 hc)
      · exact absurd f.1 h.2
    · rcases g4 u hu (Ne.symm hu) with f | f
      · intro hc; exact h.2 (f.2.1.1 hc)
      · exact absurd f.1 h.2

theorem notify_wh (l : Lock) : (notify l).wh = l.wh ∧ (notify l).rh = l.rh := by
  unfold notify; split
  · split <;> simp
  · split <;> simp

theorem tail_without {t : Tid} {l : Lock} (h : l.wh ≠ some t) (h2 : l.rh ≠ some t) :
    (unlockSharedTail t l).wh ≠ some t ∧ (unlockSharedTail t l).rh ≠ some t := by
  unfold unlockSharedTail
  split
  · rw [(notify_wh _).1, (notify_wh _).2]; exact ⟨h, h2⟩
  · split
    · exact ⟨h2, h2⟩
    · rw [(notify_wh _).1, (notify_wh _).2]; exact ⟨h, h2⟩

theorem unlockCS_without {t : Tid} {l : Lock} {x : Thr} {ab ad : Bool} (h : l.wh ≠ some t) (h2 : l.rh ≠ some t) :
    (unlockCS t l x ab ad).1.wh ≠ some t ∧ (unlockCS t l x ab ad).1.rh ≠ some t := by
  unfold unlockCS
  split
  · split
    · exact ⟨h, h2⟩
    · rename_i ab' _
      have : unlockAbandon t l x ab' = (l, x) := by unfold unlockAbandon; rw [if_neg (by intro hc; exact h2 hc.2)]
      rw [this]
      exact tail_without h h2
  · rw [if_pos h]; exact ⟨h, h2⟩
  · exact ⟨h, h2⟩

/-- Own steps of a read-only thread inside a call. -/
theorem own_without {t : Tid} {l : Lock} {x : Thr} {c : Choice} {o : Out} (h : l.wh ≠ some t) (h2 : l.rh ≠ some t) (hp : roPc x.pc)
    (hc : ∀ op, c ≠ .call op) (ho : tstep t l x c = some o) : o.1.wh ≠ some t ∧ o.1.rh ≠ some t ∧ roPc o.2.1.pc := by
  cases c with
  | call op => exact absurd rfl (hc op)
  | run =>
    simp only [tstep, runStep] at ho
    cases hx : x.pc <;> rw [hx] at ho hp <;> dsimp only at ho <;> simp only [roPc] at hp <;> try (exact absurd hp id)
    · cases ho
    · rename_i r w
      cases r <;> simp only [roPc] at hp <;> try (exact absurd hp id)
      have ho := Option.some.inj ho
      rw [← ho]
      unfold sharedCS
      split
      · split
        · exact ⟨h, h2, trivial⟩
        · exact ⟨h, h2, trivial⟩
      · simp only [ne_eq, not_true, false_and, if_false, reduceCtorEq]
        exact ⟨h, h2, trivial⟩
    · rename_i r w
      cases r <;> simp only [roPc] at hp <;> try (exact absurd hp id)
      split at ho
      · have ho := Option.some.inj ho
        rw [← ho]
        exact ⟨h, h2, trivial⟩
      · cases ho
    · rename_i r
      cases r <;> simp only [roPc] at hp <;> try (exact absurd hp id)
      have ho := Option.some.inj ho
      rw [← ho]
      unfold sharedTimed
      split <;> exact ⟨h, h2, trivial⟩
    · have ho := Option.some.inj ho
      rw [← ho]
      rename_i ab ad _
      have := unlockCS_without (x := x) (ab := ab) (ad := ad) h h2
      exact ⟨this.1, this.2, trivial⟩
    · have ho := Option.some.inj ho
      rw [← ho]
      unfold m2sCS
      split
      · exact ⟨h, h2, trivial⟩
      · exact ⟨h, h2, trivial⟩
    · rename_i w k
      cases k <;> simp only [roPc] at hp <;> try (exact absurd hp id)
      have ho := Option.some.inj ho
      rw [← ho]
      unfold redeemCS
      split
      · exact ⟨h, h2, trivial⟩
      · split
        · exact ⟨h, h2, trivial⟩
        · exact ⟨h, h2, trivial⟩
  | fail =>
    simp only [tstep, failStep] at ho
    cases hx : x.pc <;> rw [hx] at ho hp <;> (try dsimp only at ho) <;> simp only [roPc] at hp <;> try (exact absurd hp id)
    · cases ho
    · rename_i r w
      cases w <;> simp only [semFail, reduceCtorEq, Option.some.injEq] at ho <;> rw [← ho] <;> exact ⟨h, h2, trivial⟩
    · rename_i r w
      cases r <;> simp only [roPc] at hp <;> try (exact absurd hp id)
      cases w <;> simp only [reduceCtorEq, Option.some.injEq] at ho
      rw [← ho]; exact ⟨h, h2, trivial⟩
    · cases ho
    · cases ho
    · cases ho
    · rename_i w k
      cases w <;> simp only [semFail, reduceCtorEq, Option.some.injEq] at ho <;> rw [← ho] <;> exact ⟨h, h2, trivial⟩

/-- What a call by a read-only thread that owns nothing comes to: a refusal, or a call that a read-write thread
might have made. -/
theorem callRo_cases {t : Tid} {l : Lock} {x : Thr} {op : Op} (h : l.wh ≠ some t) (h2 : l.rh ≠ some t) :
    (∃ e, callRo t l { x with cur := op } op = fin l { x with cur := op } (.err e)) ∨
    (∃ op', callRo t l { x with cur := op } op = callOp t l { x with cur := op' } op' ∧
      (∀ hd, ClientOk hd op → ClientOk hd op') ∧ roPc (callRo t l { x with cur := op } op).2.1.pc ∧
      (callRo t l { x with cur := op } op).1.wh ≠ some t ∧ (callRo t l { x with cur := op } op).1.rh ≠ some t) := by
  cases op with
  | lockShared r w nrs nrm =>
    simp only [callRo, if_neg h]
    split
    · exact Or.inl ⟨_, rfl⟩
    · split
      · exact Or.inl ⟨_, rfl⟩
      · rename_i hn
        refine Or.inr ⟨.lockShared .no w nrs nrm, ?_, fun hd hh => hh, ?_, h, h2⟩
        · simp only [callOp, sharedEntry, if_neg h]
          rw [if_neg (by simpa using hn)]
        · simp [goto, roPc]
  | lockMutex w nrm => exact Or.inl ⟨_, rfl⟩
  | reserve => exact Or.inl ⟨_, rfl⟩
  | shared2mutex w => exact Or.inl ⟨_, rfl⟩
  | unlock ab ad =>
    refine Or.inr ⟨_, rfl, fun hd hh => hh, ?_⟩
    simp only [callRo, callOp, unlockEntry]
    rw [if_neg (by intro hc; exact h hc.1)]
    exact ⟨trivial, h, h2⟩
  | mutex2shared rsv nrs =>
    refine Or.inr ⟨_, rfl, fun hd hh => hh, ?_⟩
    simp only [callRo, callOp, m2sEntry]
    split
    · exact ⟨trivial, h, h2⟩
    · split <;> exact ⟨trivial, h, h2⟩
  | redeem w =>
    refine Or.inr ⟨_, rfl, fun hd hh => hh, ?_⟩
    simp only [callRo, callOp, redeemEntry]
    split <;> exact ⟨trivial, h, h2⟩
  | abandon =>
    refine Or.inr ⟨_, rfl, fun hd hh => hh, ?_⟩
    simp only [callRo, callOp, abandonEntry, if_neg h2]
    exact ⟨trivial, h, h2⟩

theorem RoInv.init (n : Nat) : RoInv n {} := ⟨Inv.init n, fun t h => by cases h⟩

theorem inv_owns {n : Nat} {s : Sys} {t : Tid} (i : Inv n s) (hm : ¬ (s.th t).mrc > 0) :
    s.l.wh ≠ some t ∧ s.l.rh ≠ some t := by
  have ti := i.ti t
  have hm' := ti.mrc
  have hr : s.l.rh ≠ some t := by
    intro hc
    rw [if_neg (by simp [hc]), if_pos hc] at hm'
    omega
  refine ⟨?_, hr⟩
  intro hc
  have h1 := (ti.own hc hr).2
  rw [if_pos ⟨hc, hr⟩, if_neg hr] at hm'
  omega

theorem RoInv.step {n : Nat} {y y' : SysRo} {t : Tid} {c : ChoiceRo} (i : RoInv n y) (ht : t < n) (hok : ∀ k, c = .lock k → StepOk y.s t k)
    (hs : stepRo y t c = some y') : RoInv n y' := by
  cases c with
  | setRo =>
    simp only [stepRo] at hs
    split at hs
    · rename_i hp
      split at hs
      · cases hs; exact i
      · rename_i hm
        cases hs
        refine ⟨i.inv, ?_⟩
        intro u hu
        by_cases hut : u = t
        · subst hut
          have := inv_owns i.inv hm
          exact ⟨this.1, this.2, by rw [hp]; trivial⟩
        · simp only [upd, if_neg hut] at hu
          exact i.ro u hu
    · cases hs
  | setRw =>
    simp only [stepRo] at hs
    split at hs
    · split at hs
      · cases hs; exact i
      · cases hs
        refine ⟨i.inv, ?_⟩
        intro u hu
        by_cases hut : u = t
        · subst hut; simp [upd] at hu
        · simp only [upd, if_neg hut] at hu
          exact i.ro u hu
    · cases hs
  | lock k =>
    have hst := hok k rfl
    -- the step as one of the plain system, or a refusal
    have key : (∃ k', StepOk y.s t k' ∧ WS.RW.step y.s t k' = some y'.s ∧ y'.ro = y.ro ∧
          (y.ro t = true → y'.s.l.wh ≠ some t ∧ y'.s.l.rh ≠ some t ∧ roPc (y'.s.th t).pc)) ∨
        (∃ op e, (y.s.th t).pc = .idle ∧ y.ro t = true ∧ y'.ro = y.ro ∧ y'.s = commit y.s t (fin y.s.l { y.s.th t with cur := op } (.err e))) := by
      cases k with
      | call op =>
        simp only [stepRo] at hs
        split at hs
        · rename_i hp
          cases hs
          cases hro : y.ro t with
          | false =>
            left
            refine ⟨.call op, hst, ?_, rfl, fun h => by cases h⟩
            simp only [WS.RW.step, tstep, if_pos hp, Option.map_some]
            rfl
          | true =>
            obtain ⟨h1, h2, _⟩ := i.ro t hro
            rcases callRo_cases (x := y.s.th t) (op := op) h1 h2 with ⟨e, he⟩ | ⟨op', he, hcl, h3, h4, h5⟩
            · right
              exact ⟨op, e, hp, rfl, rfl, by simp only [if_true]; rw [he]⟩
            · left
              refine ⟨.call op', hcl _ hst, ?_, rfl, fun _ => ⟨h4, h5, ?_⟩⟩
              · simp only [WS.RW.step, tstep, if_pos hp, Option.map_some, if_true]
                rw [he]
              · simp only [commit, upd, if_true]; exact h3
        · cases hs
      | run =>
        left
        simp only [stepRo] at hs
        cases he : WS.RW.step y.s t .run with
        | none => rw [he] at hs; cases hs
        | some s' =>
          rw [he] at hs
          cases hs
          refine ⟨.run, hst, he, rfl, ?_⟩
          intro hro
          obtain ⟨h1, h2, h3⟩ := i.ro t hro
          unfold WS.RW.step at he
          cases ho : tstep t y.s.l (y.s.th t) .run with
          | none => rw [ho] at he; cases he
          | some o =>
            rw [ho] at he
            have he := Option.some.inj he
            have := own_without h1 h2 h3 (by intro op hc; cases hc) ho
            rw [← he]
            refine ⟨this.1, this.2.1, ?_⟩
            simp only [commit, upd, if_true]; exact this.2.2
      | fail =>
        left
        simp only [stepRo] at hs
        cases he : WS.RW.step y.s t .fail with
        | none => rw [he] at hs; cases hs
        | some s' =>
          rw [he] at hs
          cases hs
          refine ⟨.fail, hst, he, rfl, ?_⟩
          intro hro
          obtain ⟨h1, h2, h3⟩ := i.ro t hro
          unfold WS.RW.step at he
          cases ho : tstep t y.s.l (y.s.th t) .fail with
          | none => rw [ho] at he; cases he
          | some o =>
            rw [ho] at he
            have he := Option.some.inj he
            have := own_without h1 h2 h3 (by intro op hc; cases hc) ho
            rw [← he]
            refine ⟨this.1, this.2.1, ?_⟩
            simp only [commit, upd, if_true]; exact this.2.2
    rcases key with ⟨k', hk', hstep, hro, hown⟩ | ⟨op, e, hp, hro, hro', he⟩
    · refine ⟨i.inv.step ht hk' hstep, ?_⟩
      intro u hu
      rw [hro] at hu
      by_cases hut : u = t
      · subst hut; exact hown hu
      · obtain ⟨h1, h2, h3⟩ := i.ro u hu
        obtain ⟨h4, h5, h6⟩ := others_without i.inv ht hk' hstep hut ⟨h1, h2⟩
        exact ⟨h4, h5, by rw [h6]; exact h3⟩
    · refine ⟨by rw [he]; exact i.inv.refuse ht hp op e, ?_⟩
      intro u hu
      rw [hro'] at hu
      obtain ⟨h1, h2, h3⟩ := i.ro u hu
      rw [he]
      refine ⟨h1, h2, ?_⟩
      by_cases hut : u = t
      · subst hut; simp [commit, upd, fin, roPc]
      · simp only [commit, upd, if_neg hut]; exact h3

theorem roInv_of_reach {n : Nat} {y : SysRo} (h : ReachRo n y) : RoInv n y := by
  induction h with
  | init => exact .init n
  | step _ ht hok hs ih => exact ih.step ht hok hs

end WS.RW
