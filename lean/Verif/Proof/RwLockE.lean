import Verif.Proof.RwLockD
/-
Consequences of the invariant of the readers/writer lock.
-/
namespace WS.RW
open Spec

/-! ### executing a concrete schedule -/

instance (h : Hold) (op : Op) : Decidable (ClientOk h op) := by
  cases op <;> simp only [ClientOk] <;> infer_instance
instance (l : Lock) (p : Pc) : Decidable (TimeoutOk l p) := by
  cases p <;> simp only [TimeoutOk] <;> infer_instance
instance (s : Sys) (t : Tid) (c : Choice) : Decidable (CallerOk s t c) := by
  cases c <;> simp only [CallerOk] <;> infer_instance
instance (s : Sys) (t : Tid) (c : Choice) : Decidable (StepOk s t c) := by
  cases c <;> simp only [StepOk] <;> infer_instance

/-- Run a schedule of `n` threads, stopping if a step is impossible or breaks `P`. -/
def exec (P : Sys → Tid → Choice → Prop) [∀ s t c, Decidable (P s t c)] (n : Nat) : Sys → List (Tid × Choice) → Option Sys
  | s, [] => some s
  | s, (t, c) :: rest =>
    if t < n ∧ P s t c then
      match step s t c with
      | some s' => exec P n s' rest
      | none => none
    else none

theorem exec_reach {P : Sys → Tid → Choice → Prop} [∀ s t c, Decidable (P s t c)] {n : Nat} {w : List (Tid × Choice)}
    {s s' : Sys} (h : ReachP P n s) (he : exec P n s w = some s') : ReachP P n s' := by
  induction w generalizing s with
  | nil => cases he; exact h
  | cons a rest ih =>
    obtain ⟨t, c⟩ := a
    simp only [exec] at he
    split at he
    · rename_i hp
      split at he
      · rename_i s1 hs
        exact ih (.step h hp.1 hp.2 hs) he
      · cases he
    · cases he

theorem reachP_reach {n : Nat} {s : Sys} (h : ReachP StepOk n s) : Reach n s := by
  induction h with
  | init => exact .init
  | step _ ht hp hs ih => exact .step ih ht hp hs

/-- The state after a schedule that does not get stuck. -/
def after (P : Sys → Tid → Choice → Prop) [∀ s t c, Decidable (P s t c)] (n : Nat) (w : List (Tid × Choice)) : Sys :=
  (exec P n {} w).getD {}

theorem after_reach {P : Sys → Tid → Choice → Prop} [∀ s t c, Decidable (P s t c)] {n : Nat} {w : List (Tid × Choice)} :
    ReachP P n (after P n w) := by
  unfold after
  cases h : exec P n {} w with
  | none => exact .init
  | some s => exact exec_reach .init h

/-! ### no deadlines, no harmful expiry -/

/-- A program point of a call without deadline. -/
def untimedPc : Pc → Prop
  | .shCS _ w | .shWait _ w | .mxCS w | .mxWait w | .rdCS w _ | .rdWait w _ | .smCS w _ | .smWait w _ => w ≠ .timed
  | .shTimed _ | .mxTimed | .rdTimed _ | .smTimed _ => False
  | _ => True

theorem untimed_fin {l : Lock} {x : Thr} {r : Res} : untimedPc (fin l x r).2.1.pc := trivial
theorem untimed_promoted {l : Lock} {x : Thr} {k : Bool} : untimedPc (promoted l x k).2.1.pc := by
  cases k <;> exact trivial

theorem untimed_redeemEntry {t : Tid} {l : Lock} {x : Thr} {w : Wait} {k : Bool} (h : w ≠ .timed) :
    untimedPc (redeemEntry t l x w k).2.1.pc := by
  unfold redeemEntry; split
  · exact trivial
  · exact h
theorem untimed_s2mEntry {t : Tid} {l : Lock} {x : Thr} {w : Wait} {k : Bool} (h : w ≠ .timed) :
    untimedPc (s2mEntry t l x w k).2.1.pc := by
  unfold s2mEntry; split
  · split
    · exact untimed_promoted
    · exact trivial
  · split
    · exact untimed_redeemEntry h
    · exact h
  · exact trivial
theorem untimed_mutexEntry {t : Tid} {l : Lock} {x : Thr} {w : Wait} {b : Bool} (h : w ≠ .timed) :
    untimedPc (mutexEntry t l x w b).2.1.pc := by
  unfold mutexEntry; split
  · split
    · split <;> exact trivial
    · exact h
  · split
    · split
      · exact trivial
      · exact untimed_redeemEntry h
    · split
      · exact untimed_s2mEntry h
      · exact h
  · exact h

theorem untimed_tstep {t : Tid} {l : Lock} {x : Thr} {c : Choice} {o : Out} (hx : untimedPc x.pc)
    (hc : ∀ op, c = .call op → Untimed op) (ho : tstep t l x c = some o) : untimedPc o.2.1.pc := by
  cases c with
  | call op =>
    simp only [tstep] at ho
    split at ho
    · cases ho
      have hu := hc op rfl
      cases op with
      | lockShared r w nrs nrm =>
        simp only [callOp, sharedEntry]
        split
        · exact untimed_mutexEntry hu
        · split
          · exact trivial
          · exact hu
      | lockMutex w nrm => exact untimed_mutexEntry hu
      | unlock ab ad => simp only [callOp, unlockEntry]; split <;> exact trivial
      | mutex2shared a b =>
        simp only [callOp, m2sEntry]
        split
        · exact trivial
        · split <;> exact trivial
      | reserve => simp only [callOp, reserveEntry]; split <;> exact trivial
      | redeem w => exact untimed_redeemEntry hu
      | abandon => simp only [callOp, abandonEntry]; split <;> exact trivial
      | shared2mutex w => exact untimed_s2mEntry hu
    · cases ho
  | fail =>
    simp only [tstep] at ho
    have hsf : ∀ w, semFail l x w = some o → untimedPc o.2.1.pc := by
      intro w h; cases w <;> cases h <;> exact trivial
    unfold failStep at ho
    split at ho
    · exact hsf _ ho
    · exact hsf _ ho
    · exact hsf _ ho
    · exact hsf _ ho
    all_goals first
      | (cases ho; done)
      | (rename_i e; rw [e] at hx; exact absurd rfl hx)
  | run =>
    simp only [tstep] at ho
    unfold runStep at ho
    split at ho <;> rename_i e <;> rw [e] at hx
    · cases ho
    · cases ho
      simp only [sharedCS]
      split
      · split
        · exact trivial
        · exact hx
      · split
        · exact trivial
        · split <;> exact trivial
    · split at ho
      · cases ho; simp only [sharedWoken]; split <;> exact trivial
      · cases ho
    · cases ho; exact hx.elim
    · cases ho
      simp only [sharedResv]
      split
      · split <;> exact trivial
      · simp only [reserveEntry]; split <;> exact trivial
    · cases ho
      simp only [sharedResvCS]
      split
      · split <;> exact trivial
      · exact trivial
      · exact trivial
    · cases ho
      simp only [sharedUnlockCS]
      split <;> exact trivial
    · cases ho
      simp only [mutexCS]
      split
      · split
        · exact trivial
        · exact hx
      · split <;> exact trivial
    · split at ho
      · cases ho; exact trivial
      · cases ho
    · cases ho; exact hx.elim
    · cases ho; exact trivial
    · cases ho; exact trivial
    · cases ho; exact trivial
    · cases ho
      simp only [m2sCS]
      split
      · exact trivial
      · split
        · exact trivial
        · split
          · exact trivial
          · split <;> exact trivial
    · cases ho; exact trivial
    · cases ho
      simp only [redeemCS]
      split
      · exact trivial
      · split
        · exact trivial
        · split
          · exact trivial
          · split
            · exact trivial
            · split
              · exact untimed_promoted
              · split
                · exact trivial
                · exact hx
    · split at ho
      · cases ho; exact trivial
      · cases ho
    · cases ho; exact hx.elim
    · cases ho; exact untimed_promoted
    · cases ho; simp only [abandonCS]; split <;> exact trivial
    · cases ho
      simp only [s2mCS]
      split
      · exact trivial
      · split
        · exact trivial
        · split
          · exact untimed_promoted
          · split
            · exact trivial
            · exact hx
    · split at ho
      · cases ho; exact trivial
      · cases ho
    · cases ho; exact hx.elim
    · cases ho; exact untimed_promoted

theorem untimed_timeoutOk {l : Lock} {p : Pc} (h : untimedPc p) : TimeoutOk l p := by
  cases p <;> first | exact trivial | exact h.elim

/-- Without deadlines every caller-correct history satisfies the hypothesis on expiring waits. -/
theorem untimed_reach {n : Nat} {s : Sys} (h : ReachP UntimedOk n s) : Reach n s ∧ ∀ u, untimedPc (s.th u).pc := by
  induction h with
  | init => exact ⟨.init, fun _ => trivial⟩
  | @step s s' t c _ ht hp hs ih =>
    refine ⟨.step ih.1 ht ?_ hs, ?_⟩
    · cases c with
      | call op => exact hp.1
      | run => exact untimed_timeoutOk (ih.2 t)
      | fail => trivial
    · intro u
      unfold step at hs
      cases ho : tstep t s.l (s.th t) c with
      | none => rw [ho] at hs; cases hs
      | some o =>
        rw [ho] at hs
        have hs := Option.some.inj hs
        subst hs
        by_cases hu : u = t
        · subst hu
          simp only [commit, upd, if_true]
          exact untimed_tstep (ih.2 u) (fun op hc => by subst hc; exact hp.2) ho
        · simp only [commit, upd, hu, if_false]
          exact ih.2 u

/-! ### what a finished call means -/

theorem exclusive_of_inv {n : Nat} {s : Sys} (i : Inv n s) : Exclusive s := by
  intro t u hne hex
  -- the exclusive holder owns the lock
  have own : ∀ v, 0 < (holds s.log v).ex → s.l.wh = some v ∧ s.l.rh ≠ some v := by
    intro v hv
    have h := i.hl v
    by_cases hp : isPend (s.th v).pc
    · have := (h.1 hp).2.1; omega
    · by_cases hi : (s.th v).pc = .incW
      · have := (h.2.1 hi).1; omega
      · have h3 := (h.2.2 hp hi).2.1
        by_cases hc : s.l.wh = some v ∧ s.l.rh ≠ some v
        · exact hc
        · rw [if_neg hc] at h3; omega
  have ht := own t hex
  have hex0 : (holds s.log u).ex = 0 := by
    by_cases hz : (holds s.log u).ex = 0
    · exact hz
    · have := (own u (by omega)).1
      rw [ht.1] at this
      exact absurd (Option.some.inj this) hne
  refine ⟨hex0, ?_⟩
  have hst := (i.ti t).wh ht.1
  have hwu : s.l.wh ≠ some u := by rw [ht.1]; intro hc; exact hne (Option.some.inj hc)
  have hd : (s.th u).dep = 0 := by
    by_cases hu : u < n
    · exact (i.ctx hu).oEx hst hwu
    · rw [i.out u (Nat.le_of_not_lt hu)]
  have h := i.hl u
  by_cases hp : isPend (s.th u).pc
  · have := (h.1 hp).1; omega
  · by_cases hi : (s.th u).pc = .incW
    · have := (i.ti u).pc
      simp only [PcOk, hi] at this
      exact absurd this.2.1 hwu
    · have := (h.2.2 hp hi).1; omega


/-! ### the call a thread is in -/

theorem cur_fin {l : Lock} {x : Thr} {r : Res} : (fin l x r).2.1.cur = x.cur := rfl
theorem cur_goto {l : Lock} {x : Thr} {p : Pc} : (goto l x p).2.1.cur = x.cur := rfl
theorem cur_promoted {l : Lock} {x : Thr} {k : Bool} : (promoted l x k).2.1.cur = x.cur := by cases k <;> rfl

theorem cur_redeemEntry {t : Tid} {l : Lock} {x : Thr} {w : Wait} {k : Bool} : (redeemEntry t l x w k).2.1.cur = x.cur := by
  unfold redeemEntry; split <;> rfl
theorem cur_s2mEntry {t : Tid} {l : Lock} {x : Thr} {w : Wait} {k : Bool} : (s2mEntry t l x w k).2.1.cur = x.cur := by
  unfold s2mEntry; split
  · split
    · exact cur_promoted
    · rfl
  · split
    · exact cur_redeemEntry
    · rfl
  · rfl
theorem cur_mutexEntry {t : Tid} {l : Lock} {x : Thr} {w : Wait} {b : Bool} : (mutexEntry t l x w b).2.1.cur = x.cur := by
  unfold mutexEntry; split
  · split
    · split <;> rfl
    · rfl
  · split
    · split
      · rfl
      · exact cur_redeemEntry
    · split
      · exact cur_s2mEntry
      · rfl
  · rfl

theorem cur_callOp {t : Tid} {l : Lock} {x : Thr} {op : Op} : (callOp t l x op).2.1.cur = x.cur := by
  cases op with
  | lockShared r w nrs nrm =>
    simp only [callOp, sharedEntry]
    split
    · exact cur_mutexEntry
    · split <;> rfl
  | lockMutex w nrm => exact cur_mutexEntry
  | unlock ab ad => simp only [callOp, unlockEntry]; split <;> rfl
  | mutex2shared a b =>
    simp only [callOp, m2sEntry]
    split
    · rfl
    · split <;> rfl
  | reserve => simp only [callOp, reserveEntry]; split <;> rfl
  | redeem w => exact cur_redeemEntry
  | abandon => simp only [callOp, abandonEntry]; split <;> rfl
  | shared2mutex w => exact cur_s2mEntry

theorem cur_untrack {x : Thr} : (untrack x).cur = x.cur := by unfold untrack; split <;> rfl
theorem cur_unlockAbandon {t : Tid} {l : Lock} {x : Thr} {ab : Bool} : (unlockAbandon t l x ab).2.cur = x.cur := by
  unfold unlockAbandon; split <;> rfl
theorem cur_unlockCS {t : Tid} {l : Lock} {x : Thr} {ab ad : Bool} : (unlockCS t l x ab ad).2.1.cur = x.cur := by
  unfold unlockCS
  split
  · split
    · rfl
    · simp only [cur_untrack, cur_unlockAbandon]
  · split
    · rfl
    · simp only
      repeat' split
      all_goals rfl
  · rfl
theorem cur_reserveCS {t : Tid} {l : Lock} {x : Thr} : (reserveCS t l x).2.1.cur = x.cur := by
  unfold reserveCS
  repeat' split
  all_goals rfl

theorem cur_tstep {t : Tid} {l : Lock} {x : Thr} {c : Choice} {o : Out} (ho : tstep t l x c = some o) :
    o.2.1.cur = (match c with | .call op => op | _ => x.cur) := by
  cases c with
  | call op =>
    simp only [tstep] at ho
    split at ho
    · cases ho; exact cur_callOp
    · cases ho
  | fail =>
    simp only [tstep] at ho
    have hsf : ∀ w, semFail l x w = some o → o.2.1.cur = x.cur := by
      intro w h; cases w <;> cases h <;> rfl
    unfold failStep at ho
    split at ho
    · exact hsf _ ho
    · exact hsf _ ho
    · exact hsf _ ho
    · exact hsf _ ho
    all_goals first
      | (cases ho; done)
      | (cases ho; rfl)
  | run =>
    simp only [tstep] at ho
    unfold runStep at ho
    split at ho
    · cases ho
    · cases ho
      simp only [sharedCS]
      repeat' split
      all_goals rfl
    · split at ho
      · cases ho; simp only [sharedWoken]; split <;> rfl
      · cases ho
    · cases ho; simp only [sharedTimed]; split <;> rfl
    · cases ho
      simp only [sharedResv, reserveEntry]
      repeat' split
      all_goals rfl
    · cases ho
      have := cur_reserveCS (t := t) (l := l) (x := x)
      simp only [sharedResvCS]
      split <;> rename_i e <;> rw [e] at this
      · split <;> exact this
      · exact this
      · exact this
    · cases ho
      have := cur_unlockCS (t := t) (l := l) (x := x) (ab := false) (ad := false)
      simp only [sharedUnlockCS]
      split <;> rename_i e <;> rw [e] at this <;> exact this
    · cases ho
      simp only [mutexCS]
      repeat' split
      all_goals rfl
    · split at ho
      · cases ho; rfl
      · cases ho
    · cases ho; simp only [mutexTimed]; split <;> rfl
    · cases ho; rfl
    · cases ho; rfl
    · cases ho; exact cur_unlockCS
    · cases ho
      simp only [m2sCS]
      repeat' split
      all_goals rfl
    · cases ho; exact cur_reserveCS
    · cases ho
      simp only [redeemCS]
      repeat' split
      all_goals first | rfl | exact cur_promoted
    · split at ho
      · cases ho; rfl
      · cases ho
    · cases ho; simp only [redeemTimed]; split
      · exact cur_promoted
      · rfl
    · cases ho
      simp only [ownR2W]
      rw [cur_promoted]; split <;> rfl
    · cases ho; simp only [abandonCS]; split <;> rfl
    · cases ho
      simp only [s2mCS]
      repeat' split
      all_goals first | rfl | exact cur_promoted
    · split at ho
      · cases ho; rfl
      · cases ho
    · cases ho; simp only [s2mTimed]; split
      · rw [cur_promoted]; split <;> rfl
      · rfl
    · cases ho
      simp only [ownR2W]
      rw [cur_promoted]; split <;> rfl

/-- A caller-correct unlock never fails. -/
theorem unlock_ok {t : Tid} {l : Lock} {x : Thr} {h : Hold} {T : Tot} {o : Out} {ch : Choice} (c : Ctx t l x T)
    (hok : match ch with | .call op => ClientOk h op | .run => TimeoutOk l x.pc | .fail => True)
    (ho : tstep t l x ch = some o) {ab ad : Bool} (hcur : o.2.1.cur = .unlock ab ad) {r : Res} (hr : o.2.2 = some r) :
    r = .ok := by
  have hc := cur_tstep ho
  rw [hcur] at hc
  cases ch with
  | call op =>
    simp only at hc
    subst hc
    simp only [tstep] at ho
    split at ho
    · cases ho
      simp only [callOp, unlockEntry] at hr
      split at hr
      · cases hr; rfl
      · cases hr
    · cases ho
  | fail =>
    simp only at hc
    have hpk := c.ti.pc
    simp only [tstep] at ho
    unfold failStep at ho
    split at ho <;> rename_i e <;> simp only [PcOk, e, ← hc] at hpk
    all_goals first
      | (cases ho; done)
      | (cases ho; cases hr; done)
      | (exact absurd hpk.1 id)
      | (rename_i k _; cases k <;> exact absurd hpk.1 (by simp [isPromo, isLM, isPr]))
  | run =>
    simp only at hc
    have hpk := c.ti.pc
    simp only [tstep] at ho
    by_cases hp : ∃ a b, x.pc = .unCS a b
    · obtain ⟨a, b, hp⟩ := hp
      simp only [PcOk, hp] at hpk
      have c0 := c.toIdle (by rw [hp]; rfl) (by rw [hp]; rfl) (by rw [hp]; rfl) (by rw [hp]; rfl) (by rw [hp]; rfl)
      obtain ⟨l', x', he, -⟩ := unlockCS_holder c0 rfl a b hpk.2.1 hpk.2.2
      rw [unlockCS_pc] at he
      have e3 : (unlockCS t l x a b).2.2 = .ok := by
        rw [Prod.mk.injEq, Prod.mk.injEq] at he; exact he.2.2
      unfold runStep at ho
      rw [hp] at ho
      cases ho
      simp only [fin3, fin, e3] at hr
      exact (Option.some.inj hr).symm
    · exfalso
      unfold runStep at ho
      split at ho <;> rename_i e <;> simp only [PcOk, e, ← hc] at hpk
      all_goals first
        | (cases ho; done)
        | (exact hpk)
        | (exact hpk.1)
        | (cases hpk.1; done)
        | (rename_i k _; cases k <;> simp [isPromo, isLM, isPr] at hpk; done)
        | (exact hp ⟨_, _, e⟩)

theorem step_some {s s' : Sys} {t : Tid} {c : Choice} (h : step s t c = some s') :
    ∃ o, tstep t s.l (s.th t) c = some o ∧ s' = commit s t o := by
  unfold step at h
  cases ho : tstep t s.l (s.th t) c with
  | none => rw [ho] at h; cases h
  | some o => rw [ho] at h; exact ⟨o, rfl, (Option.some.inj h).symm⟩

theorem unlock_log {n : Nat} {s : Sys} (h : Reach n s) : ∀ e ∈ s.log, ∀ ab ad, e.op = .unlock ab ad → e.res = .ok := by
  induction h with
  | init => intro e he; cases he
  | @step s s' t c hr ht hok hs ih =>
    obtain ⟨o, ho, rfl⟩ := step_some hs
    have i := inv_of_reach hr
    intro e he ab ad hop
    simp only [commit] at he
    split at he
    · exact ih e he ab ad hop
    · rename_i r hres
      rcases List.mem_cons.1 he with rfl | he
      · exact unlock_ok (h := holds s.log t) (i.ctx ht) (by cases c <;> exact hok) ho hop hres
      · exact ih e he ab ad hop

end WS.RW
