import Verif.Proof.RwLockF
/-
Properties C30 (mutual exclusion), C31 (recursion balances) and C32 (promotion and reservation) of
the readers/writer lock: any number of threads, every schedule of their steps.
-/
namespace WS.Props
open WS.RW WS.RW.Spec

/-! ### shorthands for concrete schedules -/

/-- Thread `t` calls `op`, then runs `k` steps. -/
def rwCall (t : Tid) (op : Op) (k : Nat) : List (Tid × Choice) := (t, .call op) :: List.replicate k (t, .run)
def rwShared : Op := .lockShared .no .block false false
def rwMutex : Op := .lockMutex .block false
def rwUnlock : Op := .unlock false false

/-! ## C30 -/

/-- C30, for callers that meet their obligations and expired waits that are harmless (`TimeoutOk`):
nobody holds the lock in any way while another thread holds it exclusively.  Missing from the full
claim: expired waits in general, for which it is false (`C30_writer_timeout_breaks_exclusion`), and
callers that promote without holding (`C30_promotion_by_stranger_breaks_exclusion`). -/
theorem C30_exclusion_partial {n : Nat} {s : Sys} (h : Reach n s) : Exclusive s := exclusive_of_inv (inv_of_reach h)

/-- A reachable state in which a writer holds the lock twice while one reader and one writer wait. -/
def rwBusy : List (Tid × Choice) :=
  rwCall 0 rwMutex 1 ++ rwCall 1 rwShared 1 ++ rwCall 2 rwMutex 1 ++ rwCall 0 rwShared 0
example : Reach 3 (after StepOk 3 rwBusy) ∧ holds (after StepOk 3 rwBusy).log 0 = ⟨0, 2, false⟩ ∧
    (after StepOk 3 rwBusy).l.rw = 1 ∧ (after StepOk 3 rwBusy).l.ww = 1 :=
  ⟨reachP_reach after_reach, by decide, by decide, by decide⟩

/-- C30 for callers that never pass a deadline (they wait for ever or not at all), with no hypothesis
about the inside of the lock. -/
theorem C30_exclusion_untimed_partial {n : Nat} {s : Sys} (h : ReachP UntimedOk n s) : Exclusive s :=
  C30_exclusion_partial (untimed_reach h).1
instance (s : Sys) (t : Tid) (c : Choice) : Decidable (UntimedOk s t c) := by
  cases c <;> simp only [UntimedOk] <;> first | infer_instance | skip
  rename_i op
  cases op <;> simp only [Untimed] <;> infer_instance
example : ReachP UntimedOk 3 (after UntimedOk 3 rwBusy) ∧ (after UntimedOk 3 rwBusy).log.length = 2 :=
  ⟨after_reach, by decide⟩

/-- Every grant of the exclusive lock, by whichever call, leaves the caller the only holder. -/
theorem C30_grant_partial {n : Nat} {s : Sys} (h : Reach n s) {t : Tid} {op : Op} {log : List Ev}
    (hlog : s.log = ⟨t, op, .ok⟩ :: log) (hop : isLM op ∨ isPr op) :
    0 < (holds s.log t).ex ∧ ∀ u, u ≠ t → (holds s.log u).ex = 0 ∧ (holds s.log u).sh = 0 := by
  have key : 0 < (holds s.log t).ex := by
    rcases hop with hop | hop
    · rw [hlog]; simp only [holds, if_true]; rw [hold_lm_ok _ hop]; simp
    · -- find the step that logged it
      have gen : ∀ {s : Sys}, Reach n s → ∀ log, s.log = ⟨t, op, .ok⟩ :: log → 0 < (holds s.log t).ex := by
        intro s hr
        induction hr with
        | init => intro log hl; cases hl
        | @step s s' t' c hr ht hok hs ih =>
          intro log hl
          obtain ⟨o, ho, rfl⟩ := step_some hs
          cases hres : o.2.2 with
          | none =>
            have hlg : (commit s t' o).log = s.log := by simp only [commit, hres]
            rw [hlg] at hl ⊢
            exact ih log hl
          | some r =>
            have hlg : (commit s t' o).log = ⟨t', o.2.1.cur, r⟩ :: s.log := by simp only [commit, hres]
            rw [hlg] at hl
            have he := (List.cons.inj hl).1
            have h1 : t' = t := congrArg Ev.tid he
            have h2 : o.2.1.cur = op := congrArg Ev.op he
            have h3 : r = .ok := congrArg Ev.res he
            subst h1 h3
            have hp := promo_ok ((inv_of_reach hr).ctx ht) (by intro hc; subst hc; exact hok) ho (by rw [h2]; exact hop) hres
            have i' := inv_of_reach (.step hr ht hok hs)
            have hown := ((i'.ti t').own hp.1 hp.2).2
            by_cases hpend : isPend ((commit s t' o).th t').pc
            · exfalso
              have := (i'.ti t').pc
              revert hpend
              cases e : ((commit s t' o).th t').pc <;> intro hpend <;> first
                | exact hpend
                | (simp only [PcOk, e] at this; exact this.2.1 hp.1)
            · by_cases hinc : ((commit s t' o).th t').pc = .incW
              · exfalso
                have := (i'.ti t').pc
                simp only [PcOk, hinc] at this
                have hcur : ((commit s t' o).th t').cur = op := by simp only [commit, upd, if_true]; exact h2
                rw [hcur] at this
                revert hop
                have h0 := this.1
                revert h0
                cases op <;> simp [isLM, isPr]
              · have h4 := ((i'.hl t').2.2 hpend hinc).2.1
                have hpp : (commit s t' o).l.wh = some t' ∧ (commit s t' o).l.rh ≠ some t' := hp
                rw [if_pos hpp] at h4
                have hown' : 1 ≤ (commit s t' o).l.hc := hown
                omega
      exact gen h log hlog
  exact ⟨key, fun u hu => C30_exclusion_partial h t u (Ne.symm hu) key⟩
/-- A reader with two nested holds promotes itself after the other reader left. -/
def rwPromote : List (Tid × Choice) :=
  rwCall 0 rwShared 1 ++ rwCall 1 rwShared 1 ++ rwCall 0 rwShared 1 ++ rwCall 0 (.shared2mutex .block) 1 ++
  rwCall 1 rwUnlock 1 ++ [(0, .run), (0, .run)]
example : Reach 2 (after StepOk 2 rwPromote) ∧ holds (after StepOk 2 rwPromote).log 0 = ⟨0, 2, false⟩ ∧
    (after StepOk 2 rwPromote).log.head? = some ⟨0, .shared2mutex .block, .ok⟩ :=
  ⟨reachP_reach after_reach, by decide, by decide⟩

/-- Finding: C30 is false.  Two readers hold the lock, a writer's deadline expires while a third
reader queues behind it; the next unlock posts one token too many (util.c:2926), and later a reader
walks past a writer that holds the lock.  All callers meet their obligations. -/
def rwTimeout : List (Tid × Choice) :=
  rwCall 0 rwShared 1 ++ rwCall 3 rwShared 1 ++ rwCall 1 (.lockMutex .timed false) 1 ++ rwCall 2 rwShared 1 ++
  [(1, .fail), (1, .run)] ++ rwCall 0 rwUnlock 1 ++ [(2, .run)] ++ rwCall 3 rwUnlock 1 ++ rwCall 2 rwUnlock 1 ++
  rwCall 1 rwMutex 1 ++ rwCall 2 rwShared 2
theorem C30_writer_timeout_breaks_exclusion : ∃ s, ReachP CallerOk 4 s ∧ ¬ Exclusive s := by
  refine ⟨after CallerOk 4 rwTimeout, after_reach, fun h => ?_⟩
  have h1 : holds (after CallerOk 4 rwTimeout).log 1 = ⟨0, 1, false⟩ := by decide
  have h2 : holds (after CallerOk 4 rwTimeout).log 2 = ⟨1, 0, false⟩ := by decide
  have := h 1 2 (by decide) (by rw [h1]; decide)
  rw [h2] at this
  exact absurd this.2 (by decide)

/-- Finding: `shared2mutex` does not check that its caller holds the lock.  A stranger that calls it
while exactly one reader holds the lock becomes the exclusive owner beside that reader (and its next
`lock_mutex` is granted as a recursion). -/
def rwStranger : List (Tid × Choice) := rwCall 0 rwShared 1 ++ rwCall 1 (.shared2mutex .now) 1 ++ rwCall 1 rwMutex 0
theorem C30_promotion_by_stranger_breaks_exclusion : ∃ s, ReachP (fun _ _ _ => True) 2 s ∧ ¬ Exclusive s := by
  refine ⟨after (fun _ _ _ => True) 2 rwStranger, after_reach, fun h => ?_⟩
  have h1 : holds (after (fun _ _ _ => True) 2 rwStranger).log 1 = ⟨0, 1, false⟩ := by decide
  have h2 : holds (after (fun _ _ _ => True) 2 rwStranger).log 0 = ⟨1, 0, false⟩ := by decide
  have := h 1 0 (by decide) (by rw [h1]; decide)
  rw [h2] at this
  exact absurd this.2 (by decide)

/-! ## C31 -/

/-- C31: a release by a thread that holds the lock always succeeds.  Together with `holds`, which
takes one hold away per successful release, `n` acquisitions need exactly `n` releases. -/
theorem C31_release_succeeds_partial {n : Nat} {s : Sys} (h : Reach n s) {e : Ev} (he : e ∈ s.log) {ab ad : Bool}
    (hop : e.op = .unlock ab ad) : e.res = .ok := unlock_log h e he ab ad hop
example : ∃ e ∈ (after StepOk 2 rwPromote).log, e.op = .unlock false false := ⟨⟨1, rwUnlock, .ok⟩, by decide, rfl⟩

/-- C31: the per-thread counters of the library are exactly the caller's nested holds. -/
theorem C31_counters_partial {n : Nat} {s : Sys} (h : Reach n s) {t : Tid} (hi : (s.th t).pc = .idle) :
    (s.th t).sc = (holds s.log t).sh ∧
    (s.th t).mrc = (holds s.log t).ex + (if (holds s.log t).resv = true then 1 else 0) := by
  have i := inv_of_reach h
  have h3 := (i.hl t).2.2 (by rw [hi]; exact id) (by rw [hi]; simp)
  have hti := i.ti t
  refine ⟨by rw [hti.sc, h3.1], ?_⟩
  rw [hti.mrc, h3.2.1]
  by_cases hr : s.l.rh = some t
  · rw [if_pos hr, if_pos (h3.2.2.2 ⟨hr, by rw [hi]; exact id⟩)]
  · rw [if_neg hr, if_neg (fun hc => hr (h3.2.2.1 hc).1)]
example : ((after StepOk 2 rwPromote).th 0).pc = .idle ∧ ((after StepOk 2 rwPromote).th 0).mrc = 2 := by decide

/-- C31: as long as a thread has not released as often as it acquired, another thread's exclusive
request is not granted. -/
theorem C31_nested_holds_block_writers_partial {n : Nat} {s : Sys} (h : Reach n s) {t u : Tid} (hne : u ≠ t)
    (hh : 0 < (holds s.log t).sh + (holds s.log t).ex) {op : Op} {log : List Ev}
    (hlog : s.log = ⟨u, op, .ok⟩ :: log) (hop : isLM op ∨ isPr op) : False := by
  have := (C30_grant_partial h hlog hop).2 t (Ne.symm hne)
  omega
/-- A schedule with two nested readers and a waiting writer (the hypotheses but for the grant). -/
def rwNested : List (Tid × Choice) := rwCall 0 rwShared 1 ++ rwCall 0 rwShared 1 ++ rwCall 1 rwMutex 1 ++ rwCall 0 rwUnlock 1
example : Reach 2 (after StepOk 2 rwNested) ∧ holds (after StepOk 2 rwNested).log 0 = ⟨1, 0, false⟩ ∧
    step (after StepOk 2 rwNested) 1 .run = none :=
  ⟨reachP_reach after_reach, by decide, by
    have : runStep 1 (after StepOk 2 rwNested).l ((after StepOk 2 rwNested).th 1) = none := by decide
    simp [step, tstep, this]⟩

/-- C31: when every thread has released what it acquired, the lock is as after initialisation: no
holder, no waiter, no reservation, no left-over token. -/
theorem C31_balanced_is_free_partial {n : Nat} {s : Sys} (h : Reach n s) (hi : ∀ u, u < n → (s.th u).pc = .idle)
    (hh : ∀ u, u < n → (holds s.log u).sh = 0 ∧ (holds s.log u).ex = 0) :
    s.l.st = .unlocked ∧ s.l.hc = 0 ∧ s.l.wh = none ∧ s.l.rh = none ∧ s.l.rw = 0 ∧ s.l.ww = 0 ∧
    s.l.semR = 0 ∧ s.l.semW = 0 ∧ s.l.semX = 0 := quiescent (inv_of_reach h) hi hh
def rwBalanced : List (Tid × Choice) := rwNested ++ rwCall 0 rwUnlock 1 ++ [(1, .run), (1, .run)] ++ rwCall 1 rwUnlock 1
example : (∀ u, u < 2 → ((after StepOk 2 rwBalanced).th u).pc = .idle) ∧ (after StepOk 2 rwBalanced).log.length = 6 := by
  constructor
  · intro u hu
    rcases Nat.lt_succ_iff.1 hu |> Nat.le_one_iff_eq_zero_or_eq_one.1 with rfl | rfl <;> decide
  · decide

/-- Then an exclusive try-lock succeeds. -/
theorem C31_free_lock_is_granted_partial {n : Nat} {s : Sys} (h : Reach n s) (hi : ∀ u, u < n → (s.th u).pc = .idle)
    (hh : ∀ u, u < n → (holds s.log u).sh = 0 ∧ (holds s.log u).ex = 0) {t : Tid} (ht : t < n) :
    ∃ s1 s2, step s t (.call (.lockMutex .now false)) = some s1 ∧ step s1 t .run = some s2 ∧
      s2.log = ⟨t, .lockMutex .now false, .ok⟩ :: s.log := by
  obtain ⟨h1, h2, h3, -⟩ := quiescent (inv_of_reach h) hi hh
  have e1 : step s t (.call (.lockMutex .now false)) = some (commit s t
      (goto s.l { s.th t with cur := .lockMutex .now false } (.mxCS .now))) := by
    simp [step, tstep, hi t ht, callOp, mutexEntry, h1]
  refine ⟨_, commit (commit s t (goto s.l { s.th t with cur := .lockMutex .now false } (.mxCS .now))) t
    (mutexCS t s.l { s.th t with cur := .lockMutex .now false, pc := .mxCS .now } .now), e1, ?_, ?_⟩
  · simp [step, tstep, commit, upd, goto, runStep]
  · simp [commit, goto, mutexCS, h1, h2, fin]

/-- C31, no lost wake-up: if no thread can take a step and some thread waits, then some thread has
returned from its last call and still holds the lock. -/
theorem C31_waiters_wait_for_a_holder_partial {n : Nat} {s : Sys} (h : Reach n s) (hn : ∀ u, step s u .run = none) {v : Tid}
    (hv : (s.th v).pc ≠ .idle) : ∃ t, t < n ∧ (s.th t).pc = .idle ∧ 0 < (holds s.log t).sh + (holds s.log t).ex :=
  stuck_holder (inv_of_reach h) hn hv
example : (∀ u, step (after StepOk 2 rwNested) u .run = none) ∧ ((after StepOk 2 rwNested).th 1).pc ≠ .idle := by
  refine ⟨fun u => ?_, by decide⟩
  have : runStep u (after StepOk 2 rwNested).l ((after StepOk 2 rwNested).th u) = none := by
    by_cases h0 : u = 0
    · subst h0; decide
    · by_cases h1 : u = 1
      · subst h1; decide
      · have i := inv_of_reach (reachP_reach (after_reach (P := StepOk) (n := 2) (w := rwNested)))
        rw [i.out u (by
          rcases Nat.lt_or_ge u 2 with h | h
          · rcases Nat.le_one_iff_eq_zero_or_eq_one.1 (Nat.lt_succ_iff.1 h) with h | h
            · exact absurd h h0
            · exact absurd h h1
          · exact h)]
        rfl
  simp [step, tstep, this]

/-- Finding: a writer whose deadline expires at the moment it is granted the lock gets `OK`, but the
lock does not record it as the owner (util.c:2080-2094): its release is refused with
`NOT_PERMITTED` and the lock stays exclusive for ever. -/
def rwLateGrant : List (Tid × Choice) :=
  rwCall 0 rwShared 1 ++ rwCall 1 (.lockMutex .timed false) 1 ++ [(1, .fail)] ++ rwCall 0 rwUnlock 1 ++ [(1, .run)] ++
  rwCall 1 rwUnlock 1
theorem C31_late_grant_cannot_be_released : ∃ s, ReachP CallerOk 2 s ∧
    s.log.take 3 = [⟨1, rwUnlock, .err .notPermitted⟩, ⟨1, .lockMutex .timed false, .ok⟩, ⟨0, rwUnlock, .ok⟩] ∧
    s.l.st = .exclusive :=
  ⟨after CallerOk 2 rwLateGrant, after_reach, by decide, by decide⟩

/-- Finding: a reader whose deadline expires at the moment it is granted the lock gets `OK`, but its
hold is not recorded in its thread context (util.c:1792-1803): the thread's own counter stays zero. -/
def rwLateReader : List (Tid × Choice) :=
  rwCall 0 rwMutex 1 ++ rwCall 1 (.lockShared .no .timed false false) 1 ++ [(1, .fail)] ++ rwCall 0 rwUnlock 1 ++ [(1, .run)]
theorem C31_late_reader_untracked : ∃ s, ReachP CallerOk 2 s ∧ (holds s.log 1).sh = 1 ∧ (s.th 1).pc = .idle ∧
    (s.th 1).sc = 0 ∧ s.l.hc = 1 :=
  ⟨after CallerOk 2 rwLateReader, after_reach, by decide, by decide, by decide, by decide⟩

/-- Finding: anybody may release a shared hold: in the shared state the release does not check that
its caller holds anything (util.c:2801-2867). -/
def rwForeign : List (Tid × Choice) := rwCall 0 rwShared 1 ++ rwCall 1 rwUnlock 1 ++ rwCall 1 rwMutex 1
theorem C31_stranger_releases_a_reader : ∃ s, ReachP (fun _ _ _ => True) 2 s ∧ (holds s.log 0).sh = 1 ∧
    s.log.take 2 = [⟨1, rwMutex, .ok⟩, ⟨1, rwUnlock, .ok⟩] :=
  ⟨after (fun _ _ _ => True) 2 rwForeign, after_reach, by decide, by decide⟩

/-! ## C32 -/

/-- C32: at most one thread has the reservation. -/
theorem C32_one_reservation_partial {n : Nat} {s : Sys} (h : Reach n s) {t u : Tid}
    (ht : (holds s.log t).resv = true) (hu : (holds s.log u).resv = true) : t = u :=
  (inv_of_reach h).resv_unique ht hu
/-- Thread 0 reserves; thread 1's attempts to reserve and to promote are refused. -/
def rwReserve : List (Tid × Choice) :=
  rwCall 0 rwShared 1 ++ rwCall 1 rwShared 1 ++ rwCall 0 .reserve 1 ++ rwCall 1 .reserve 1
example : Reach 2 (after StepOk 2 rwReserve) ∧ (holds (after StepOk 2 rwReserve).log 0).resv = true ∧
    (after StepOk 2 rwReserve).log.head? = some ⟨1, .reserve, .err .busy⟩ :=
  ⟨reachP_reach after_reach, by decide, by decide⟩

/-- C32: while one thread has the reservation, every other thread's attempt to reserve or to promote
ends in an error and leaves the lock as it was. -/
theorem C32_second_attempt_refused_partial {n : Nat} {s s' : Sys} (h : Reach n s) {t u : Tid} (hne : u ≠ t)
    (hu : (holds s.log u).resv = true) {c : Choice} (hs : step s t c = some s') {op : Op} {r : Res}
    (hlog : s'.log = ⟨t, op, r⟩ :: s.log) (hop : op = .reserve ∨ isS2 op) : (∃ e, r = .err e) ∧ s'.l = s.l :=
  resv_refused (inv_of_reach h) hne hu hs hlog hop

/-- C32: the error is `BUSY`, at once: the critical section of `reserve`, and that of `shared2mutex`
whether or not it is allowed to wait, returns in its first step. -/
theorem C32_second_attempt_busy_partial {n : Nat} {s : Sys} (h : Reach n s) {t u : Tid}
    (hu : (holds s.log u).resv = true) (hst : s.l.st = .shared) :
    ((s.th t).pc = .rsvCS → ∃ s', step s t .run = some s' ∧ s'.log = ⟨t, .reserve, .err .busy⟩ :: s.log ∧ s'.l = s.l) ∧
    (∀ w, (s.th t).pc = .smCS w false → ∃ s', step s t .run = some s' ∧ s'.log = ⟨t, (s.th t).cur, .err .busy⟩ :: s.log ∧ s'.l = s.l) := by
  have i := inv_of_reach h
  have hr : s.l.rh ≠ none := by
    rcases i.resv hu with h | h
    · rw [h]; simp
    · rw [hst] at h; cases h.1
  constructor
  · intro hp
    have hcur : (s.th t).cur = .reserve := by
      have := (i.ti t).pc; simp only [PcOk, hp] at this; exact this.1
    refine ⟨commit s t (fin3 (s.l, s.th t, .err .busy)), by simp [step, tstep, runStep, hp, reserveCS, hst, hr], ?_, rfl⟩
    simp [commit, fin3, fin, hcur]
  · intro w hp
    refine ⟨commit s t (fin s.l (s.th t) (.err .busy)), by simp [step, tstep, runStep, hp, s2mCS, hst, hr], ?_, rfl⟩
    simp [commit, fin]
example : ((after StepOk 2 (rwCall 0 rwShared 1 ++ rwCall 1 rwShared 1 ++ rwCall 0 .reserve 1 ++ rwCall 1 .reserve 0)).th 1).pc = .rsvCS ∧
    (after StepOk 2 (rwCall 0 rwShared 1 ++ rwCall 1 rwShared 1 ++ rwCall 0 .reserve 1 ++ rwCall 1 .reserve 0)).l.st = .shared := by decide

/-- C32: promotion (`redeem`, `shared2mutex`) is granted only when all other holders have left, and
keeps the caller's number of holds: afterwards the lock's own count is the number of nested holds
the caller had. -/
theorem C32_promotion_partial {n : Nat} {s : Sys} (h : Reach n s) {t : Tid} {op : Op} {log : List Ev}
    (hlog : s.log = ⟨t, op, .ok⟩ :: log) (hop : isPr op) (hi : (s.th t).pc = .idle) :
    (∀ u, u ≠ t → (holds s.log u).ex = 0 ∧ (holds s.log u).sh = 0) ∧
    s.l.wh = some t ∧ s.l.hc = (holds log t).sh + (holds log t).ex := by
  have hg := C30_grant_partial h hlog (Or.inr hop)
  have i := inv_of_reach h
  have h3 := ((i.hl t).2.2 (by rw [hi]; exact id) (by rw [hi]; simp)).2.1
  have hex : (holds s.log t).ex = (holds log t).sh + (holds log t).ex := by
    rw [hlog]; simp only [holds, if_true]; rw [hold_pr_ok _ hop]
  have hw : s.l.wh = some t ∧ s.l.rh ≠ some t := Classical.byContradiction (fun hc => by
    rw [if_neg hc] at h3; have := hg.1; omega)
  rw [if_pos hw] at h3
  exact ⟨hg.2, hw.1, by omega⟩
example : ((after StepOk 2 rwPromote).th 0).pc = .idle ∧ (after StepOk 2 rwPromote).l.hc = 2 ∧
    (after StepOk 2 rwPromote).log.head? = some ⟨0, .shared2mutex .block, .ok⟩ := by decide

/-- Finding: `AUTO_DOWNGRADE` never downgrades (util.c:2774 returns before 2879 can be reached): an
unlock by an exclusive holder with at least two holds leaves the lock exclusive, whatever its flags. -/
theorem C32_auto_downgrade_never_happens {n : Nat} {s s' : Sys} (h : Reach n s) {t : Tid} {ab ad : Bool}
    (hex : 2 ≤ (holds s.log t).ex) (hs : step s t (.call (.unlock ab ad)) = some s') :
    s'.l.st = .exclusive ∧ s'.log = ⟨t, .unlock ab ad, .ok⟩ :: s.log := by
  have i := inv_of_reach h
  have hidle : (s.th t).pc = .idle := by
    simp only [step, tstep] at hs
    split at hs
    · rename_i hp; exact hp
    · cases hs
  have h3 := ((i.hl t).2.2 (by rw [hidle]; exact id) (by rw [hidle]; simp)).2.1
  have hw : s.l.wh = some t ∧ s.l.rh ≠ some t := Classical.byContradiction (fun hc => by
    rw [if_neg hc] at h3; omega)
  rw [if_pos hw] at h3
  have hst := (i.ti t).wh hw.1
  have hc1 : s.l.wh = some t ∧ 1 < s.l.hc := ⟨hw.1, by omega⟩
  simp only [step, tstep, hidle, if_true, callOp, unlockEntry] at hs
  rw [if_pos hc1] at hs
  have hs := Option.some.inj hs
  subst hs
  exact ⟨hst, rfl⟩
example : 2 ≤ (holds (after StepOk 2 rwPromote).log 0).ex := by decide

/-- Finding: a promotion that times out leaves the reservation's reader count behind
(util.c:2689-2716): the lock is free and unreserved, yet not as after initialisation. -/
def rwStale : List (Tid × Choice) :=
  rwCall 0 rwShared 1 ++ rwCall 1 rwShared 1 ++ rwCall 0 (.shared2mutex .timed) 1 ++ [(0, .fail), (0, .run)] ++
  rwCall 0 rwUnlock 1 ++ rwCall 1 rwUnlock 1
theorem C32_timed_out_promotion_leaves_count : ∃ s, Reach 2 s ∧ s.l.st = .unlocked ∧ s.l.rh = none ∧ s.l.hc = 0 ∧ s.l.r2w = 1 :=
  ⟨after StepOk 2 rwStale, reachP_reach after_reach, by decide, by decide, by decide, by decide⟩

end WS.Props
