import Verif.Proof.LockLife
import Verif.Props.RwLock
/-
C76: creating and destroying locks.
-/
namespace WS.Props
open WS WS.RW WS.RW.Spec

/-! ### a lock in use is not destroyed -/

theorem holder_not_unlocked {n : Nat} {s : Sys} (h : Reach n s) {t : Tid} (hh : 0 < (holds s.log t).sh + (holds s.log t).ex) : s.l.st ≠ .unlocked := by
  intro hu
  have i := inv_of_reach h
  obtain ⟨a1, a2, a3, a4, -⟩ := i.g.un hu
  have ht := i.ti t
  have hd : (s.th t).dep = 0 := by
    by_cases hd : (s.th t).dep = 0
    · exact hd
    · have := (i.ctx (i.lt_of_dep hd)).oR
      have := ht.dep
      omega
  obtain ⟨b1, b2, b3⟩ := i.hl t
  by_cases p1 : isPend (s.th t).pc
  · have := (b1 p1).1; omega
  · by_cases p2 : (s.th t).pc = .incW
    · have := (b2 p2).2.2; have := (b2 p2).2.1; omega
    · obtain ⟨c1, c2, -⟩ := b3 p1 p2
      rw [if_neg (fun q => by rw [a1] at q; cases q.1)] at c2
      omega

theorem waiter_not_unlocked {n : Nat} {s : Sys} (h : Reach n s) {v : Tid} (hv : (s.th v).pc ≠ .idle) (hb : step s v .run = none) : s.l.st ≠ .unlocked := by
  intro hu
  have i := inv_of_reach h
  have g := i.g.un hu
  have hvn : v < n := by
    by_cases q : v < n
    · exact q
    · exact absurd (by rw [i.out v (Nat.le_of_not_lt q)]) hv
  have cx := i.ctx hvn
  have hr : runStep v s.l (s.th v) = none := by
    cases hq : runStep v s.l (s.th v) with
    | none => rfl
    | some o => simp [step, tstep, hq] at hb
  have g1 := i.g.cr
  have g2 := i.g.cw
  rw [if_neg (by rw [hu]; decide)] at g2
  have oA := cx.oA
  have oB := cx.oB
  have oW := cx.oW
  cases hpc : (s.th v).pc <;> rw [hpc] at oA oB oW <;> simp only [isA, isB, isW] at oA oB oW <;>
    first
    | exact hv hpc
    | omega
    | (unfold runStep at hr; rw [hpc] at hr; cases hr)

/-- C76: while some thread holds the lock in any way, destroying it is refused and changes nothing, whether or not somebody is just inside
the lock's own critical section (`k` is the count of the lock's inner semaphore).  Under the hypotheses of C30 about the history. -/
theorem C76_held_is_not_destroyed_partial {n : Nat} {s : Sys} (h : Reach n s) {t : Tid} (hh : 0 < (holds s.log t).sh + (holds s.log t).ex) (k : Nat) :
    destroy ⟨s.l, k, true⟩ = (some .incompatibleState, ⟨s.l, k, true⟩) ∧
    free ⟨s.l, k, true⟩ = (some .incompatibleState, some ⟨s.l, k, true⟩) := by
  have hu := holder_not_unlocked h hh
  have : destroy ⟨s.l, k, true⟩ = (some .incompatibleState, ⟨s.l, k, true⟩) := by
    unfold destroy
    by_cases hk : k = 0
    · simp [hk]
    · simp [hk, hu]
  exact ⟨this, by unfold free; rw [if_pos rfl, this]⟩
example : Reach 2 (after StepOk 2 rwPromote) ∧ 0 < (holds (after StepOk 2 rwPromote).log 0).sh + (holds (after StepOk 2 rwPromote).log 0).ex :=
  ⟨reachP_reach after_reach, by decide⟩

/-- C76: the same while some thread is inside a call and has to wait. -/
theorem C76_awaited_is_not_destroyed_partial {n : Nat} {s : Sys} (h : Reach n s) {v : Tid} (hv : (s.th v).pc ≠ .idle) (hb : step s v .run = none) (k : Nat) :
    destroy ⟨s.l, k, true⟩ = (some .incompatibleState, ⟨s.l, k, true⟩) ∧
    free ⟨s.l, k, true⟩ = (some .incompatibleState, some ⟨s.l, k, true⟩) := by
  have hu := waiter_not_unlocked h hv hb
  have : destroy ⟨s.l, k, true⟩ = (some .incompatibleState, ⟨s.l, k, true⟩) := by
    unfold destroy
    by_cases hk : k = 0
    · simp [hk]
    · simp [hk, hu]
  exact ⟨this, by unfold free; rw [if_pos rfl, this]⟩
example : ((after StepOk 2 rwNested).th 1).pc ≠ .idle ∧ step (after StepOk 2 rwNested) 1 .run = none :=
  ⟨by decide, by
    have : runStep 1 (after StepOk 2 rwNested).l ((after StepOk 2 rwNested).th 1) = none := by decide
    simp [step, tstep, this]⟩

/-- C76: whatever the history, destruction succeeds only on a lock that nobody holds, awaits or reserves and whose semaphores are at rest;
afterwards it is gone: a second destruction is refused, and freeing it succeeds. -/
theorem C76_destroyed_was_free {o o' : Obj} (h : destroy o = (none, o')) :
    o.inited = true ∧ o.sem = 1 ∧ o.l = {} ∧ o'.inited = false ∧
    destroy o' = (some .invalidArg, o') ∧ free o' = (none, none) ∧ free o = (none, none) := by
  have h0 := h
  obtain ⟨⟨st, hc, wh, rh, rw', ww, r2w, prom, sR, sW, sX⟩, k, b⟩ := o
  unfold destroy at h
  split at h
  · cases h
  next hb =>
  split at h
  · cases h
  next hk =>
  dsimp only at h
  split at h
  · cases h
  next hst =>
  split at h
  · cases h
  next hz =>
  split at h
  · cases h
  next q1 =>
  split at h
  · cases h
  next q2 =>
  split at h
  · cases h
  next q3 =>
  split at h
  · cases h
  next q4 =>
  cases h
  have hb : b = true := by simpa using hb
  dsimp only at hk q1 q2 q3 q4
  simp only [not_or, Classical.not_not] at hz hst
  obtain ⟨z1, z2, z3, z4, z5, z6, z7⟩ := hz
  have e1 : k = 1 := by omega
  have e2 : sR = 0 := by omega
  have e3 : sW = 0 := by omega
  have e4 : sX = 0 := by omega
  subst hb e1 e2 e3 e4 z1 z2 z3 z4 z5 z6 z7 hst
  refine ⟨rfl, rfl, rfl, rfl, rfl, rfl, rfl⟩
example : destroy {} = (none, { sem := 0, inited := false }) := rfl

/-! ### a lock nobody uses is destroyed -/

/-- C76: when callers pass no deadlines, then in every history a lock that everybody has released is destroyed (and freed) without error, and
is then exactly a lock as it was created. -/
theorem C76_released_is_destroyed_partial {n : Nat} {s : Sys} (h : ReachP UntimedOk n s) (hi : ∀ u, u < n → (s.th u).pc = .idle)
    (hh : ∀ u, u < n → (holds s.log u).sh = 0 ∧ (holds s.log u).ex = 0) :
    s.l = {} ∧ destroy ⟨s.l, 1, true⟩ = (none, ⟨s.l, 0, false⟩) ∧ free ⟨s.l, 1, true⟩ = (none, none) := by
  obtain ⟨a1, a2, a3, a4, a5, a6, a7, a8, a9⟩ := C31_balanced_is_free_partial (untimed_reach h).1 hi hh
  obtain ⟨c1, -, c3⟩ := clean_reach h
  have e1 := c1 a4
  have e2 := c3 (by rw [a1]; decide)
  have e : s.l = {} := by
    generalize s.l = l at *
    obtain ⟨st, hc, wh, rh, rw', ww, r2w, prom, sR, sW, sX⟩ := l
    dsimp only at a1 a2 a3 a4 a5 a6 a7 a8 a9 e1 e2
    subst a1 a2 a3 a4 a5 a6 a7 a8 a9 e1 e2
    rfl
  rw [e]
  exact ⟨rfl, rfl, rfl⟩
example : (∀ u, u < 2 → ((after UntimedOk 2 rwBalanced).th u).pc = .idle) ∧ (after UntimedOk 2 rwBalanced).log.length = 6 ∧
    (∀ u, u < 2 → (holds (after UntimedOk 2 rwBalanced).log u).sh = 0 ∧ (holds (after UntimedOk 2 rwBalanced).log u).ex = 0) := by
  refine ⟨?_, by decide, ?_⟩ <;> intro u hu <;>
    rcases Nat.lt_succ_iff.1 hu |> Nat.le_one_iff_eq_zero_or_eq_one.1 with rfl | rfl <;> decide

/-- Two readers; the first asks for promotion with a deadline, which expires; both release. -/
def rwExpired : List (Tid × Choice) :=
  rwCall 0 rwShared 1 ++ rwCall 1 rwShared 1 ++ rwCall 0 (.shared2mutex .timed) 1 ++ [(0, .fail), (0, .run)] ++
  rwCall 0 rwUnlock 1 ++ rwCall 1 rwUnlock 1

/-- Finding: with deadlines C76 is false.  A promotion that times out leaves its count behind (util.c:2679-2716), so that a lock everybody
has released can no longer be destroyed or freed: every attempt ends in an internal error. -/
theorem C76_expired_promotion_blocks_destruction : ∃ s, Reach 2 s ∧ (∀ u, u < 2 → (s.th u).pc = .idle) ∧
    (∀ u, u < 2 → holds s.log u = {}) ∧
    destroy ⟨s.l, 1, true⟩ = (some .internalCheckFatal, ⟨s.l, 1, true⟩) ∧ free ⟨s.l, 1, true⟩ = (some .internalCheckFatal, some ⟨s.l, 1, true⟩) := by
  refine ⟨after StepOk 2 rwExpired, reachP_reach after_reach, ?_, ?_, by decide, by decide⟩ <;> intro u hu <;>
    rcases Nat.lt_succ_iff.1 hu |> Nat.le_one_iff_eq_zero_or_eq_one.1 with rfl | rfl <;> decide

/-! ### creation -/

/-- C76: initialisation succeeds exactly when the flags are allowed and each of the five calls on semaphores succeeds; then the four
semaphores have been initialised once each, the inner one has been posted once, and nothing else was done. -/
theorem C76_init_iff (badFlags : Bool) (ok : Nat → Bool) :
    ((init badFlags ok).1 = none ↔ badFlags = false ∧ ∀ i, i < 5 → ok i = true) ∧
    ((init badFlags ok).1 = none → (init badFlags ok).2.reverse =
      [.init .main 0, .post .main, .init .readers 0, .init .writers 0, .init .promoters 0]) := by
  have key : (∀ i, i < 5 → ok i = true) ↔ (ok 0 = true ∧ ok 1 = true ∧ ok 2 = true ∧ ok 3 = true ∧ ok 4 = true) := by
    constructor
    · intro h; exact ⟨h 0 (by decide), h 1 (by decide), h 2 (by decide), h 3 (by decide), h 4 (by decide)⟩
    · rintro ⟨h0, h1, h2, h3, h4⟩ i hi
      match i, hi with
      | 0, _ => exact h0
      | 1, _ => exact h1
      | 2, _ => exact h2
      | 3, _ => exact h3
      | 4, _ => exact h4
  rw [key]
  cases badFlags
  · cases h0 : ok 0 <;> cases h1 : ok 1 <;> cases h2 : ok 2 <;> cases h3 : ok 3 <;> cases h4 : ok 4 <;>
      simp [init, semCall, h0, h1, h2, h3, h4] <;> (repeat' split) <;> simp
  · simp [init]

/-- C76: the caller gets a lock exactly when allocation reports success, and then it is a fresh lock, which can be destroyed and freed. -/
theorem C76_alloc (pshared badFlags memory : Bool) (ok : Nat → Bool) :
    ((alloc pshared badFlags memory ok).1 = none ↔ pshared = false ∧ memory = true ∧ badFlags = false ∧ ∀ i, i < 5 → ok i = true) ∧
    ((alloc pshared badFlags memory ok).2 = if (alloc pshared badFlags memory ok).1 = none then some {} else none) ∧
    (∀ o, (alloc pshared badFlags memory ok).2 = some o → free o = (none, none)) := by
  have h := (C76_init_iff badFlags ok).1
  unfold alloc
  cases pshared <;> cases memory <;> simp
  cases hi : (init badFlags ok).1 with
  | none =>
    rw [hi] at h
    obtain ⟨h1, h2⟩ := h.1 rfl
    simp only [h1]
    refine ⟨⟨fun _ => ⟨by trivial, h2⟩, fun _ => (by trivial)⟩, rfl, ?_⟩
    rintro o ho; cases ho; rfl
  | some e =>
    rw [hi] at h
    refine ⟨⟨fun q => (by cases q), fun q => h.2 q⟩, rfl, ?_⟩
    rintro o ho; cases ho
example : (alloc false false true (fun _ => true)) = (none, some {}) := rfl

/-- Finding: an initialisation that fails does not destroy the semaphores it initialised; it initialises them a second time (util.c:1518-1527)
and leaves them so. -/
theorem C76_failed_init_keeps_semaphores (ok : Nat → Bool) (h : ∀ i, ok i = decide (i ≠ 4)) :
    (init false ok).1 = some .sysResourceFailed ∧
    (init false ok).2.reverse.drop 5 = [.init .writers 0, .init .readers 0, .init .main 1] := by
  simp [init, semCall, h]

end WS.Props
