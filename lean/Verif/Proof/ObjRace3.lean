import Verif.Proof.ObjRace2
/-
Proofs for C88: every step keeps the invariant; the invariant excludes faults.
-/
namespace WS.OR
open WS.Spec.OR

variable {rr : Bool} {s : St}

theorem setTh_go (s : St) (t : Nat) (f : Th → Th) (p : Pc) : (s.setTh t f).go t p = s.setTh t fun h => { f h with pc := p } := by
  unfold St.go St.setTh
  simp only
  congr 1
  funext u
  by_cases e : u = t <;> simp [e]

theorem setTh_setTh (s : St) (t : Nat) (f g : Th → Th) : (s.setTh t f).setTh t g = s.setTh t fun h => g (f h) := by
  unfold St.setTh
  simp only
  congr 1
  funext u
  by_cases e : u = t <;> simp [e]

/-- A step to another place, without any other change. -/
theorem go_step (h : Inv rr s) (t : Nat) {p : Pc} (hi : ∀ x, inflight x p = inflight x (s.th t).pc) (hf : freeing p = freeing (s.th t).pc)
    (hp : PcOk rr s.obs s.table s.dflt { s.th t with pc := p }) : Inv rr (s.go t p) :=
  h.thread t _ (h.lock t) (fun hh u hu => h.not_excl hu hh) (fun x => by show _ + inflight x p = _; rw [hi]) hf hp

/-- The same, with a value given out. -/
theorem out_step (h : Inv rr s) (t : Nat) {p : Pc} {o : Option (Nat × Nat)} (hi : ∀ x, inflight x p = inflight x (s.th t).pc) (hf : freeing p = freeing (s.th t).pc)
    (hp : PcOk rr s.obs s.table s.dflt { s.th t with pc := p, out := o }) : Inv rr ((s.setTh t fun h => { h with out := o }).go t p) := by
  rw [setTh_go]
  exact h.thread t _ (h.lock t) (fun hh u hu => h.not_excl hu hh) (fun x => by show _ + inflight x p = _; rw [hi]) hf hp

theorem acquire_step (h : Inv rr s) (t : Nat) {p : Pc} (hg : ∀ u, u ≠ t → (s.th u).excl = false)
    (hi : ∀ x, inflight x p = inflight x (s.th t).pc) (hf : freeing p = freeing (s.th t).pc)
    (hp : PcOk rr s.obs s.table s.dflt { s.th t with pc := p, held := (s.th t).held + 1 }) : Inv rr ((s.acquire t).go t p) := by
  unfold St.acquire
  rw [setTh_go]
  refine h.thread t _ (fun hx => ⟨Nat.succ_pos _, (h.lock t hx).2⟩) (fun _ => hg) (fun x => by show _ + inflight x p = _; rw [hi]) hf hp

theorem acquireX_step (h : Inv rr s) (t : Nat) {p : Pc} (hg : ∀ u, u ≠ t → (s.th u).held = 0)
    (hi : ∀ x, inflight x p = inflight x (s.th t).pc) (hf : freeing p = freeing (s.th t).pc)
    (hp : PcOk rr s.obs s.table s.dflt { s.th t with pc := p, held := (s.th t).held + 1, excl := true }) : Inv rr ((s.acquireX t).go t p) := by
  unfold St.acquireX
  rw [setTh_go]
  refine h.thread t _ (fun _ => ⟨Nat.succ_pos _, hg⟩) (fun _ u hu => ?_) (fun x => by show _ + inflight x p = _; rw [hi]) hf hp
  cases hx : (s.th u).excl with
  | false => rfl
  | true => have := (h.lock u hx).1; rw [hg u hu] at this; omega

theorem release_inv (h : Inv rr s) (t : Nat) {p : Pc} {b : List Nat}
    (hi : ∀ x, b.count x + inflight x p = (s.th t).bag.count x + inflight x (s.th t).pc) (hf : freeing p = freeing (s.th t).pc)
    (hp : PcOk rr s.obs s.table s.dflt
      { s.th t with pc := p, held := (s.th t).held - 1, excl := (s.th t).excl && decide (1 < (s.th t).held), bag := b }) :
    Inv rr (s.setTh t fun h => { h with pc := p, held := h.held - 1, excl := h.excl && decide (1 < h.held), bag := b }) := by
  refine h.thread t _ ?_ ?_ hi hf hp
  · intro hx
    simp only [Bool.and_eq_true, decide_eq_true_eq] at hx
    exact ⟨by show 0 < (s.th t).held - 1; omega, (h.lock t hx.1).2⟩
  · intro hh u hu
    have : 0 < (s.th t).held - 1 := hh
    exact h.not_excl hu (by omega)

theorem release_step (h : Inv rr s) (t : Nat) {p : Pc}
    (hi : ∀ x, inflight x p = inflight x (s.th t).pc) (hf : freeing p = freeing (s.th t).pc)
    (hp : PcOk rr s.obs s.table s.dflt
      { s.th t with pc := p, held := (s.th t).held - 1, excl := (s.th t).excl && decide (1 < (s.th t).held) }) :
    Inv rr ((s.release t).go t p) := by
  unfold St.release
  rw [setTh_go]
  have := release_inv (b := (s.th t).bag) h t (p := p) (fun x => by rw [hi]) hf hp
  refine Eq.mp (congrArg (Inv rr) ?_) this
  unfold St.setTh
  congr 1
  funext u
  by_cases e : u = t
  · subst e; simp
  · simp [e]

/-- In an object owned by a thread. -/
theorem mine (h : Inv rr s) {t x : Nat} (hb : 0 < (s.th t).bag.count x + inflight x (s.th t).pc) : Owner.thread t ∈ (s.obs x).owners := by
  rw [← h.oTh] at hb
  exact List.count_pos_iff.1 hb

theorem owned (_ : Inv rr s) {x : Nat} {w : Owner} (hw : w ∈ (s.obs x).owners) : (s.obs x).owners ≠ [] := fun e => by rw [e] at hw; cases hw

theorem exec_inv (h : Inv rr s) {t : Nat} (hg : Granted s t) : Inv rr (exec rr s t (s.th t).pc) := by
  have hpc := h.pc t
  unfold Granted at hg
  generalize hp : (s.th t).pc = p at hg
  unfold PcOk at hpc
  rw [hp] at hpc
  have hI : ∀ x, inflight x (s.th t).pc = inflight x p := fun x => by rw [hp]
  have hF : freeing (s.th t).pc = freeing p := by rw [hp]
  cases p with
  | idle => exact h
  | cShare => exact acquire_step h t (hg.1 rfl) (fun x => by rw [hI]; rfl) (by rw [hF]; rfl) trivial
  | cMutex => exact acquireX_step h t (hg.2 rfl) (fun x => by rw [hI]; rfl) (by rw [hF]; rfl) trivial
  | cUnlock => exact release_step h t (fun x => by rw [hI]; rfl) (by rw [hF]; rfl) trivial
  | useRead x => exact out_step h t (fun x => by rw [hI]; rfl) (by rw [hF]; rfl) trivial
  | refLock k => exact acquire_step h t (hg.1 rfl) (fun x => by rw [hI]; rfl) (by rw [hF]; rfl) (Nat.succ_pos _)
  | refFind k =>
    simp only [exec]
    split
    · exact go_step h t (fun x => by rw [hI]; rfl) (by rw [hF]; rfl) hpc
    · rename_i x hx
      exact go_step h t (fun x => by rw [hI]; rfl) (by rw [hF]; rfl) ⟨hpc, (h.tab k x hx).1⟩
  | refIncr x =>
    simp only [exec]
    split
    · refine more_step h (linked_owned h hpc.2) (fun y => by rw [hI]; rfl) (fun y => ?_) (by rw [hF]; rfl) rfl hpc.1
      show (if x = y then 1 else 0) = _
      simp only [eq_comm]
    · exact go_step h t (fun x => by rw [hI]; rfl) (by rw [hF]; rfl) hpc.1
  | refUnlock x =>
    simp only [exec]
    unfold St.release
    rw [setTh_setTh, setTh_go]
    have := release_inv (b := x :: (s.th t).bag) h t (p := .idle) (fun y => by
      rw [hI, List.count_cons]
      show _ + (if x == y then 1 else 0) + 0 = _ + (if x = y then 1 else 0)
      simp) (by rw [hF]; rfl) trivial
    refine Eq.mp (congrArg (Inv rr) ?_) this
    unfold St.setTh
    congr 1
    funext u
    by_cases e : u = t
    · subst e; simp
    · simp [e]
  | kvLock k => exact acquire_step h t (hg.1 rfl) (fun x => by rw [hI]; rfl) (by rw [hF]; rfl) (Nat.succ_lt_succ hpc)
  | kvFind k =>
    simp only [exec]
    split
    · exact go_step h t (fun x => by rw [hI]; rfl) (by rw [hF]; rfl) (Nat.lt_of_succ_lt hpc)
    · rename_i x hx
      exact go_step h t (fun x => by rw [hI]; rfl) (by rw [hF]; rfl) ⟨hpc, (h.tab k x hx).1⟩
  | kvUnlock x =>
    refine release_step h t (fun x => by rw [hI]; rfl) (by rw [hF]; rfl) ⟨?_, hpc.2⟩
    show 0 < (s.th t).held - 1
    have := hpc.1; omega
  | kvIncr x =>
    simp only [exec]
    split
    · refine more_step h (linked_owned h hpc.2) (fun y => by rw [hI]; rfl) (fun y => ?_) (by rw [hF]; rfl) rfl hpc.1
      show (if x = y then 1 else 0) = _
      simp only [eq_comm]
    · exact go_step h t (fun x => by rw [hI]; rfl) (by rw [hF]; rfl) trivial
  | kvRead x =>
    simp only [exec]
    rw [setTh_go]
    refine h.thread t _ (h.lock t) (fun hh u hu => h.not_excl hu hh) (fun y => ?_) (by rw [hF]; rfl) trivial
    show (x :: (s.th t).bag).count y + 0 = _
    rw [hI, List.count_cons]
    show _ = _ + (if x = y then 1 else 0)
    simp
  | valLock k => exact acquire_step h t (hg.1 rfl) (fun x => by rw [hI]; rfl) (by rw [hF]; rfl) (Nat.succ_lt_succ hpc)
  | valFind k =>
    simp only [exec]
    split
    · exact go_step h t (fun x => by rw [hI]; rfl) (by rw [hF]; rfl) (Nat.lt_of_succ_lt hpc)
    · rename_i x hx
      exact go_step h t (fun x => by rw [hI]; rfl) (by rw [hF]; rfl) ⟨hpc, h.tab k x hx⟩
  | valUnlock k x =>
    refine release_step h t (fun x => by rw [hI]; rfl) (by rw [hF]; rfl) ⟨?_, hpc.2⟩
    show 0 < (s.th t).held - 1
    have := hpc.1; omega
  | valRead k x => exact out_step h t (fun x => by rw [hI]; rfl) (by rw [hF]; rfl) trivial
  | delLock k => exact acquireX_step h t (hg.2 rfl) (fun x => by rw [hI]; rfl) (by rw [hF]; rfl) rfl
  | delFind k =>
    simp only [exec]
    split
    · exact go_step h t (fun x => by rw [hI]; rfl) (by rw [hF]; rfl) (h.lock t hpc).1
    · rename_i x hx
      exact go_step h t (fun x => by rw [hI]; rfl) (by rw [hF]; rfl) ⟨hpc, (h.tab k x hx).1⟩
  | delUnlink x =>
    refine unlink_step h hpc.1 hpc.2 (fun y => by rw [hI]; rfl) (fun y => ?_) (by rw [hF]; rfl) rfl (fun _ _ => hpc.1)
    show (if x = y then 1 else 0) = _
    simp only [eq_comm]
  | delDecr x =>
    have hm : Owner.thread t ∈ (s.obs x).owners := mine h (by rw [hI]; simp [inflight])
    refine less_step (w := .thread t) (d := s.dflt) h hm (by simp) (.inl ⟨rfl, rfl⟩) (fun q hq y => ?_) (by rw [hF]; rfl) rfl rfl (fun h => by cases h) (fun q hq => ?_)
    · rw [hI]
      simp only [List.mem_cons, List.not_mem_nil, or_false] at hq
      rcases hq with rfl | rfl <;> simp [inflight, eq_comm]
    · simp only [List.mem_cons, List.not_mem_nil, or_false] at hq
      rcases hq with rfl | rfl
      · exact hpc
      · exact (h.lock t hpc).1
  | delFree x => exact freed_step h (by rw [hF]; rfl) rfl (fun y => by rw [hI]; rfl) (h.lock t hpc).1
  | setLock k v => exact acquireX_step h t (hg.2 rfl) (fun x => by rw [hI]; rfl) (by rw [hF]; rfl) rfl
  | setFind k v =>
    simp only [exec]
    split
    · rename_i hn; exact go_step h t (fun x => by rw [hI]; rfl) (by rw [hF]; rfl) ⟨hpc, hn⟩
    · rename_i x hx
      split
      · exact go_step h t (fun x => by rw [hI]; rfl) (by rw [hF]; rfl) (h.lock t hpc).1
      · exact go_step h t (fun x => by rw [hI]; rfl) (by rw [hF]; rfl) ⟨hpc, h.tab k x hx⟩
  | setUnlink k v x =>
    refine unlink_step h hpc.1 hpc.2.1 (fun y => by rw [hI]; rfl) (fun y => ?_) (by rw [hF]; rfl) rfl (fun s' hs' => ⟨hpc.1, ?_⟩)
    · show (if x = y then 1 else 0) = _
      simp only [eq_comm]
    · rw [hpc.2.2] at hs'; exact hs'
  | setDecr k v x =>
    have hm : Owner.thread t ∈ (s.obs x).owners := mine h (by rw [hI]; simp [inflight])
    refine less_step (w := .thread t) (d := s.dflt) h hm (by simp) (.inl ⟨rfl, rfl⟩) (fun q hq y => ?_) (by rw [hF]; rfl) rfl rfl (fun h => by cases h) (fun q hq => ?_)
    · rw [hI]
      simp only [List.mem_cons, List.not_mem_nil, or_false] at hq
      rcases hq with rfl | rfl <;> simp [inflight, eq_comm]
    · simp only [List.mem_cons, List.not_mem_nil, or_false] at hq
      rcases hq with rfl | rfl <;> exact hpc
  | setFree k v x => exact freed_step h (by rw [hF]; rfl) rfl (fun y => by rw [hI]; rfl) hpc
  | insLock k v => exact acquireX_step h t (hg.2 rfl) (fun x => by rw [hI]; rfl) (by rw [hF]; rfl) rfl
  | insFind k v =>
    simp only [exec]
    split
    · rename_i hn; exact go_step h t (fun x => by rw [hI]; rfl) (by rw [hF]; rfl) ⟨hpc, hn⟩
    · exact go_step h t (fun x => by rw [hI]; rfl) (by rw [hF]; rfl) (h.lock t hpc).1
  | link k v => exact link_step h hpc.1 hpc.2 (fun y => by rw [hI]; rfl) (by rw [hF]; rfl)
  | unlock => exact release_step h t (fun x => by rw [hI]; rfl) (by rw [hF]; rfl) trivial
  | dsetLock k => exact acquireX_step h t (hg.2 rfl) (fun x => by rw [hI]; rfl) (by rw [hF]; rfl) rfl
  | dsetFind k =>
    simp only [exec]
    split
    · exact go_step h t (fun x => by rw [hI]; rfl) (by rw [hF]; rfl) (h.lock t hpc).1
    · rename_i x hx
      exact go_step h t (fun x => by rw [hI]; rfl) (by rw [hF]; rfl) ⟨hpc, (h.tab k x hx).1⟩
  | dsetIncr x =>
    simp only [exec]
    split
    · refine more_step h (linked_owned h hpc.2) (fun y => by rw [hI]; rfl) (fun y => ?_) (by rw [hF]; rfl) rfl hpc.1
      show (if some x = some y then 1 else 0) = _
      simp only [Option.some.injEq, eq_comm]
    · exact go_step h t (fun x => by rw [hI]; rfl) (by rw [hF]; rfl) (h.lock t hpc.1).1
  | dclrLock => exact acquireX_step h t (hg.2 rfl) (fun x => by rw [hI]; simp [inflight]) (by rw [hF]; rfl) rfl
  | dDecr new =>
    simp only [exec]
    split
    · rename_i hn; exact go_step h t (fun x => by rw [hI]; rfl) (by rw [hF]; rfl) ⟨hpc, hn⟩
    · rename_i x hx
      have hm : Owner.dflt ∈ (s.obs x).owners := by
        have := h.oDflt x
        rw [if_pos hx] at this
        exact List.count_pos_iff.1 (by omega)
      refine less_step (w := .dflt) (d := none) h hm (by simp) (.inr ⟨rfl, rfl⟩) (fun q hq y => ?_) (by rw [hF]; rfl) rfl rfl (fun _ => hpc) (fun q hq => ?_)
      · rw [hI]
        simp only [List.mem_cons, List.not_mem_nil, or_false] at hq
        rcases hq with rfl | rfl <;> simp [inflight]
      · simp only [List.mem_cons, List.not_mem_nil, or_false] at hq
        rcases hq with rfl | rfl <;> exact ⟨hpc, rfl⟩
  | dFree x new => exact freed_step h (by rw [hF]; rfl) rfl (fun y => by rw [hI]; rfl) hpc
  | dPut new =>
    cases new with
    | none => exact go_step h t (fun x => by rw [hI]; simp [inflight]) (by rw [hF]; rfl) (h.lock t hpc.1).1
    | some x => exact put_step h hpc.1 hpc.2 hp
  | dgetTest =>
    simp only [exec]
    split
    · exact go_step h t (fun x => by rw [hI]; rfl) (by rw [hF]; rfl) trivial
    · rename_i x hx
      exact go_step h t (fun x => by rw [hI]; rfl) (by rw [hF]; rfl) ⟨hpc, by rw [hx]; simp⟩
  | dgetLock => exact acquire_step h t (hg.1 rfl) (fun x => by rw [hI]; rfl) (by rw [hF]; rfl) ⟨Nat.succ_lt_succ hpc.1, hpc.2⟩
  | dgetRead => exact out_step h t (fun x => by rw [hI]; rfl) (by rw [hF]; rfl) (Nat.lt_of_succ_lt hpc.1)
  | relTest x =>
    simp only [exec]
    split
    · rename_i hc
      simp only [Bool.and_eq_true] at hc
      exact go_step h t (fun x => by rw [hI]; rfl) (by rw [hF]; rfl) ⟨hpc hc.2, hc.1⟩
    · exact go_step h t (fun x => by rw [hI]; rfl) (by rw [hF]; rfl) trivial
  | relType x => exact go_step h t (fun x => by rw [hI]; rfl) (by rw [hF]; rfl) trivial
  | relDecr x =>
    have hm : Owner.thread t ∈ (s.obs x).owners := mine h (by rw [hI]; simp [inflight])
    refine less_step (w := .thread t) (d := s.dflt) h hm (by simp) (.inl ⟨rfl, rfl⟩) (fun q hq y => ?_) (by rw [hF]; rfl) rfl rfl (fun h => by cases h) (fun q hq => ?_)
    · rw [hI]
      simp only [List.mem_cons, List.not_mem_nil, or_false] at hq
      rcases hq with rfl | rfl <;> simp [inflight, eq_comm]
    · simp only [List.mem_cons, List.not_mem_nil, or_false] at hq
      rcases hq with rfl | rfl <;> trivial
  | relFree x => exact freed_step h (by rw [hF]; rfl) rfl (fun y => by rw [hI]; rfl) trivial

theorem start_inv (h : Inv rr s) {t : Nat} {c : Call} (hi : (s.th t).pc = .idle) (ho : Honest s t c) (hl : LocksGetters s t c)
    (hr : rr = true → LocksReleases s t c) : Inv rr (start s t c) := by
  unfold start
  rw [setTh_go]
  have keep : ∀ p : Pc, (∀ x, inflight x p = 0) → freeing p = none → PcOk rr s.obs s.table s.dflt { s.th t with pc := p } →
      Inv rr (s.setTh t fun h => { h with bag := h.bag, pc := p }) := fun p h1 h2 h3 =>
    h.thread t _ (h.lock t) (fun hh u hu => h.not_excl hu hh) (fun x => by rw [hi]; show _ + inflight x p = _; rw [h1]; rfl) (by rw [hi]; exact h2) h3
  cases c with
  | share => exact keep _ (fun _ => rfl) rfl trivial
  | mutex => exact keep _ (fun _ => rfl) rfl trivial
  | unlock => exact keep _ (fun _ => rfl) rfl ho
  | use x => exact keep _ (fun _ => rfl) rfl ho
  | getReference k => exact keep _ (fun _ => rfl) rfl trivial
  | getRecord k => exact keep _ (fun _ => rfl) rfl hl
  | getValue k => exact keep _ (fun _ => rfl) rfl hl
  | delete k => exact keep _ (fun _ => rfl) rfl trivial
  | store k v ow => cases ow <;> exact keep _ (fun _ => rfl) rfl trivial
  | setDefault k => exact keep _ (fun _ => rfl) rfl trivial
  | clearDefault => exact keep _ (fun _ => rfl) rfl trivial
  | getDefault => exact keep _ (fun _ => rfl) rfl hl
  | release x =>
    refine h.thread t _ (h.lock t) (fun hh u hu => h.not_excl hu hh) (fun y => ?_) (by rw [hi]; rfl) hr
    rw [hi]
    show ((s.th t).bag.erase x).count y + (if x = y then 1 else 0) = (s.th t).bag.count y + 0
    by_cases e : x = y
    · subst e
      have : 0 < (s.th t).bag.count x := List.count_pos_iff.2 ho
      rw [List.count_erase_self, if_pos rfl]; omega
    · rw [List.count_erase_of_ne (Ne.symm e), if_neg e]

theorem init_inv : Inv rr ({} : St) := by
  refine ⟨?_, ?_, ?_, ?_, ?_, ?_, ?_, ?_, ?_, ?_, ?_, ?_, ?_⟩ <;> intros <;> first | rfl | trivial | (simp_all; done) | simp_all [freeing, inflight, PcOk]

theorem reach_inv {P : St → Nat → Call → Prop} (hP : ∀ s t c, P s t c → LocksGetters s t c ∧ (rr = true → LocksReleases s t c)) (h : Reach rr P s) : Inv rr s := by
  induction h with
  | init => exact init_inv
  | step _ hs ih =>
    cases hs with
    | run t _ hg => exact exec_inv ih hg
    | call t c hi ho hp => exact start_inv ih hi ho (hP _ _ _ hp).1 (hP _ _ _ hp).2

/-- No thread is about to go wrong. -/
theorem no_fault (h : Inv rr s) (t : Nat) : ¬ Fault s t := by
  have hpc := h.pc t
  unfold PcOk at hpc
  have own : ∀ x, 0 < (s.th t).bag.count x + inflight x (s.th t).pc → (s.obs x).live = true := fun x hx => h.alive x (owned h (mine h hx))
  have lk : ∀ x, (s.obs x).linked = true → (s.obs x).live = true := fun x hx => h.alive x (linked_owned h hx)
  have fr : ∀ x, freeing (s.th t).pc = some x → (s.obs x).live = true := fun x hx => (h.free t x hx).1
  have df : ∀ x, s.dflt = some x → (s.obs x).live = true := fun x hx => by
    have := h.oDflt x
    rw [if_pos hx] at this
    exact h.alive x (owned h (w := .dflt) (List.count_pos_iff.1 (by omega)))
  rintro (⟨x, hx, hd⟩ | ⟨x, hx, hd⟩ | ⟨hx, hd⟩)
  · suffices (s.obs x).live = true by rw [this] at hd; cases hd
    unfold touched at hx
    split at hpc <;> rename_i hp <;> simp only [hp] at hx <;> first
      | (cases hx; done)
      | exact df x hx
      | (injection hx with hx; subst hx
         first
         | exact lk _ hpc.2
         | exact lk _ hpc.2.1
         | exact fr _ (by rw [hp]; rfl)
         | exact own _ (Nat.lt_of_lt_of_le (List.count_pos_iff.2 hpc) (Nat.le_add_right _ _))
         | exact own _ (by rw [hp]; simp [inflight]))
  · rw [hx] at hpc; rw [hpc.2] at hd; cases hd
  · rw [hx] at hpc; exact hpc.2 hd

end WS.OR
