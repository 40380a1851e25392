import Verif.Spec.ObjRace
/-
Proofs for C88: every reference has an owner, and nobody touches an object without a reference or the lock.
-/
namespace WS.OR
open WS.Spec.OR

/-- References a thread has between two steps of a call. -/
def inflight (x : Nat) : Pc → Nat
  | .refUnlock y | .kvRead y | .delDecr y | .setDecr _ _ y | .relTest y | .relType y | .relDecr y => if y = x then 1 else 0
  | .dDecr new | .dFree _ new | .dPut new => if new = some x then 1 else 0
  | _ => 0

/-- The object a thread is about to free. -/
def freeing : Pc → Option Nat
  | .delFree x | .setFree _ _ x | .dFree x _ | .relFree x => some x
  | _ => none

/-- What holds of a thread at each step. -/
def PcOk (reread : Bool) (obs : Nat → Ob) (table : Nat → Option Nat) (dflt : Option Nat) (h : Th) : Prop :=
  match h.pc with
  | .idle | .cShare | .cMutex | .refLock _ | .delLock _ | .setLock _ _ | .insLock _ _ | .dsetLock _ | .dclrLock | .relDecr _ | .relFree _ => True
  | .useRead x => x ∈ h.bag
  | .cUnlock | .unlock | .refFind _ | .refUnlock _ | .kvLock _ | .valLock _ | .dgetTest | .kvRead _ => 0 < h.held
  | .refIncr x | .kvIncr x | .relType x => 0 < h.held ∧ (obs x).linked = true
  | .kvFind _ | .valFind _ => 1 < h.held
  | .kvUnlock x => 1 < h.held ∧ (obs x).linked = true
  | .valUnlock k x => 1 < h.held ∧ (obs x).linked = true ∧ (obs x).key = k
  | .valRead k x => 0 < h.held ∧ (obs x).linked = true ∧ (obs x).key = k
  | .delFind _ | .setFind _ _ | .insFind _ _ | .delDecr _ | .delFree _ | .dsetFind _ | .dDecr _ => h.excl = true
  | .dFree _ _ | .dPut _ => h.excl = true ∧ dflt = none
  | .delUnlink x | .dsetIncr x => h.excl = true ∧ (obs x).linked = true
  | .setUnlink k _ x => h.excl = true ∧ (obs x).linked = true ∧ (obs x).key = k
  | .setDecr k _ _ | .setFree k _ _ | .link k _ => h.excl = true ∧ table k = none
  | .dgetLock => 0 < h.held ∧ dflt ≠ none
  | .dgetRead => 1 < h.held ∧ dflt ≠ none
  | .relTest _ => reread = true → 0 < h.held

structure Inv (rr : Bool) (s : St) : Prop where
  lock : ∀ t, (s.th t).excl = true → 0 < (s.th t).held ∧ ∀ u, u ≠ t → (s.th u).held = 0
  tab : ∀ k x, s.table k = some x → (s.obs x).linked = true ∧ (s.obs x).key = k
  back : ∀ x, (s.obs x).linked = true → s.table (s.obs x).key = some x
  rc : ∀ x, (s.obs x).rc = (s.obs x).owners.length
  oTab : ∀ x, (s.obs x).owners.count .table = if (s.obs x).linked = true then 1 else 0
  oDflt : ∀ x, (s.obs x).owners.count .dflt = if s.dflt = some x then 1 else 0
  oTh : ∀ t x, (s.obs x).owners.count (.thread t) = (s.th t).bag.count x + inflight x (s.th t).pc
  alive : ∀ x, (s.obs x).owners ≠ [] → (s.obs x).live = true
  free : ∀ t x, freeing (s.th t).pc = some x → (s.obs x).live = true ∧ (s.obs x).owners = []
  free1 : ∀ t u x, freeing (s.th t).pc = some x → freeing (s.th u).pc = some x → t = u
  fresh : ∀ x, s.next ≤ x → (s.obs x).owners = [] ∧ (s.obs x).live = false
  kept : ∀ x, (s.obs x).live = true → (s.obs x).owners ≠ [] ∨ ∃ t, freeing (s.th t).pc = some x
  pc : ∀ t, PcOk rr s.obs s.table s.dflt (s.th t)

theorem PcOk.congr {rr : Bool} {obs obs' : Nat → Ob} {table table' : Nat → Option Nat} {dflt : Option Nat} {h : Th} (ht : ∀ k, table k = none → table' k = none)
    (h1 : ∀ x, (obs' x).linked = (obs x).linked ∧ (obs' x).key = (obs x).key) (hp : PcOk rr obs table dflt h) : PcOk rr obs' table' dflt h := by
  unfold PcOk at hp ⊢
  split at hp <;> simp_all

/-- What a thread without the lock relies on does not depend on the shared memory. -/
theorem PcOk.unheld {rr : Bool} {obs obs' : Nat → Ob} {table table' : Nat → Option Nat} {dflt dflt' : Option Nat} {h : Th} (hh : h.held = 0) (he : h.excl = false)
    (hp : PcOk rr obs table dflt h) : PcOk rr obs' table' dflt' h := by
  unfold PcOk at hp ⊢
  split at hp <;> simp_all

/-- A step that changes nothing but one thread. -/
theorem Inv.thread {rr : Bool} {s : St} (h : Inv rr s) (t : Nat) (f : Th → Th)
    (hx : (f (s.th t)).excl = true → 0 < (f (s.th t)).held ∧ ∀ u, u ≠ t → (s.th u).held = 0)
    (hh : 0 < (f (s.th t)).held → ∀ u, u ≠ t → (s.th u).excl = false)
    (hb : ∀ x, (f (s.th t)).bag.count x + inflight x (f (s.th t)).pc = (s.th t).bag.count x + inflight x (s.th t).pc)
    (hf : freeing (f (s.th t)).pc = freeing (s.th t).pc)
    (hp : PcOk rr s.obs s.table s.dflt (f (s.th t))) : Inv rr (s.setTh t f) := by
  have hth : ∀ u, (s.setTh t f).th u = if u = t then f (s.th u) else s.th u := fun _ => rfl
  have hfr : ∀ u, freeing ((s.setTh t f).th u).pc = freeing (s.th u).pc := by
    intro u; rw [hth]; split
    · rename_i e; subst e; exact hf
    · rfl
  refine ⟨?_, h.tab, h.back, h.rc, h.oTab, h.oDflt, ?_, h.alive, ?_, ?_, h.fresh, ?_, ?_⟩
  · intro u hu
    have := h.lock
    simp only [hth] at hu ⊢
    by_cases e : u = t
    · subst e
      rw [if_pos rfl] at hu ⊢
      refine ⟨(hx hu).1, fun v hv => ?_⟩
      rw [if_neg hv]; exact (hx hu).2 v hv
    · rw [if_neg e] at hu ⊢
      refine ⟨(this u hu).1, fun v hv => ?_⟩
      by_cases e' : v = t
      · subst e'
        rw [if_pos rfl]
        cases hz : (f (s.th v)).held with
        | zero => rfl
        | succ n => have := hh (by omega) u e; rw [this] at hu; cases hu
      · rw [if_neg e']; exact (this u hu).2 v hv
  · intro u x
    show (s.obs x).owners.count _ = _
    rw [hth]
    split
    · rename_i e; subst e; rw [hb]; exact h.oTh u x
    · exact h.oTh u x
  · intro u x hu; rw [hfr] at hu; exact h.free u x hu
  · intro u v x hu hv; rw [hfr] at hu hv; exact h.free1 u v x hu hv
  · intro x hx
    rcases h.kept x hx with h1 | ⟨u, h1⟩
    · exact .inl h1
    · exact .inr ⟨u, by rw [hfr]; exact h1⟩
  · intro u
    rw [hth]
    split
    · rename_i e; subst e; exact hp
    · exact h.pc u

/-- A step that changes one object and its thread, not the lock. -/
theorem Inv.object {rr : Bool} {s s' : St} (h : Inv rr s) (t x : Nat)
    (hobs : ∀ y, y ≠ x → s'.obs y = s.obs y) (hth : ∀ u, u ≠ t → s'.th u = s.th u)
    (hheld : (s'.th t).held = (s.th t).held) (hexcl : (s'.th t).excl = (s.th t).excl)
    (tab : ∀ k y, s'.table k = some y → (s'.obs y).linked = true ∧ (s'.obs y).key = k)
    (back : ∀ y, (s'.obs y).linked = true → s'.table (s'.obs y).key = some y)
    (hrc : (s'.obs x).rc = (s'.obs x).owners.length)
    (oTab : (s'.obs x).owners.count .table = if (s'.obs x).linked = true then 1 else 0)
    (oDflt : (s'.obs x).owners.count .dflt = if s'.dflt = some x then 1 else 0)
    (oDflt' : ∀ y, y ≠ x → (s'.dflt = some y ↔ s.dflt = some y))
    (oMe : (s'.obs x).owners.count (.thread t) = (s'.th t).bag.count x + inflight x (s'.th t).pc)
    (oMe' : ∀ y, y ≠ x → (s'.th t).bag.count y + inflight y (s'.th t).pc = (s.th t).bag.count y + inflight y (s.th t).pc)
    (oTh : ∀ u, u ≠ t → (s'.obs x).owners.count (.thread u) = (s.obs x).owners.count (.thread u))
    (alive : (s'.obs x).owners ≠ [] → (s'.obs x).live = true)
    (free : freeing (s'.th t).pc = none ∨ freeing (s'.th t).pc = some x ∧ (s.obs x).owners ≠ [] ∧ (s'.obs x).live = true ∧ (s'.obs x).owners = [])
    (free' : ∀ u, u ≠ t → freeing (s.th u).pc = some x → (s'.obs x).live = true ∧ (s'.obs x).owners = [])
    (free'' : ∀ y, freeing (s.th t).pc = some y → y = x)
    (fresh : s'.next ≤ x → (s'.obs x).owners = [] ∧ (s'.obs x).live = false) (next : s.next ≤ s'.next)
    (kept : (s'.obs x).live = true → (s'.obs x).owners ≠ [] ∨ ∃ u, freeing (s'.th u).pc = some x)
    (pcMe : PcOk rr s'.obs s'.table s'.dflt (s'.th t)) (pc : ∀ u, u ≠ t → PcOk rr s'.obs s'.table s'.dflt (s.th u)) : Inv rr s' := by
  refine ⟨?_, tab, back, ?_, ?_, ?_, ?_, ?_, ?_, ?_, ?_, ?_, ?_⟩
  · intro u hu
    have hl := h.lock u
    by_cases e : u = t
    · subst e
      rw [hexcl] at hu
      refine ⟨by rw [hheld]; exact (hl hu).1, fun v hv => by rw [hth v hv]; exact (hl hu).2 v hv⟩
    · rw [hth u e] at hu ⊢
      refine ⟨(hl hu).1, fun v hv => ?_⟩
      by_cases e' : v = t
      · subst e'; rw [hheld]; exact (hl hu).2 v hv
      · rw [hth v e']; exact (hl hu).2 v hv
  · intro y
    by_cases e : y = x
    · subst e; exact hrc
    · rw [hobs y e]; exact h.rc y
  · intro y
    by_cases e : y = x
    · subst e; exact oTab
    · rw [hobs y e]; exact h.oTab y
  · intro y
    by_cases e : y = x
    · subst e; exact oDflt
    · rw [hobs y e, h.oDflt y]; simp only [oDflt' y e]
  · intro u y
    by_cases e : y = x
    · subst e
      by_cases e' : u = t
      · subst e'; exact oMe
      · rw [oTh u e', hth u e']; exact h.oTh u y
    · rw [hobs y e]
      by_cases e' : u = t
      · subst e'; rw [oMe' y e]; exact h.oTh u y
      · rw [hth u e']; exact h.oTh u y
  · intro y
    by_cases e : y = x
    · subst e; exact alive
    · rw [hobs y e]; exact h.alive y
  · intro u y hu
    by_cases e' : u = t
    · subst e'
      rcases free with f | ⟨f, _, g⟩
      · rw [f] at hu; cases hu
      · rw [f] at hu; cases hu; exact g
    · rw [hth u e'] at hu
      by_cases e : y = x
      · subst e; exact free' u e' hu
      · rw [hobs y e]; exact h.free u y hu
  · intro u v y hu hv
    have key : ∀ w, w ≠ t → freeing (s'.th w).pc = some y → freeing (s'.th t).pc = some y → False := by
      intro w hw h1 h2
      rw [hth w hw] at h1
      rcases free with f | ⟨f, g, _⟩
      · rw [f] at h2; cases h2
      · rw [f] at h2; cases h2; exact g (h.free w x h1).2
    by_cases e : u = t
    · by_cases e' : v = t
      · rw [e, e']
      · subst e; exact absurd hu (fun hu => key v e' hv hu)
    · by_cases e' : v = t
      · subst e'; exact absurd hv (fun hv => key u e hu hv)
      · rw [hth u e] at hu; rw [hth v e'] at hv; exact h.free1 u v y hu hv
  · intro y hy
    by_cases e : y = x
    · subst e; exact fresh hy
    · rw [hobs y e]; exact h.fresh y (Nat.le_trans next hy)
  · intro y hy
    by_cases e : y = x
    · subst e; exact kept hy
    · rw [hobs y e] at hy ⊢
      rcases h.kept y hy with h1 | ⟨u, h1⟩
      · exact .inl h1
      · refine .inr ⟨u, ?_⟩
        by_cases e' : u = t
        · subst e'; exact absurd (free'' y h1) e
        · rw [hth u e']; exact h1
  · intro u
    by_cases e : u = t
    · subst e; exact pcMe
    · rw [hth u e]; exact pc u e

end WS.OR
