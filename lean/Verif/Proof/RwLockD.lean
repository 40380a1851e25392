import Verif.Proof.RwLockC
/-
The invariant of the whole system: any number of threads, any schedule.
-/
namespace WS.RW
open Spec

def sumN (f : Nat → Int) : Nat → Int
  | 0 => 0
  | n + 1 => sumN f n + f n

theorem sumN_congr {f g : Nat → Int} {n : Nat} (h : ∀ i, i < n → f i = g i) : sumN f n = sumN g n := by
  induction n with
  | zero => rfl
  | succ n ih =>
    simp only [sumN]
    rw [ih (fun i hi => h i (by omega)), h n (by omega)]

theorem sumN_upd {f g : Nat → Int} {n t : Nat} (ht : t < n) (h : ∀ i, i ≠ t → g i = f i) :
    sumN g n = sumN f n - f t + g t := by
  induction n with
  | zero => omega
  | succ n ih =>
    simp only [sumN]
    by_cases hn : n = t
    · subst hn
      rw [sumN_congr (f := g) (g := f) (fun i hi => h i (by omega))]
      omega
    · rw [ih (by omega), h n hn]; omega

theorem sumN_nonneg {f : Nat → Int} {n : Nat} (h : ∀ i, 0 ≤ f i) : 0 ≤ sumN f n := by
  induction n with
  | zero => simp [sumN]
  | succ n ih => have := h n; simp only [sumN]; omega

theorem sumN_le {f : Nat → Int} {n t : Nat} (ht : t < n) (h : ∀ i, 0 ≤ f i) : f t ≤ sumN f n := by
  induction n with
  | zero => omega
  | succ n ih =>
    simp only [sumN]
    have h1 := h n
    have h2 := sumN_nonneg (n := n) h
    by_cases hn : n = t
    · subst hn; omega
    · have := ih (by omega); omega

theorem sumN_le2 {f : Nat → Int} {n t u : Nat} (ht : t < n) (hu : u < n) (hne : t ≠ u) (h : ∀ i, 0 ≤ f i) :
    f t + f u ≤ sumN f n := by
  induction n with
  | zero => omega
  | succ n ih =>
    simp only [sumN]
    have h1 := h n
    by_cases hn : n = t
    · subst hn
      have := sumN_le (f := f) (n := n) (t := u) (by omega) h; omega
    · by_cases hm : n = u
      · subst hm
        have := sumN_le (f := f) (n := n) (t := t) (by omega) h; omega
      · have := ih (by omega) (by omega); omega

theorem sumN_zero {f : Nat → Int} {n : Nat} (h : ∀ i, i < n → f i = 0) : sumN f n = 0 := by
  induction n with
  | zero => rfl
  | succ n ih => simp only [sumN]; rw [ih (fun i hi => h i (by omega)), h n (by omega)]; rfl

theorem sumN_single {f : Nat → Int} {n t : Nat} (ht : t < n) (h : ∀ i, i ≠ t → f i = 0) : sumN f n = f t := by
  have := sumN_upd (f := f) (g := fun i => if i = t then 0 else f i) ht (fun i hi => by simp [hi])
  rw [sumN_zero (f := fun i => if i = t then 0 else f i) (by
    intro i _; by_cases hi : i = t
    · simp [hi]
    · simp [hi, h i hi])] at this
  simp at this; omega

/-- The totals of a system of `n` threads. -/
def tots (n : Nat) (th : Tid → Thr) : Tot :=
  { R := sumN (fun u => (th u).dep) n, A := sumN (fun u => isA (th u).pc) n, B := sumN (fun u => isB (th u).pc) n
    O := sumN (fun u => isO (th u).pc) n, W := sumN (fun u => isW (th u).pc) n, X := sumN (fun u => isX (th u).pc) n }

structure Inv (n : Nat) (s : Sys) : Prop where
  ti : ∀ u, TI u s.l (s.th u)
  hl : ∀ u, HL u s.l (s.th u) (holds s.log u)
  g : G s.l (tots n s.th)
  out : ∀ u, n ≤ u → s.th u = {}

theorem isA_nn (p : Pc) : 0 ≤ isA p := by cases p <;> simp [isA]
theorem isB_nn (p : Pc) : 0 ≤ isB p := by cases p <;> simp [isB]
theorem isO_nn (p : Pc) : 0 ≤ isO p := by cases p <;> simp [isO]
theorem isW_nn (p : Pc) : 0 ≤ isW p := by cases p <;> simp [isW]
theorem isX_nn (p : Pc) : 0 ≤ isX p := by cases p <;> simp [isX]
theorem isWX_le (p : Pc) : isW p + isX p ≤ 1 := by cases p <;> simp [isW, isX]

theorem sumN_add (f g : Nat → Int) (n : Nat) : sumN f n + sumN g n = sumN (fun i => f i + g i) n := by
  induction n with
  | zero => rfl
  | succ n ih => simp only [sumN]; omega

/-- Whoever holds something is one of the `n` threads. -/
theorem Inv.lt_of_dep {n : Nat} {s : Sys} (i : Inv n s) {u : Tid} (h : (s.th u).dep ≠ 0) : u < n := by
  by_cases hu : u < n
  · exact hu
  · exfalso; apply h; rw [i.out u (Nat.le_of_not_lt hu)]

theorem Inv.lt_rh {n : Nat} {s : Sys} (i : Inv n s) {u : Tid} (h : s.l.rh = some u) : u < n :=
  i.lt_of_dep (fun hc => by have := ((i.ti u).rh h).1; rw [hc] at this; exact absurd this (Int.lt_irrefl 0))

theorem Inv.wx_other {n : Nat} {s : Sys} (i : Inv n s) {u : Tid} (h : s.l.rh ≠ some u) :
    isW (s.th u).pc = 0 ∧ isX (s.th u).pc = 0 := by
  have h1 : isW (s.th u).pc + isX (s.th u).pc = 0 := Classical.byContradiction (fun hc => h ((i.ti u).wx hc))
  have := isW_nn (s.th u).pc; have := isX_nn (s.th u).pc
  omega

theorem Inv.ctx {n : Nat} {s : Sys} (i : Inv n s) {t : Tid} (ht : t < n) : Ctx t s.l (s.th t) (tots n s.th) := by
  refine ⟨i.ti t, i.g, sumN_le (f := fun u => (s.th u).dep) ht (fun u => (i.ti u).dep),
    sumN_le (f := fun u => isA (s.th u).pc) ht (fun u => isA_nn _), sumN_le (f := fun u => isB (s.th u).pc) ht (fun u => isB_nn _),
    sumN_le (f := fun u => isO (s.th u).pc) ht (fun u => isO_nn _), sumN_le (f := fun u => isW (s.th u).pc) ht (fun u => isW_nn _),
    sumN_le (f := fun u => isX (s.th u).pc) ht (fun u => isX_nn _), ?_, ?_, ?_, ?_⟩
  · intro h1 h2 h3
    cases hr : s.l.rh with
    | none => exact absurd hr h1
    | some u =>
      have hu := (i.ti u).rh hr
      have hr2 : s.l.r2w = (s.th u).dep := (hu.2.resolve_right (fun hc => by rw [h3] at hc; cases hc.1)).2
      have hne : t ≠ u := fun hc => h2 (by rw [hr, hc])
      have := sumN_le2 (f := fun u => (s.th u).dep) ht (i.lt_rh hr) hne (fun u => (i.ti u).dep)
      have h4 := hu.1
      simp only [tots] at *
      omega
  · intro h
    have hz : ∀ u, u ≠ t → isW (s.th u).pc = 0 ∧ isX (s.th u).pc = 0 := by
      intro u hu
      apply i.wx_other
      rcases h with h | h
      · rw [h]; simp
      · rw [h]; intro hc; exact hu (Option.some.inj hc).symm
    exact ⟨sumN_single (f := fun u => isW (s.th u).pc) ht (fun u hu => (hz u hu).1),
      sumN_single (f := fun u => isX (s.th u).pc) ht (fun u hu => (hz u hu).2)⟩
  · intro hs hw
    have hle := sumN_le (f := fun u => (s.th u).dep) ht (fun u => (i.ti u).dep)
    have hd := (i.ti t).dep
    have hR : (tots n s.th).R = sumN (fun u => (s.th u).dep) n := rfl
    cases hwh : s.l.wh with
    | none => have := (i.g.ex0 hs hwh).2.1; omega
    | some u =>
      have h1 := (i.g.ex1 hs (by rw [hwh]; simp)).2.2.2.2
      rcases h1 with h1 | h1
      · have := h1.2.1; omega
      · have hru : s.l.rh = some u := by rw [h1.1, hwh]
        have hu := (i.ti u).rh hru
        have hh : s.l.hc = (s.th u).dep := (hu.2.resolve_left (fun hc => by rw [hs] at hc; cases hc.1)).2.2.2
        have hne : t ≠ u := fun hc => hw (by rw [hwh, hc])
        have := sumN_le2 (f := fun u => (s.th u).dep) ht (i.lt_rh hru) hne (fun u => (i.ti u).dep)
        have := h1.2.1
        omega
  · have he : (tots n s.th).W + (tots n s.th).X = sumN (fun u => isW (s.th u).pc + isX (s.th u).pc) n := sumN_add _ _ _
    rw [he]
    cases hr : s.l.rh with
    | none =>
      rw [sumN_zero]
      · omega
      · intro u _
        have := i.wx_other (u := u) (by rw [hr]; simp)
        omega
    | some v =>
      rw [sumN_single (t := v) (i.lt_rh hr)]
      · exact isWX_le _
      · intro u hu
        have := i.wx_other (u := u) (by rw [hr]; intro hc; exact hu (Option.some.inj hc).symm)
        omega

/-- What a step changes for the other threads keeps their invariant. -/
theorem frame {n : Nat} {s : Sys} (i : Inv n s) {u : Tid} {l' : Lock} (f : FrU u s.l l')
    (hg : s.l.st = .shared → l'.st = .exclusive → l'.wh = some u → isW (s.th u).pc = 1) (h : Hold)
    (hh : HL u s.l (s.th u) h) : TI u l' (s.th u) ∧ HL u l' (s.th u) h := by
  have ti := i.ti u
  rcases f with ⟨f1, f2, f3, f4⟩ | ⟨g1, g2, g3, g4, g5, g6, g7⟩
  · constructor
    · refine ⟨ti.sc, ti.dep, ti.trk, ?_, ?_, ?_, ?_, ?_, ?_⟩
      · intro hw; rw [(f3 (f1.1 hw)).2]; exact ti.wh (f1.1 hw)
      · intro hr
        have hr0 := f2.1 hr
        have := ti.rh hr0
        refine ⟨this.1, ?_⟩
        rcases this.2 with h1 | h1
        · left; rw [(f4 hr0).1, (f4 hr0).2]; exact h1
        · right
          exact ⟨by rw [(f4 hr0).2]; exact h1.1, f1.2 h1.2.1, h1.2.2.1, by rw [(f3 h1.2.1).1]; exact h1.2.2.2⟩
      · intro hx; exact f2.2 (ti.wx hx)
      · intro hw hr
        have := ti.own (f1.1 hw) (fun hc => hr (f2.2 hc))
        exact ⟨this.1, by rw [(f3 (f1.1 hw)).1]; exact this.2⟩
      · rw [ti.mrc]
        congr 1
        · by_cases hw : s.l.wh = some u
          · rw [(f3 hw).1]; simp only [f1, ne_eq, f2]
          · rw [if_neg (fun hc => hw hc.1), if_neg (fun hc => hw (f1.1 hc.1))]
        · simp only [f2]
      · have hp := ti.pc
        have hhc : (l'.wh = some u ∧ l'.hc = 1) ↔ (s.l.wh = some u ∧ s.l.hc = 1) := by
          constructor
          · rintro ⟨a, b⟩; have := f1.1 a; exact ⟨this, by rw [← (f3 this).1]; exact b⟩
          · rintro ⟨a, b⟩; exact ⟨f1.2 a, by rw [(f3 a).1]; exact b⟩
        unfold PcOk at hp ⊢
        split <;> rename_i e <;> simp only [e] at hp <;> first
          | (rw [hhc, f2]; exact hp)
          | simp_all
    · refine ⟨hh.1, ?_, ?_⟩
      · intro hp
        have hw : s.l.wh = some u := by
          have := ti.pc
          unfold PcOk at this; simp only [hp] at this
          exact this.2.1
        rw [(f3 hw).1]; exact hh.2.1 hp
      · intro h1 h2
        have := hh.2.2 h1 h2
        refine ⟨this.1, ?_, by rw [this.2.2, f2]⟩
        rw [this.2.1]
        by_cases hw : s.l.wh = some u
        · rw [(f3 hw).1]; simp only [f1, ne_eq, f2]
        · rw [if_neg (fun hc => hw hc.1), if_neg (fun hc => hw (f1.1 hc.1))]
  · have hW := hg g2 g6 g5
    have hpk := ti.pc
    have hx : isX (s.th u).pc = 0 := by have := isWX_le (s.th u).pc; have := isX_nn (s.th u).pc; omega
    have hrh := ti.rh g1
    have hd : s.l.r2w = (s.th u).dep := (hrh.2.resolve_right (fun hc => by rw [g2] at hc; cases hc.1)).2
    constructor
    · refine ⟨ti.sc, ti.dep, ti.trk, fun _ => g6, ?_, fun _ => g4, ?_, ?_, ?_⟩
      · intro _
        exact ⟨hrh.1, Or.inr ⟨g6, g5, by rw [hW, hx]; rfl, by rw [g7, hd]⟩⟩
      · intro _ hc; exact absurd g4 hc
      · rw [ti.mrc, g1, g4]; simp
      · unfold PcOk at hpk ⊢
        split <;> rename_i e <;> simp only [e] at hpk <;> rw [e] at hW <;> first
          | exact hpk
          | (simp [isW] at hW)
    · refine ⟨hh.1, ?_, ?_⟩
      · intro hp; rw [hp] at hW; simp [isW] at hW
      · intro h1 h2
        have := hh.2.2 h1 h2
        refine ⟨this.1, ?_, by rw [this.2.2, g1, g4]⟩
        rw [this.2.1, g1, g4]; simp

theorem holds_cons_other {e : Ev} {log : List Ev} {u : Tid} (h : e.tid ≠ u) : holds (e :: log) u = holds log u := by
  simp [holds, h]

theorem tots_upd {n : Nat} {th : Tid → Thr} {t : Tid} (ht : t < n) (y : Thr) :
    tots n (upd th t y) = (tots n th).upd (th t) y := by
  have key : ∀ f : Thr → Int, sumN (fun u => f (upd th t y u)) n = sumN (fun u => f (th u)) n - f (th t) + f y := by
    intro f
    rw [sumN_upd (f := fun u => f (th u)) ht (fun u hu => by simp [upd, hu])]
    simp [upd]
  simp only [tots, Tot.upd]
  rw [key (fun x => x.dep), key (fun x => isA x.pc), key (fun x => isB x.pc), key (fun x => isO x.pc),
    key (fun x => isW x.pc), key (fun x => isX x.pc)]

theorem Inv.step {n : Nat} {s s' : Sys} {t : Tid} {c : Choice} (i : Inv n s) (ht : t < n) (hok : StepOk s t c)
    (hs : step s t c = some s') : Inv n s' := by
  unfold WS.RW.step at hs
  cases ho : tstep t s.l (s.th t) c with
  | none => rw [ho] at hs; cases hs
  | some o =>
    rw [ho] at hs
    have hs := Option.some.inj hs
    subst hs
    have hgood : Good t s.l (s.th t) (holds s.log t) (tots n s.th) o := by
      apply good_tstep (i.ctx ht) (i.hl t) _ ho
      cases c <;> exact hok
    obtain ⟨g1, g2, g3, g4, g5⟩ := hgood
    have hfr : ∀ u, u ≠ t → TI u o.1 (s.th u) ∧ HL u o.1 (s.th u) (holds s.log u) := by
      intro u hu
      refine frame i (g4 u hu (Ne.symm hu)) ?_ _ (i.hl u)
      intro a b cc
      have hW : (tots n s.th).W = 1 := g5 a b (by rw [cc]; simp) (by rw [cc]; intro hc; exact hu (Option.some.inj hc))
      have hfr := g4 u hu (Ne.symm hu)
      have hru : s.l.rh = some u := by
        rcases hfr with h | h
        · have := (i.ti u).wh (h.1.1 cc); rw [a] at this; cases this
        · exact h.1
      have := (i.ctx (i.lt_rh hru)).oWX (Or.inr hru)
      rw [← this.1]; exact hW
    have hlog : ∀ u, u ≠ t → holds (commit s t o).log u = holds s.log u := by
      intro u hu
      simp only [commit]
      split
      · rfl
      · exact holds_cons_other (Ne.symm hu)
    have hlogt : holds (commit s t o).log t = (match o.2.2 with | none => holds s.log t | some r => holdStep (holds s.log t) o.2.1.cur r) := by
      simp only [commit]
      split <;> simp_all [holds]
    have hth : ∀ u, u ≠ t → (commit s t o).th u = s.th u := by intro u hu; simp [commit, upd, hu]
    have htt : (commit s t o).th t = o.2.1 := by simp [commit, upd]
    refine ⟨?_, ?_, ?_, ?_⟩
    · intro u
      by_cases hu : u = t
      · subst hu; rw [htt]; exact g1
      · rw [hth u hu]; exact (hfr u hu).1
    · intro u
      by_cases hu : u = t
      · subst hu; rw [htt, hlogt]; exact g2
      · rw [hth u hu, hlog u hu]; exact (hfr u hu).2
    · show G o.1 (tots n (upd s.th t o.2.1))
      rw [tots_upd ht]; exact g3
    · intro u hu
      rw [hth u (fun hc => by rw [hc] at hu; exact absurd ht (Nat.not_lt.2 hu))]; exact i.out u hu

theorem Inv.init (n : Nat) : Inv n {} := by
  have hz : tots n (fun _ => ({} : Thr)) = ⟨0, 0, 0, 0, 0, 0⟩ := by
    simp only [tots]
    congr 1 <;> exact sumN_zero (fun _ _ => rfl)
  refine ⟨fun u => ?_, fun u => ?_, ?_, fun u _ => rfl⟩
  · refine ⟨rfl, Int.le_refl _, by simp, by simp, by simp, by simp [isW, isX], by simp, by simp, trivial⟩
  · refine ⟨fun hc => False.elim hc, fun hc => Pc.noConfusion hc, fun _ _ => ⟨rfl, by simp [holds], by simp [holds]⟩⟩
  · show G {} (tots n (fun _ => ({} : Thr)))
    rw [hz]
    refine ⟨?_, ?_, ?_, ?_, ?_, ?_, ?_, ?_, ?_, ?_, ?_, ?_, ?_, ?_, ?_⟩ <;> simp

theorem inv_of_reach {n : Nat} {s : Sys} (h : Reach n s) : Inv n s := by
  induction h with
  | init => exact Inv.init n
  | step _ ht hok hs ih => exact ih.step ht hok hs

end WS.RW
