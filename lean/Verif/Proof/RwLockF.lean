import Verif.Proof.RwLockE
/-
Promotion, reservation, quiescence and progress of the readers/writer lock.
-/
namespace WS.RW
open Spec

/-- A finished promotion makes the caller the owner. -/
theorem promo_ok {t : Tid} {l : Lock} {x : Thr} {T : Tot} {o : Out} {ch : Choice} (c : Ctx t l x T)
    (hok : ch = .run → TimeoutOk l x.pc) (ho : tstep t l x ch = some o) (hcur : isPr o.2.1.cur) (hr : o.2.2 = some .ok) :
    o.1.wh = some t ∧ o.1.rh ≠ some t := by
  have hc := cur_tstep ho
  cases ch with
  | call op =>
    simp only at hc
    simp only [tstep] at ho
    split at ho
    · rename_i hp
      cases ho
      have hred : ∀ w, (redeemEntry t l { x with cur := op } w false).2.2 ≠ some .ok := by
        intro w; unfold redeemEntry; split <;> simp [fin, goto]
      rw [hc] at hcur
      cases op <;> first | (exact hcur.elim) | skip
      · exact absurd hr (hred _)
      · simp only [callOp, s2mEntry] at hr ⊢
        split at hr
        · rename_i hs
          split at hr
          · rename_i hw
            simp only [hs, hw, if_true, promoted, fin]
            exact ⟨hw, idle_own c hp hw⟩
          · cases hr
        · split at hr
          · exact absurd hr (hred _)
          · cases hr
        · cases hr
    · cases ho
  | fail =>
    simp only [tstep] at ho
    have hsf : ∀ w, semFail l x w = some o → False := by
      intro w h; cases w <;> cases h <;> cases hr
    unfold failStep at ho
    split at ho
    · exact (hsf _ ho).elim
    · exact (hsf _ ho).elim
    · exact (hsf _ ho).elim
    · exact (hsf _ ho).elim
    all_goals first | (cases ho; done) | (cases ho; cases hr)
  | run =>
    simp only at hc
    have hpk := c.ti.pc
    have hto := hok rfl
    simp only [tstep] at ho
    have kf : ∀ k, isPromo k x.cur → k = false := by
      intro k hk
      cases k with
      | false => rfl
      | true =>
        rw [hc] at hcur
        have := isPromo_true hk
        revert hcur this
        cases x.cur <;> simp [isPr, isLM]
    rw [hc] at hcur
    unfold runStep at ho
    split at ho <;> rename_i e <;> simp only [PcOk, e] at hpk
    -- calls that are not promotions
    all_goals try (exfalso; revert hcur; first
      | (have h0 := hpk.1; revert h0; cases x.cur <;> simp [isLS, isAnyLS, isLM, isPr]; done)
      | (cases ho; done))
    -- redeem
    · have hk := kf _ hpk.1
      subst hk
      cases ho
      simp only [redeemCS] at hr ⊢
      split at hr
      · cases hr
      · split at hr
        · cases hr
        · split at hr
          · cases hr
          · split at hr
            · cases hr
            · split at hr
              · rename_i h1 h2 h3 h4 h5
                rw [if_neg h1, if_neg h2, if_neg h3, if_neg h4, if_pos h5]
                have h3' : l.rh = some t := Classical.byContradiction (fun hc => h3 hc)
                simp [promoted, fin, h3']
              · split at hr <;> cases hr
    · split at ho
      · cases ho; cases hr
      · cases ho
    · cases ho
      rw [e] at hto
      simp only [redeemTimed, hto.1, Nat.lt_irrefl, if_false] at hr
      cases hr
    · have hk := kf _ hpk
      subst hk
      cases ho
      simp [ownR2W, promoted, fin]
    -- shared2mutex
    · have hk := kf _ hpk.1
      subst hk
      cases ho
      simp only [s2mCS] at hr ⊢
      split at hr
      · cases hr
      · split at hr
        · cases hr
        · split at hr
          · rename_i h1 h2 h3
            rw [if_neg h1, if_neg h2, if_pos h3]
            refine ⟨by simp [promoted, fin], ?_⟩
            have h2' : l.rh = none := Classical.byContradiction (fun hc => h2 hc)
            simp [promoted, fin, h2']
          · split at hr <;> cases hr
    · split at ho
      · cases ho; cases hr
      · cases ho
    · cases ho
      rw [e] at hto
      simp only [s2mTimed, hto.1, Nat.lt_irrefl, if_false] at hr
      cases hr
    · have hk := kf _ hpk
      subst hk
      cases ho
      simp [ownR2W, promoted, fin]

/-- Who has been promised the promotion, as its caller knows it. -/
theorem Inv.resv {n : Nat} {s : Sys} (i : Inv n s) {u : Tid} (h : (holds s.log u).resv = true) :
    s.l.rh = some u ∨ (s.l.st = .exclusive ∧ s.l.wh = some u ∧ s.l.rh = none) := by
  have hl := i.hl u
  by_cases hp : isPend (s.th u).pc
  · have := (hl.1 hp).2.2; rw [h] at this; cases this
  · by_cases hi : (s.th u).pc = .incW
    · right
      have hpk := (i.ti u).pc
      simp only [PcOk, hi] at hpk
      have hst := (i.ti u).wh hpk.2.1
      refine ⟨hst, hpk.2.1, ?_⟩
      rcases (i.g.ex1 hst (by rw [hpk.2.1]; simp)).2.2.2.2 with h1 | h1
      · exact h1.1
      · exact absurd (h1.1.trans hpk.2.1) hpk.2.2
    · exact Or.inl ((hl.2.2 hp hi).2.2.1 h).1

theorem Inv.resv_unique {n : Nat} {s : Sys} (i : Inv n s) {t u : Tid} (h1 : (holds s.log t).resv = true)
    (h2 : (holds s.log u).resv = true) : t = u := by
  rcases i.resv h1 with a | a <;> rcases i.resv h2 with b | b
  · rw [a] at b; exact Option.some.inj b
  · rw [a] at b; cases b.2.2
  · rw [b] at a; cases a.2.2
  · rw [a.2.1] at b; exact Option.some.inj b.2.1

/-- While another thread has the reservation, reserving or promoting fails and changes nothing. -/
theorem resv_refused {n : Nat} {s s' : Sys} {t u : Tid} {ch : Choice} {op : Op} {r : Res} (i : Inv n s) (hne : u ≠ t)
    (hu : (holds s.log u).resv = true) (hs : step s t ch = some s') (hlog : s'.log = ⟨t, op, r⟩ :: s.log)
    (hop : op = .reserve ∨ isS2 op) : (∃ e, r = .err e) ∧ s'.l = s.l := by
  obtain ⟨o, ho, rfl⟩ := step_some hs
  have hrt : s.l.rh ≠ some t := by
    rcases i.resv hu with h | h
    · rw [h]; intro hc; exact hne (Option.some.inj hc)
    · rw [h.2.2]; simp
  have hwt : s.l.wh ≠ some t := by
    rcases i.resv hu with h | h
    · intro hw
      have hst := (i.ti t).wh hw
      rcases (i.g.ex1 hst (by rw [hw]; simp)).2.2.2.2 with h1 | h1
      · rw [h] at h1; cases h1.1
      · rw [h, hw] at h1; exact hne (Option.some.inj h1.1)
    · rw [h.2.1]; intro hc; exact hne (Option.some.inj hc)
  have hsr : s.l.st = .shared → s.l.rh ≠ none := by
    intro hst
    rcases i.resv hu with h | h
    · rw [h]; simp
    · rw [hst] at h; cases h.1
  have hwx := i.wx_other hrt
  obtain ⟨r', hr', he⟩ : ∃ r', o.2.2 = some r' ∧ (⟨t, o.2.1.cur, r'⟩ : Ev) = ⟨t, op, r⟩ := by
    simp only [commit] at hlog
    split at hlog
    · have := congrArg List.length hlog; simp at this
    · rename_i r' h; exact ⟨r', h, (List.cons.inj hlog).1⟩
  have hcur : o.2.1.cur = op := congrArg Ev.op he
  have hrr : r' = r := congrArg Ev.res he
  subst hrr
  show (∃ e, r' = .err e) ∧ o.1 = s.l
  have hc := cur_tstep ho
  rw [hcur] at hc
  have fin_err : ∀ (x : Thr) e, (fin s.l x (.err e)).2.2 = some r' → (∃ e, r' = .err e) ∧ (fin s.l x (.err e)).1 = s.l := by
    intro x e h; exact ⟨⟨e, (Option.some.inj h).symm⟩, rfl⟩
  have hrd : ∀ (x : Thr) w k, (redeemEntry t s.l x w k).2.2 = some r' →
      (∃ e, r' = .err e) ∧ (redeemEntry t s.l x w k).1 = s.l := by
    intro x w k h
    unfold redeemEntry at h ⊢
    by_cases h1 : s.l.st = .exclusive
    · rw [if_pos h1] at h ⊢; exact fin_err _ _ h
    · rw [if_neg h1] at h; cases h
  cases ch with
  | call op' =>
    simp only at hc
    subst hc
    simp only [tstep] at ho
    split at ho
    · cases ho
      rcases hop with rfl | hop
      · simp only [callOp, reserveEntry] at hr' ⊢
        by_cases h1 : s.l.st = .exclusive
        · rw [if_pos h1] at hr' ⊢; exact fin_err _ _ hr'
        · rw [if_neg h1] at hr'; cases hr'
      · cases op <;> first | exact hop.elim | skip
        simp only [callOp, s2mEntry, hwt, hrt, if_false] at hr' ⊢
        cases hst : s.l.st <;> simp only [hst] at hr' ⊢
        · exact fin_err _ _ hr'
        · cases hr'
        · exact fin_err _ _ hr'
    · cases ho
  | fail =>
    simp only [tstep] at ho
    have hsf : ∀ w, semFail s.l (s.th t) w = some o → (∃ e, r' = .err e) ∧ o.1 = s.l := by
      intro w h
      cases w <;> cases h
      · exact fin_err _ _ hr'
      · exact fin_err _ _ hr'
    unfold failStep at ho
    split at ho
    · exact hsf _ ho
    · exact hsf _ ho
    · exact hsf _ ho
    · exact hsf _ ho
    all_goals first | (cases ho; done) | (cases ho; cases hr')
  | run =>
    simp only at hc
    have hpk := (i.ti t).pc
    simp only [tstep] at ho
    unfold runStep at ho
    split at ho <;> rename_i e <;> simp only [PcOk, e] at hpk <;> rw [e] at hwx <;> simp only [isW, isX] at hwx
    all_goals try (exfalso; first
      | (cases ho; done)
      | (exact absurd hwx.1 (by decide))
      | (exact absurd hwx.2 (by decide))
      | (have h0 := hpk.1; rw [← hc] at h0; revert h0; rcases hop with rfl | hop
         · simp [isLS, isAnyLS, isLM]
         · revert hop; cases op <;> simp [isLS, isAnyLS, isLM, isS2]))
    · -- reserve
      cases ho
      simp only [fin3, fin, reserveCS] at hr' ⊢
      split
      · rename_i h1; rw [if_pos h1] at hr'; exact ⟨⟨_, (Option.some.inj hr').symm⟩, rfl⟩
      · rename_i h1
        have hst : s.l.st = .shared := Classical.byContradiction (fun hc => h1 hc)
        rw [if_neg h1, if_pos (hsr hst)] at hr'
        rw [if_pos (hsr hst)]
        exact ⟨⟨_, (Option.some.inj hr').symm⟩, rfl⟩
    · -- redeem
      cases ho
      simp only [redeemCS] at hr' ⊢
      split
      · rename_i h1; rw [if_pos h1] at hr'; exact fin_err _ _ hr'
      · rename_i h1
        have hst : s.l.st = .shared := Classical.byContradiction (fun hc => h1 hc)
        rw [if_neg h1, if_neg (hsr hst), if_pos hrt] at hr'
        rw [if_neg (hsr hst)]
        exact fin_err _ _ hr'
    · -- shared2mutex
      cases ho
      simp only [s2mCS] at hr' ⊢
      split
      · rename_i h1; rw [if_pos h1] at hr'; exact fin_err _ _ hr'
      · rename_i h1
        have hst : s.l.st = .shared := Classical.byContradiction (fun hc => h1 hc)
        rw [if_neg h1, if_pos (hsr hst)] at hr'
        rw [if_pos (hsr hst)]
        exact fin_err _ _ hr'

/-! ### quiescence -/

theorem quiescent {n : Nat} {s : Sys} (i : Inv n s) (hi : ∀ u, u < n → (s.th u).pc = .idle)
    (hh : ∀ u, u < n → (holds s.log u).sh = 0 ∧ (holds s.log u).ex = 0) :
    s.l.st = .unlocked ∧ s.l.hc = 0 ∧ s.l.wh = none ∧ s.l.rh = none ∧ s.l.rw = 0 ∧ s.l.ww = 0 ∧
    s.l.semR = 0 ∧ s.l.semW = 0 ∧ s.l.semX = 0 := by
  have hidle : ∀ u, (s.th u).pc = .idle := by
    intro u
    by_cases hu : u < n
    · exact hi u hu
    · rw [i.out u (Nat.le_of_not_lt hu)]
  have hz : ∀ u, (holds s.log u).sh = 0 ∧ (holds s.log u).ex = 0 → (s.th u).dep = 0 ∧ ¬ (s.l.wh = some u ∧ s.l.rh ≠ some u) := by
    intro u hu
    have h3 := (i.hl u).2.2 (by rw [hidle u]; exact id) (by rw [hidle u]; simp)
    refine ⟨by have := h3.1; omega, fun hc => ?_⟩
    have := h3.2.1
    rw [if_pos hc] at this
    have := ((i.ti u).own hc.1 hc.2).2
    omega
  have hdep : ∀ u, u < n → (s.th u).dep = 0 := fun u hu => (hz u (hh u hu)).1
  have hrn : s.l.rh = none := by
    cases hr : s.l.rh with
    | none => rfl
    | some v => have := ((i.ti v).rh hr).1; have := hdep v (i.lt_rh hr); omega
  have hR : (tots n s.th).R = 0 := sumN_zero (fun u hu => hdep u hu)
  have hA : (tots n s.th).A = 0 := sumN_zero (fun u _ => by show isA (s.th u).pc = 0; rw [hidle u]; rfl)
  have hB : (tots n s.th).B = 0 := sumN_zero (fun u _ => by show isB (s.th u).pc = 0; rw [hidle u]; rfl)
  have hO : (tots n s.th).O = 0 := sumN_zero (fun u _ => by show isO (s.th u).pc = 0; rw [hidle u]; rfl)
  have hst : s.l.st = .unlocked := by
    cases hst : s.l.st with
    | unlocked => rfl
    | shared =>
      have h := i.g.sh hst
      have hcr := i.g.cr
      have := i.g.nrw
      have h2 := h.2.1
      rw [if_neg (fun hc => hc.1 hrn)] at h2
      have := h.2.2.1
      omega
    | exclusive =>
      cases hw : s.l.wh with
      | none =>
        have h := (i.g.ex0 hst hw).2.2.2.1
        have hcw := i.g.cw
        rw [hst, if_neg (by simp)] at hcw
        have := i.g.nww
        omega
      | some v =>
        by_cases hv : v < n
        · exact absurd ⟨hw, by rw [hrn]; simp⟩ (hz v (hh v hv)).2
        · have hm := (i.ti v).mrc
          rw [i.out v (Nat.le_of_not_lt hv), if_pos ⟨hw, by rw [hrn]; simp⟩, hrn] at hm
          have := ((i.ti v).own hw (by rw [hrn]; simp)).2
          simp at hm
          omega
  have h := i.g.un hst
  exact ⟨hst, h.2.2.1, h.1, h.2.1, h.2.2.2.2.2.2.2.1, h.2.2.2.2.2.2.2.2.1, h.2.2.2.2.1, h.2.2.2.2.2.1, h.2.2.2.2.2.2.1⟩

/-! ### progress -/

theorem sumN_pos {f : Nat → Int} {n : Nat} (h : 0 < sumN f n) : ∃ u, u < n ∧ 0 < f u := by
  induction n with
  | zero => simp [sumN] at h
  | succ n ih =>
    simp only [sumN] at h
    by_cases hf : 0 < f n
    · exact ⟨n, by omega, hf⟩
    · obtain ⟨u, hu, hf⟩ := ih (by omega)
      exact ⟨u, by omega, hf⟩

/-- If nobody can take a step, whoever waits is waiting for a thread that has returned from its last
call and still holds the lock. -/
theorem stuck_holder {n : Nat} {s : Sys} (i : Inv n s) (hn : ∀ u, step s u .run = none) {v : Tid}
    (hv : (s.th v).pc ≠ .idle) :
    ∃ t, t < n ∧ (s.th t).pc = .idle ∧ 0 < (holds s.log t).sh + (holds s.log t).ex := by
  have hrun : ∀ u, runStep u s.l (s.th u) = none := by
    intro u
    have := hn u
    unfold step tstep at this
    cases h : runStep u s.l (s.th u) with
    | none => rfl
    | some o => rw [h] at this; cases this
  -- what a thread that cannot run does
  have hpc : ∀ u, (s.th u).pc = .idle ∨
      (isA (s.th u).pc = 1 ∧ s.l.semR = 0 ∧ isB (s.th u).pc = 0 ∧ isW (s.th u).pc = 0) ∨
      (isB (s.th u).pc = 1 ∧ s.l.semW = 0 ∧ isA (s.th u).pc = 0 ∧ isW (s.th u).pc = 0) ∨
      (isW (s.th u).pc = 1 ∧ s.l.semX = 0 ∧ isA (s.th u).pc = 0 ∧ isB (s.th u).pc = 0) := by
    intro u
    have h := hrun u
    unfold runStep at h
    split at h <;> rename_i e
    all_goals first
      | (left; exact e)
      | (cases h; done)
      | skip
    · split at h
      · cases h
      · right; left; exact ⟨by rw [e]; rfl, by omega, by rw [e]; rfl, by rw [e]; rfl⟩
    · split at h
      · cases h
      · right; right; left; exact ⟨by rw [e]; rfl, by omega, by rw [e]; rfl, by rw [e]; rfl⟩
    · split at h
      · cases h
      · right; right; right; exact ⟨by rw [e]; rfl, by omega, by rw [e]; rfl, by rw [e]; rfl⟩
    · split at h
      · cases h
      · right; right; right; exact ⟨by rw [e]; rfl, by omega, by rw [e]; rfl, by rw [e]; rfl⟩
  have hO : (tots n s.th).O = 0 := sumN_zero (fun u _ => by
    show isO (s.th u).pc = 0
    have h := hrun u
    cases e : (s.th u).pc <;> first | rfl | (unfold runStep at h; rw [e] at h; cases h))
  have hX : (tots n s.th).X = 0 := sumN_zero (fun u _ => by
    show isX (s.th u).pc = 0
    have h := hrun u
    cases e : (s.th u).pc <;> first | rfl | (unfold runStep at h; rw [e] at h; cases h))
  have iA : isA Pc.idle = 0 := rfl
  have iB : isB Pc.idle = 0 := rfl
  have iW : isW Pc.idle = 0 := rfl
  have getA : 0 < (tots n s.th).A → s.l.semR = 0 := by
    intro h
    obtain ⟨u, _, hu⟩ := sumN_pos h
    rcases hpc u with h | h | h | h
    · rw [h] at hu; omega
    · exact h.2.1
    · omega
    · omega
  have getB : 0 < (tots n s.th).B → s.l.semW = 0 := by
    intro h
    obtain ⟨u, _, hu⟩ := sumN_pos h
    rcases hpc u with h | h | h | h
    · rw [h] at hu; omega
    · omega
    · exact h.2.1
    · omega
  have getW : 0 < (tots n s.th).W → s.l.semX = 0 := by
    intro h
    obtain ⟨u, _, hu⟩ := sumN_pos h
    rcases hpc u with h | h | h | h
    · rw [h] at hu; omega
    · omega
    · omega
    · exact h.2.1
  have hvn : v < n := by
    by_cases hv' : v < n
    · exact hv'
    · exact absurd (by rw [i.out v (Nat.le_of_not_lt hv')]) hv
  have cv := i.ctx hvn
  have hcr := i.g.cr
  have hcw := i.g.cw
  have hnrw := i.g.nrw
  have hnww := i.g.nww
  cases hst : s.l.st with
  | unlocked =>
    exfalso
    have h := i.g.un hst
    rw [hst, if_neg (by simp)] at hcw
    have a1 := cv.oA; have a2 := cv.oB; have a3 := cv.oW
    rcases hpc v with h' | h' | h' | h'
    · exact hv h'
    · omega
    · omega
    · omega
  | exclusive =>
    rw [hst, if_neg (by simp)] at hcw
    cases hw : s.l.wh with
    | none =>
      exfalso
      have h := (i.g.ex0 hst hw).2.2.2.1
      have hs1 : s.l.semW = 1 := by omega
      have := getB (by omega)
      omega
    | some t =>
      have h1 := (i.g.ex1 hst (by rw [hw]; simp)).2.2.2.2
      have hrn : s.l.rh = none := by
        rcases h1 with h1 | h1
        · exact h1.1
        · exfalso
          have hs1 : s.l.semX = 1 := by omega
          have := getW (by omega)
          omega
      have hto := (i.ti t).own hw (by rw [hrn]; simp)
      have htn : t < n := by
        by_cases ht : t < n
        · exact ht
        · exfalso
          have hm := (i.ti t).mrc
          rw [i.out t (Nat.le_of_not_lt ht), if_pos ⟨hw, by rw [hrn]; simp⟩, hrn] at hm
          simp at hm
          omega
      have hidle : (s.th t).pc = .idle := by
        have hpk := (i.ti t).pc
        have hwx := i.wx_other (u := t) (by rw [hrn]; simp)
        rcases hpc t with h | h | h | h
        · exact h
        · exfalso
          cases e : (s.th t).pc <;> rw [e] at h <;> simp [isA] at h <;> simp only [PcOk, e] at hpk <;> exact hpk.2.1 hw
        · exfalso
          cases e : (s.th t).pc <;> rw [e] at h <;> simp [isB] at h <;> simp only [PcOk, e] at hpk <;> exact hpk.2.1 hw
        · exfalso; omega
      refine ⟨t, htn, hidle, ?_⟩
      have h3 := ((i.hl t).2.2 (by rw [hidle]; exact id) (by rw [hidle]; simp)).2.1
      rw [if_pos ⟨hw, by rw [hrn]; simp⟩] at h3
      have := hto.2
      omega
  | shared =>
    have hsh := i.g.sh hst
    -- a thread with a shared hold is idle unless it is waiting for its promotion
    have hsR : s.l.semR = 0 := by
      by_cases hz : s.l.semR = 0
      · exact hz
      · have : s.l.semR = 0 := getA (by omega)
        omega
    have hold : ∀ u, 0 < (s.th u).dep → isW (s.th u).pc = 0 → u < n ∧ (s.th u).pc = .idle ∧ 0 < (holds s.log u).sh + (holds s.log u).ex := by
      intro u hd hw0
      have hidle : (s.th u).pc = .idle := by
        have hpk := (i.ti u).pc
        rcases hpc u with h | h | h | h
        · exact h
        · exfalso
          cases e : (s.th u).pc <;> rw [e] at h <;> simp [isA] at h <;> simp only [PcOk, e] at hpk <;> (have := hpk.2.2; omega)
        · exfalso
          cases e : (s.th u).pc <;> rw [e] at h <;> simp [isB] at h <;> simp only [PcOk, e] at hpk <;> (have := hpk.2.2; omega)
        · exfalso; omega
      refine ⟨i.lt_of_dep (fun hc => by rw [hc] at hd; exact absurd hd (Int.lt_irrefl 0)), hidle, ?_⟩
      have h3 := ((i.hl u).2.2 (by rw [hidle]; exact id) (by rw [hidle]; simp)).1
      omega
    have hRpos : 0 < (tots n s.th).R := by
      cases hr : s.l.rh with
      | none =>
        have h2 := hsh.2.1
        rw [if_neg (fun hc => hc.1 hr)] at h2
        have := hsh.2.2.1
        omega
      | some w =>
        have h1 := ((i.ti w).rh hr).1
        have h2 := (i.ctx (i.lt_rh hr)).oR
        omega
    by_cases hW : (tots n s.th).W = 0
    · obtain ⟨u, hun, hu⟩ := sumN_pos hRpos
      have hw0 : isW (s.th u).pc = 0 := by
        have h1 := (i.ctx hun).oW
        have := isW_nn (s.th u).pc
        omega
      exact ⟨u, hold u hu hw0⟩
    · have hWp : 0 < (tots n s.th).W := by have := i.g.nW; omega
      obtain ⟨w, hwn, hw⟩ := sumN_pos hWp
      have hw : 0 < isW (s.th w).pc := hw
      have hrw : s.l.rh = some w := (i.ti w).wx (by have := isX_nn (s.th w).pc; omega)
      have hr2 : s.l.r2w = (s.th w).dep := (((i.ti w).rh hrw).2.resolve_right (fun hc => by rw [hst] at hc; cases hc.1)).2
      have h2 := hsh.2.1
      rw [if_neg (fun hc => hW hc.2)] at h2
      have h3 := hsh.2.2.2.2.2.2.2.1 hW
      -- somebody else holds
      have hex : 0 < sumN (fun u => if u = w then 0 else (s.th u).dep) n := by
        have := sumN_upd (f := fun u => (s.th u).dep) (g := fun u => if u = w then 0 else (s.th u).dep) hwn
          (fun u hu => by simp [hu])
        have hR : (tots n s.th).R = sumN (fun u => (s.th u).dep) n := rfl
        simp only [if_true] at this
        omega
      obtain ⟨u, hun, hu⟩ := sumN_pos hex
      have huw : u ≠ w := by intro hc; simp [hc] at hu
      simp only [huw, if_false] at hu
      have := (i.wx_other (u := u) (by rw [hrw]; intro hc; exact huw (Option.some.inj hc).symm)).1
      exact ⟨u, hold u hu this⟩

end WS.RW
