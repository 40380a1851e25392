import Verif.Proof.RwLock
/-
Each step of a thread preserves the invariant: unlocking.
-/
namespace WS.RW
open Spec

theorem notify_shared {l : Lock} (hs : l.st = .shared) (h : 0 < l.rw → 0 < l.ww) : notify l = l := by
  unfold notify
  by_cases hw : 0 < l.ww
  · simp [hw, hs]
  · rw [if_neg hw, if_neg (fun hc => hw (h hc))]

theorem autoAbandon_eq {t : Tid} {l : Lock} {x : Thr} {T : Tot} (c : Ctx t l x T) (hst : l.st = .shared)
    (hx : isW x.pc = 0) (hd : 0 < x.dep) (ab : Bool) (hab : l.rh = some t → x.dep = 1 → ab = true) :
    autoAbandon t l ab = some ab := by
  unfold autoAbandon
  rw [if_neg]
  rintro ⟨h1, h2, h3⟩
  have hsh := c.g.sh hst
  have hcw := c.g.cw
  rw [if_pos hst] at hcw
  have nB := c.g.nB
  have oR := c.oR
  by_cases hr : l.rh = some t
  · have hw := (c.oWX (Or.inr hr)).1
    rw [hx] at hw
    have := hsh.2.1
    rw [if_pos ⟨h2, hw⟩] at this
    have hd1 : x.dep = 1 := by have := c.g.nww; omega
    have := hab hr hd1
    rw [h1] at this; cases this
  · have hr2 := c.oRh h2 hr hst
    have := hsh.2.1
    by_cases hw : T.W = 0
    · rw [if_pos ⟨h2, hw⟩] at this
      have := c.g.nww; omega
    · rw [if_neg (fun hc => hw hc.2)] at this
      have := c.g.nW; omega

/-- What releasing one hold does. -/
structure Released (t : Tid) (l : Lock) (x : Thr) (T : Tot) (ab : Bool) (l' : Lock) (x' : Thr) : Prop where
  ti : TI t l' { x' with pc := .idle }
  g : G l' (T.upd x { x' with pc := .idle })
  fr : ∀ u, u ≠ t → t ≠ u → FrU u l l'
  gr : l.st = .shared → l'.st = .exclusive → l'.wh ≠ none → l'.wh ≠ some t → T.W = 1
  wh : l'.wh ≠ some t
  dep : x'.dep = (if 0 < x.dep then x.dep - 1 else 0)
  rh : l'.rh = some t ↔ (l.rh = some t ∧ ab = false)
  cur : x'.cur = x.cur

set_option hygiene false in
macro "rwrel" : tactic => `(tactic|
  (refine ⟨⟨?_, ?_, ?_, ?_, ?_, ?_, ?_, ?_, ?_⟩, ⟨?_, ?_, ?_, ?_, ?_, ?_, ?_, ?_, ?_, ?_, ?_, ?_, ?_, ?_, ?_⟩, ?_, ?_, ?_, ?_, ?_, ?_⟩ <;>
   simp_all [Tot.upd, isA, isB, isO, isW, isX, isPend, isSm, PcOk, FrU] <;> try omega))

set_option maxHeartbeats 4000000 in
theorem released_shared {t : Tid} {l : Lock} {x : Thr} {T : Tot} (c : Ctx t l x T) (hst : l.st = .shared)
    (hp : x.pc = .idle) (hd : 0 < x.dep) (ab : Bool) (hab : l.rh = some t → x.dep = 1 → ab = true) :
    Released t l x T ab (unlockSharedTail t (unlockAbandon t l x ab).1) (untrack (unlockAbandon t l x ab).2) := by
  obtain ⟨pc, cur, trk, dep, sc, mrc⟩ := x
  obtain ⟨st, hc, wh, rh, rw, ww, r2w, prom, semR, semW, semX⟩ := l
  obtain ⟨tR, tA, tB, tO, tW, tX⟩ := T
  obtain ⟨⟨isc, idep, itrk, twh, trh, wx, own, imrc, pcok⟩, ⟨nR, nA, nB, nO, nW, nX, un, sh, ex0, ex1, cr, cw, q, nrw, nww⟩,
    oR, oA, oB, oO, oW, oX, oRh, oWX, oEx, w1⟩ := c
  clear pcok
  simp only at *
  subst hst hp
  have htr : trk = true := itrk.2 hd
  subst htr
  simp [isA, isB, isO, isW, isX] at *
  obtain ⟨s1, s2, s3, s4, s5, s6, s7, s8, s9⟩ := sh
  subst s1 s4 s5 s6 s7 isc
  rcases opt3 rh t with rfl | rfl | hr
  · -- no reservation
    simp at *
    subst s9
    simp [unlockAbandon, untrack, unlockSharedTail]
    by_cases h0 : hc - 1 = 0
    · simp only [h0, if_true]
      by_cases hw : 0 < ww
      · simp only [notify, hw, if_true]
        simp_all
        rwrel
      · have hrw : rw = 0 := by omega
        simp only [notify, hw, hrw, if_false]
        simp_all
        rwrel
    · simp only [h0, if_false]
      rw [notify_shared rfl (fun h => q h)]
      rwrel
  · -- own reservation
    simp at *
    cases ab
    · simp [unlockAbandon, untrack, unlockSharedTail]
      have h0 : hc - 1 ≠ 0 := by simp_all; omega
      simp only [h0, if_false]
      rw [notify_shared rfl (fun h => q h)]
      have hd2 : sc ≠ 1 := fun h => by simp [h] at hab
      rwrel
    · simp [unlockAbandon, untrack, unlockSharedTail]
      by_cases h0 : hc - 1 - 1 = 0
      · simp only [h0, if_true]
        by_cases hw : 0 < ww
        · simp only [notify, hw, if_true]
          simp_all
          rwrel
        · have hrw : rw = 0 := by omega
          simp only [notify, hw, hrw, if_false]
          simp_all
          rwrel
      · simp only [h0, if_false]
        rw [notify_shared rfl (fun h => q h)]
        rwrel
  · -- somebody else's reservation
    obtain ⟨hr1, hr2⟩ := hr
    have hx := oRh hr1 hr2
    simp only [unlockAbandon, hr2, and_false, if_false, untrack, if_true, unlockSharedTail, ne_eq, hr1, not_false_eq_true, and_true]
    have h0 : hc - 1 ≠ 0 := by
      by_cases hw0 : tW = 0 <;> simp [hw0, hr1] at s2 <;> omega
    simp only [h0, if_false]
    by_cases hg : hc - 1 = r2w
    · have hw1 : tW ≠ 0 := by
        intro hc; simp [hr1, hc] at s2; omega
      simp only [hg, if_true]
      simp [hw1, hr1] at s2
      have hs0 : semR = 0 := by omega
      have hd1 : sc = 1 := by omega
      subst hs0 hd1
      have hrr : r2w = tR - 1 := by omega
      have hw2 : tW = 1 := by omega
      subst hw2
      clear w1 hw1 oWX oW
      have hcw : tB = ww - 1 := by omega
      refine ⟨⟨?_, ?_, ?_, ?_, ?_, ?_, ?_, ?_, ?_⟩, ⟨?_, ?_, ?_, ?_, ?_, ?_, ?_, ?_, ?_, ?_, ?_, ?_, ?_, ?_, ?_⟩, (by
        intro u hu hu'
        by_cases hru : rh = some u
        · right; simp_all
        · left; simp_all), ?_, ?_, ?_, ?_, ?_⟩
      all_goals simp_all [Tot.upd, isA, isB, isO, isW, isX, isPend, isSm, PcOk, FrU]
      all_goals try omega
    · simp only [hg, if_false]
      rw [notify_shared rfl (fun h => q h)]
      rwrel

set_option maxHeartbeats 4000000 in
theorem released_excl {t : Tid} {l : Lock} {x : Thr} {T : Tot} (c : Ctx t l x T) (hwh : l.wh = some t)
    (hp : x.pc = .idle) (hc1 : l.hc = 1) (ab : Bool) :
    l.st = .exclusive ∧
    Released t l x T ab (notify { l with hc := l.hc - 1, st := .unlocked, wh := none, prom := 0 }) { x with mrc := x.mrc - 1 } := by
  obtain ⟨pc, cur, trk, dep, sc, mrc⟩ := x
  obtain ⟨st, hc, wh, rh, rw, ww, r2w, prom, semR, semW, semX⟩ := l
  obtain ⟨tR, tA, tB, tO, tW, tX⟩ := T
  obtain ⟨⟨isc, idep, itrk, twh, trh, wx, own, imrc, pcok⟩, ⟨nR, nA, nB, nO, nW, nX, un, sh, ex0, ex1, cr, cw, q, nrw, nww⟩,
    oR, oA, oB, oO, oW, oX, oRh, oWX, oEx, w1⟩ := c
  clear pcok
  simp only at *
  subst hp hwh
  have := twh rfl
  subst this
  refine ⟨rfl, ?_⟩
  simp [isA, isB, isO, isW, isX] at *
  have hrn : rh = none := by
    rcases ex1.2.2.2.2 with h | h
    · exact h.1
    · exfalso; simp_all
  subst hrn
  simp at *
  subst hc1
  by_cases hw : 0 < ww
  · simp only [notify, hw, if_true]
    simp_all
    rwrel
  · by_cases hr : 0 < rw
    · have hcast : ((rw.toNat : Nat) : Int) = rw := by omega
      simp only [notify, hw, hr, if_false, if_true]
      simp_all
      rwrel
    · have hrw : rw = 0 := by omega
      simp only [notify, hw, hrw, if_false]
      simp_all
      rwrel

/-- An unlock by a holder succeeds and releases exactly one hold. -/
theorem unlockCS_holder {t : Tid} {l : Lock} {x : Thr} {T : Tot} (c : Ctx t l x T) (hp : x.pc = .idle) (ab ad : Bool)
    (hh : 0 < x.dep ∨ (l.wh = some t ∧ l.hc = 1)) (hab : l.rh = some t → x.dep = 1 → ab = true) :
    ∃ l' x', unlockCS t l x ab ad = (l', x', .ok) ∧ Released t l x T ab l' x' := by
  by_cases hwt : l.wh = some t
  · have hrt : l.rh ≠ some t := by
      intro hr
      rcases (c.ti.rh hr).2 with h | h
      · have := c.ti.wh hwt; rw [h.1] at this; cases this
      · rw [hp] at h; simp [isW, isX] at h
    have hd := (c.ti.own hwt hrt).1
    have hc1 : l.hc = 1 := by
      rcases hh with h | h
      · omega
      · exact h.2
    obtain ⟨hst, hrel⟩ := released_excl c hwt hp hc1 ab
    refine ⟨_, _, ?_, hrel⟩
    simp [unlockCS, hst, hwt, hc1]
  · have hd : 0 < x.dep := by rcases hh with h | h; exact h; exact absurd h.1 hwt
    have hst : l.st = .shared := by
      cases hs : l.st with
      | shared => rfl
      | unlocked => have := (c.g.un hs).2.2.2.1; have := c.oR; omega
      | exclusive => have := c.oEx hs hwt; omega
    refine ⟨_, _, ?_, released_shared c hst hp hd ab hab⟩
    simp only [unlockCS, hst]
    rw [autoAbandon_eq c hst (by rw [hp]; rfl) hd ab hab]

/-- Forgetting where a thread is. -/
theorem Ctx.toIdle {t : Tid} {l : Lock} {x : Thr} {T : Tot} (c : Ctx t l x T)
    (hA : isA x.pc = 0) (hB : isB x.pc = 0) (hO : isO x.pc = 0) (hW : isW x.pc = 0) (hX : isX x.pc = 0) :
    Ctx t l { x with pc := .idle } T := by
  obtain ⟨⟨isc, idep, itrk, twh, trh, wx, own, imrc, pcok⟩, g, oR, oA, oB, oO, oW, oX, oRh, oWX, oEx, w1⟩ := c
  rw [hA] at oA; rw [hB] at oB; rw [hO] at oO; rw [hW] at oW oWX trh; rw [hX] at oX oWX trh
  exact ⟨⟨isc, idep, itrk, twh, trh, by intro h; exact absurd rfl h, own, imrc, trivial⟩, g, oR, oA, oB, oO, oW, oX, oRh, oWX, oEx, w1⟩

theorem upd_idle {x y : Thr} {T : Tot}
    (hA : isA x.pc = 0) (hB : isB x.pc = 0) (hO : isO x.pc = 0) (hW : isW x.pc = 0) (hX : isX x.pc = 0) :
    T.upd { x with pc := .idle } y = T.upd x y := by
  simp only [Tot.upd, hA, hB, hO, hW, hX, show isA Pc.idle = 0 from rfl, show isB Pc.idle = 0 from rfl,
    show isO Pc.idle = 0 from rfl, show isW Pc.idle = 0 from rfl, show isX Pc.idle = 0 from rfl]

theorem unlockCS_pc (t : Tid) (l : Lock) (x : Thr) (ab ad : Bool) (p : Pc) :
    unlockCS t l { x with pc := p } ab ad =
      ((unlockCS t l x ab ad).1, { (unlockCS t l x ab ad).2.1 with pc := p }, (unlockCS t l x ab ad).2.2) := by
  unfold unlockCS
  cases l.st with
  | unlocked => rfl
  | shared =>
    cases h : autoAbandon t l ab with
    | none => rfl
    | some a =>
      simp only [unlockAbandon]
      split <;> simp [untrack] <;> split <;> rfl
  | exclusive =>
    simp only
    repeat' split
    all_goals first | rfl | simp_all

theorem good_unCS {t : Tid} {l : Lock} {x : Thr} {h : Hold} {T : Tot} {ab ad : Bool} (c : Ctx t l x T)
    (hl : HL t l x h) (hp : x.pc = .unCS ab ad) : Good t l x h T (fin3 (unlockCS t l x ab ad)) := by
  have hpk := c.ti.pc
  simp only [PcOk, hp] at hpk
  obtain ⟨hcur, hh, hab⟩ := hpk
  have c0 := c.toIdle (by rw [hp]; rfl) (by rw [hp]; rfl) (by rw [hp]; rfl) (by rw [hp]; rfl) (by rw [hp]; rfl)
  obtain ⟨l', x', he, hr⟩ := unlockCS_holder c0 rfl ab ad hh hab
  rw [unlockCS_pc] at he
  have hp' : (unlockCS t l x ab ad).1 = l' ∧ { (unlockCS t l x ab ad).2.1 with pc := .idle } = x' ∧ (unlockCS t l x ab ad).2.2 = .ok := by
    rw [Prod.mk.injEq, Prod.mk.injEq] at he; exact he
  obtain ⟨e1, e2, e3⟩ := hp'
  have hfin : fin3 (unlockCS t l x ab ad) = (l', x', some .ok) := by
    simp only [fin3, fin, e1, e3, e2]
  have hxi : { x' with pc := .idle } = x' := by rw [← e2]
  rw [hfin]
  have hti := hr.ti; have hg := hr.g
  rw [hxi] at hti hg
  rw [upd_idle (by rw [hp]; rfl) (by rw [hp]; rfl) (by rw [hp]; rfl) (by rw [hp]; rfl) (by rw [hp]; rfl)] at hg
  refine ⟨hti, ?_, hg, hr.fr, hr.gr⟩
  have hpc' : x'.pc = .idle := by rw [← e2]
  have hcur' : x'.cur = .unlock ab ad := by rw [hr.cur]; exact hcur
  show HL t l' x' (holdStep h x'.cur .ok)
  rw [hcur']
  have h3 := hl.2.2 (by rw [hp]; exact id) (by rw [hp]; simp)
  have hdep := hr.dep
  have hrh := hr.rh
  have hwh := hr.wh
  simp only at hdep hrh
  refine ⟨(by rw [hpc']; exact fun hc => hc.elim), (by rw [hpc']; intro hc; cases hc), fun _ _ => ?_⟩
  rw [if_neg (fun hc => hwh hc.1)]
  rw [hpc']
  simp only [isSm, not_false_eq_true, and_true] at *
  rw [hp] at h3
  simp only [isSm, not_false_eq_true, and_true] at h3
  obtain ⟨a1, a2, a3⟩ := h3
  by_cases hd : 0 < x.dep
  · rw [if_pos hd] at hdep
    have hex : h.ex = 0 := by
      rw [if_neg] at a2
      · omega
      · rintro ⟨b1, b2⟩
        have := (c.ti.own b1 b2).1
        omega
    simp only [holdStep, hex, Nat.lt_irrefl, if_false]
    refine ⟨by omega, rfl, ?_⟩
    rw [hrh, ← a3]
    cases h.resv <;> cases ab <;> simp
  · rw [if_neg hd] at hdep
    have hw := hh.resolve_left hd
    have hrt : l.rh ≠ some t := fun hc => hd (c.ti.rh hc).1
    rw [if_pos ⟨hw.1, hrt⟩] at a2
    have hex : h.ex = 1 := by omega
    have hd0 := (c.ti.own hw.1 hrt).1
    simp only [holdStep, hex, Nat.lt_irrefl, if_true, Nat.zero_lt_one]
    refine ⟨by omega, rfl, ?_⟩
    rw [hrh, a3]
    simp [hrt]

theorem good_sharedUnlockCS {t : Tid} {l : Lock} {x : Thr} {h : Hold} {T : Tot} (c : Ctx t l x T)
    (hl : HL t l x h) (hp : x.pc = .shUnlockCS) : Good t l x h T (sharedUnlockCS t l x) := by
  have hpk := c.ti.pc
  simp only [PcOk, hp] at hpk
  obtain ⟨hcur, hwt, hd, hrt⟩ := hpk
  have c0 := c.toIdle (by rw [hp]; rfl) (by rw [hp]; rfl) (by rw [hp]; rfl) (by rw [hp]; rfl) (by rw [hp]; rfl)
  obtain ⟨l', x', he, hr⟩ := unlockCS_holder c0 rfl false false (Or.inl hd) (fun hc => absurd hc hrt)
  rw [unlockCS_pc] at he
  have hp' : (unlockCS t l x false false).1 = l' ∧ { (unlockCS t l x false false).2.1 with pc := .idle } = x' ∧ (unlockCS t l x false false).2.2 = .ok := by
    rw [Prod.mk.injEq, Prod.mk.injEq] at he; exact he
  obtain ⟨e1, e2, e3⟩ := hp'
  have hfin : sharedUnlockCS t l x = (l', x', some (.err .busy)) := by
    unfold sharedUnlockCS
    have : unlockCS t l x false false = (l', (unlockCS t l x false false).2.1, .ok) :=
      Prod.ext e1 (Prod.ext rfl e3)
    rw [this]
    simp only [fin, e2]
  have hxi : { x' with pc := .idle } = x' := by rw [← e2]
  rw [hfin]
  have hti := hr.ti; have hg := hr.g
  rw [hxi] at hti hg
  rw [upd_idle (by rw [hp]; rfl) (by rw [hp]; rfl) (by rw [hp]; rfl) (by rw [hp]; rfl) (by rw [hp]; rfl)] at hg
  refine ⟨hti, ?_, hg, hr.fr, hr.gr⟩
  have hpc' : x'.pc = .idle := by rw [← e2]
  show HL t l' x' (holdStep h x'.cur (.err .busy))
  rw [hold_err]
  have h1 := hl.1 (by rw [hp]; exact trivial)
  have hdep := hr.dep
  have hrh := hr.rh
  have hwh := hr.wh
  simp only at hdep hrh
  rw [if_pos hd] at hdep
  refine ⟨(by rw [hpc']; exact fun hc => hc.elim), (by rw [hpc']; intro hc; cases hc), fun _ _ => ?_⟩
  rw [if_neg (fun hc => hwh hc.1), hpc']
  refine ⟨by omega, by have := h1.2.1; omega, ?_⟩
  rw [hrh, h1.2.2]
  simp [hrt]

end WS.RW
