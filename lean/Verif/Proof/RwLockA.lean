import Verif.Proof.RwLock
/-
Each step of a thread preserves the invariant: shared locking.
-/
namespace WS.RW
open Spec

set_option maxHeartbeats 1000000 in
theorem good_sharedCS {t : Tid} {l : Lock} {x : Thr} {h : Hold} {T : Tot} {r : Rsv} {w : Wait} (c : Ctx t l x T)
    (hl : HL t l x h) (hp : x.pc = .shCS r w) : Good t l x h T (sharedCS t l x r w) := by
  have hpl : plain x.pc := by rw [hp]; plain!
  have herr := fun e => good_err c hl hpl e
  unfold sharedCS
  split
  · rename_i hcc
    split
    · exact herr _
    · rwopen
      simp only [goto]
      have : dep = 0 := by rcases hcc with h | h <;> simp_all; omega
      subst this
      cases st <;> rcases opt3 rh t with hrh | hrh | hrh <;> simp_all
      all_goals rwgoal
  · split
    · exact herr _
    · rename_i hcc _
      clear herr
      have hne : l.st ≠ .exclusive := fun hc => hcc (Or.inl hc)
      split
      · rename_i hb
        rwopen
        obtain ⟨hcur, hwh⟩ := pcok
        have e1 := fun hd => hold_ls_ok hd hcur
        have e2 := fun hd => hold_ls_got hd hcur
        cases trk <;> cases st <;> simp_all [track, fin] 
        all_goals rwgoal
      · rename_i hb
        rwopen
        obtain ⟨hcur, hwh⟩ := pcok
        have e1 := fun hd => hold_ls_ok hd hcur
        have e2 := fun hd => hold_ls_got hd hcur
        cases trk <;> cases st <;> rcases opt3 rh t with hrh | hrh | hrh <;> simp_all [track, fin] 
        all_goals rwgoal

set_option maxHeartbeats 1000000 in
theorem good_sharedWoken {t : Tid} {l : Lock} {x : Thr} {h : Hold} {T : Tot} {r : Rsv} {w : Wait} (c : Ctx t l x T)
    (hl : HL t l x h) (hp : x.pc = .shWait r w) (hs : 0 < l.semR) :
    Good t l x h T (sharedWoken { l with semR := l.semR - 1 } x r) := by
  rwopen
  obtain ⟨hcur, hwh, hdep⟩ := pcok
  have e1 := fun hd => hold_ls_ok hd hcur
  have e2 := fun hd => hold_ls_got hd hcur
  have hc1 : ((semR - 1 : Nat) : Int) = (semR : Int) - 1 := by omega
  simp only [sharedWoken]
  cases st with
  | unlocked => exfalso; simp_all
  | exclusive => exfalso; rcases opt3 wh t with hrh | hrh | hrh <;> simp_all
  | shared =>
    split
    · rcases opt3 rh t with hrh | hrh | hrh <;> simp_all [track, fin]
      all_goals rwgoal
    · rcases opt3 rh t with hrh | hrh | hrh <;> simp_all [track, fin]
      all_goals rwgoal

set_option maxHeartbeats 1000000 in
theorem good_sharedTimed {t : Tid} {l : Lock} {x : Thr} {h : Hold} {T : Tot} {r : Rsv} (c : Ctx t l x T)
    (hl : HL t l x h) (hp : x.pc = .shTimed r) (hs : l.semR = 0) :
    Good t l x h T (sharedTimed l x) := by
  rwopen
  obtain ⟨hcur, hwh, hdep⟩ := pcok
  simp only [sharedTimed]
  split
  · omega
  · cases st <;> rcases opt3 rh t with hrh | hrh | hrh <;> simp_all [fin]
    all_goals rwgoal

set_option maxHeartbeats 1000000 in
theorem good_sharedResv {t : Tid} {l : Lock} {x : Thr} {h : Hold} {T : Tot} {r : Rsv} (c : Ctx t l x T)
    (hl : HL t l x h) (hp : x.pc = .shResv r) :
    Good t l x h T (sharedResv t l x r) := by
  rwopen
  obtain ⟨hcur, hwh, hdep, hrt⟩ := pcok
  have hany := isAnyLS_of hcur
  have e1 := fun hd => hold_ls_ok hd hcur
  have e2 := fun hd => hold_ls_got hd hcur
  simp only [sharedResv, reserveEntry]
  cases st with
  | unlocked => exfalso; simp_all; omega
  | exclusive => exfalso; simp_all
  | shared =>
    split
    · split
      · simp_all
        rwgoal
      · simp_all
        rwgoal
    · simp_all
      rwgoal

set_option maxHeartbeats 1000000 in
theorem good_sharedResvCS {t : Tid} {l : Lock} {x : Thr} {h : Hold} {T : Tot} {r : Rsv} (c : Ctx t l x T)
    (hl : HL t l x h) (hp : x.pc = .shResvCS r) :
    Good t l x h T (sharedResvCS t l x r) := by
  rwopen
  obtain ⟨hcur, hwh, hdep, hrt⟩ := pcok
  have hany := isAnyLS_of hcur
  have e1 := fun hd => hold_ls_ok hd hcur
  have e2 := fun hd => hold_ls_got hd hcur
  simp only [sharedResvCS, reserveCS]
  cases st with
  | unlocked => exfalso; simp_all; omega
  | exclusive => exfalso; simp_all
  | shared =>
    by_cases hr : rh = none
    · subst hr
      simp_all
      rwgoal
    · simp [hr]
      split
      · simp_all
        rwgoal
      · simp_all
        rwgoal

set_option maxHeartbeats 1000000 in
theorem good_mutexCS {t : Tid} {l : Lock} {x : Thr} {h : Hold} {T : Tot} {w : Wait} (c : Ctx t l x T)
    (hl : HL t l x h) (hp : x.pc = .mxCS w) : Good t l x h T (mutexCS t l x w) := by
  have hpl : plain x.pc := by rw [hp]; plain!
  have herr := fun e => good_err c hl hpl e
  unfold mutexCS
  split
  · split
    · exact herr _
    · rwopen
      obtain ⟨hcur, hwh, hdep⟩ := pcok
      cases st <;> rcases opt3 rh t with hrh | hrh | hrh <;> simp_all [goto]
      all_goals rwgoal
  · rename_i hst
    have hst : l.st = .unlocked := Classical.byContradiction hst
    have hhc := (c.g.un hst).2.2.1
    rw [if_neg (by simp [hhc])]
    clear herr
    rwopen
    obtain ⟨hcur, hwh, hdep⟩ := pcok
    have e1 := fun hd => hold_lm_ok hd hcur
    subst hst
    simp_all [fin]
    rwgoal

set_option maxHeartbeats 1000000 in
theorem good_mxWake {t : Tid} {l : Lock} {x : Thr} {h : Hold} {T : Tot} {w : Wait} (c : Ctx t l x T)
    (hl : HL t l x h) (hp : x.pc = .mxWait w) (hs : 0 < l.semW) :
    Good t l x h T (goto { l with semW := l.semW - 1 } x .mxOwn) := by
  rwopen
  obtain ⟨hcur, hwh, hdep⟩ := pcok
  have hc1 : ((semW - 1 : Nat) : Int) = (semW : Int) - 1 := by omega
  cases st with
  | unlocked => exfalso; simp_all
  | shared => exfalso; simp_all
  | exclusive =>
    cases wh with
    | some v => exfalso; simp_all
    | none =>
      simp_all [goto]
      rwgoal

set_option maxHeartbeats 1000000 in
theorem good_mxTimed {t : Tid} {l : Lock} {x : Thr} {h : Hold} {T : Tot} (c : Ctx t l x T)
    (hl : HL t l x h) (hp : x.pc = .mxTimed) (hs : l.semW = 0 ∧ (0 < l.rw → l.st = .exclusive ∨ 1 < l.ww)) :
    Good t l x h T (mutexTimed l x) := by
  rwopen
  obtain ⟨hcur, hwh, hdep⟩ := pcok
  obtain ⟨hs1, hs2⟩ := hs
  simp only [mutexTimed]
  split
  · omega
  · cases st <;> rcases opt3 rh t with hrh | hrh | hrh <;> simp_all [fin]
    all_goals rwgoal

set_option maxHeartbeats 1000000 in
theorem good_mxOwn {t : Tid} {l : Lock} {x : Thr} {h : Hold} {T : Tot} (c : Ctx t l x T)
    (hl : HL t l x h) (hp : x.pc = .mxOwn) :
    Good t l x h T (fin { l with wh := some t } { x with mrc := x.mrc + 1 } .ok) := by
  rwopen
  obtain ⟨hcur, hwh, hdep⟩ := pcok
  have e1 := fun hd => hold_lm_ok hd hcur
  cases st with
  | unlocked => exfalso; simp_all
  | shared => exfalso; simp_all
  | exclusive =>
    cases wh with
    | some v => exfalso; simp_all
    | none =>
      simp_all [fin]
      rwgoal

set_option maxHeartbeats 1000000 in
theorem good_incW {t : Tid} {l : Lock} {x : Thr} {h : Hold} {T : Tot} (c : Ctx t l x T)
    (hl : HL t l x h) (hp : x.pc = .incW) :
    Good t l x h T (fin { l with hc := l.hc + 1 } { x with mrc := x.mrc + 1 } .ok) := by
  rwopen
  obtain ⟨hcur, hwh, hrt⟩ := pcok
  have e1 := fun hd => hold_lm_ok hd hcur
  subst hwh
  simp_all [fin]
  rwgoal

set_option maxHeartbeats 1000000 in
theorem good_reserveCS {t : Tid} {l : Lock} {x : Thr} {h : Hold} {T : Tot} (c : Ctx t l x T)
    (hl : HL t l x h) (hp : x.pc = .rsvCS) : Good t l x h T (fin3 (reserveCS t l x)) := by
  have hpl : plain x.pc := by rw [hp]; plain!
  have herr := fun e => good_err c hl hpl e
  unfold reserveCS
  split
  · exact herr _
  · split
    · exact herr _
    · clear herr
      rename_i hq1 hq2
      rwopen
      obtain ⟨hcur, hdep, hwh⟩ := pcok
      subst hq1
      simp_all [fin3, fin]
      have e1 : ∀ hd : Hold, holdStep hd .reserve .ok = { hd with resv := true } := fun _ => rfl
      rwgoal

set_option maxHeartbeats 1000000 in
theorem good_abandonCS {t : Tid} {l : Lock} {x : Thr} {h : Hold} {T : Tot} (c : Ctx t l x T)
    (hl : HL t l x h) (hp : x.pc = .abCS) : Good t l x h T (abandonCS l x) := by
  have hpl : plain x.pc := by rw [hp]; plain!
  have herr := fun e => good_err c hl hpl e
  unfold abandonCS
  split
  · exact herr _
  · clear herr
    rename_i hq1
    rwopen
    obtain ⟨hcur, hrt⟩ := pcok
    subst hq1
    simp_all [fin]
    have e1 : ∀ hd : Hold, holdStep hd .abandon .ok = { hd with resv := false } := fun _ => rfl
    rwgoal


theorem isPromo_true {o : Op} (h : isPromo true o) : isLM o := by simpa [isPromo] using h
theorem isPromo_false {o : Op} (h : isPromo false o) : isPr o := by simpa [isPromo] using h

set_option maxHeartbeats 1000000 in
theorem good_redeemCS {t : Tid} {l : Lock} {x : Thr} {h : Hold} {T : Tot} {w : Wait} {k : Bool} (c : Ctx t l x T)
    (hl : HL t l x h) (hp : x.pc = .rdCS w k) : Good t l x h T (redeemCS t l x w k) := by
  have hpl : plain x.pc := by rw [hp]; plain!
  have herr := fun e => good_err c hl hpl e
  unfold redeemCS
  split
  · exact herr _
  · split
    · exact herr _
    · split
      · exact herr _
      · split
        · exact herr _
        · rename_i q1 q2 q3 q4
          have q1 : l.st = .shared := Classical.byContradiction q1
          have q3 : l.rh = some t := Classical.byContradiction q3
          clear q2
          split
          · clear herr
            rename_i q5
            rwopen
            obtain ⟨hcur, hwh⟩ := pcok
            subst q1 q3
            cases k with
            | true =>
              have hlm := isPromo_true hcur
              have e1 := fun hd => hold_lm_ok hd hlm
              simp_all [promoted]
              rwgoal
            | false =>
              have hlm := isPromo_false hcur
              have e1 := fun hd => hold_pr_ok hd hlm
              simp_all [promoted]
              rwgoal
          · split
            · exact herr _
            · clear herr
              rename_i q5 q6
              rwopen
              obtain ⟨hcur, hwh⟩ := pcok
              subst q1 q3
              simp_all
              rwgoal

set_option maxHeartbeats 1000000 in
theorem good_s2mCS {t : Tid} {l : Lock} {x : Thr} {h : Hold} {T : Tot} {w : Wait} {k : Bool} (c : Ctx t l x T)
    (hl : HL t l x h) (hp : x.pc = .smCS w k) : Good t l x h T (s2mCS t l x w k) := by
  have hpl : plain x.pc := by rw [hp]; plain!
  have herr := fun e => good_err c hl hpl e
  unfold s2mCS
  split
  · exact herr _
  · split
    · exact herr _
    · rename_i q1 q2
      have q1 : l.st = .shared := Classical.byContradiction q1
      have q2 : l.rh = none := Classical.byContradiction q2
      split
      · clear herr
        rename_i q3
        rwopen
        obtain ⟨hcur, hwh, hdep, hrt⟩ := pcok
        subst q1 q2
        have q4 : dep = hc := by simp_all; omega
        have htr : trk = true := itrk.2 hdep
        clear q3
        cases k with
        | true =>
          have hlm := isPromo_true hcur
          have e1 := fun hd => hold_lm_ok hd hlm
          simp_all [promoted]
          rwgoal
        | false =>
          have hlm := isPromo_false hcur
          have e1 := fun hd => hold_pr_ok hd hlm
          simp_all [promoted]
          rwgoal
      · split
        · exact herr _
        · clear herr
          rename_i q3 _
          rwopen
          obtain ⟨hcur, hwh, hdep, hrt⟩ := pcok
          subst q1 q2
          have htr : trk = true := itrk.2 hdep
          simp_all
          rwgoal

set_option maxHeartbeats 1000000 in
theorem good_rdWake {t : Tid} {l : Lock} {x : Thr} {h : Hold} {T : Tot} {w : Wait} {k : Bool} (c : Ctx t l x T)
    (hl : HL t l x h) (hp : x.pc = .rdWait w k) (hs : 0 < l.semX) :
    Good t l x h T (goto { l with semX := l.semX - 1 } x (.rdOwn k)) := by
  rwopen
  subst wx
  have hc1 : ((semX - 1 : Nat) : Int) = (semX : Int) - 1 := by omega
  cases st <;> rcases opt3 wh t with rfl | rfl | hw <;> simp_all
  rwgoal

set_option maxHeartbeats 1000000 in
theorem good_smWake {t : Tid} {l : Lock} {x : Thr} {h : Hold} {T : Tot} {w : Wait} {k : Bool} (c : Ctx t l x T)
    (hl : HL t l x h) (hp : x.pc = .smWait w k) (hs : 0 < l.semX) :
    Good t l x h T (goto { l with semX := l.semX - 1 } x (.smOwn k)) := by
  rwopen
  subst wx
  have hc1 : ((semX - 1 : Nat) : Int) = (semX : Int) - 1 := by omega
  cases st <;> rcases opt3 wh t with rfl | rfl | hw <;> simp_all
  rwgoal

set_option maxHeartbeats 1000000 in
theorem good_rdOwn {t : Tid} {l : Lock} {x : Thr} {h : Hold} {T : Tot} {k : Bool} (c : Ctx t l x T)
    (hl : HL t l x h) (hp : x.pc = .rdOwn k) : Good t l x h T (ownR2W t l x k) := by
  rwopen
  subst wx
  have hX : semX = 0 := by
    have hx1 := oWX (Or.inr rfl)
    cases st with
    | unlocked => exact absurd (un rfl).2.1 (by simp)
    | shared => exact (sh rfl).2.2.2.2.1
    | exclusive =>
      by_cases hw : wh = none
      · exact (ex0 rfl hw).2.2.2.2.1
      · rcases (ex1 rfl hw).2.2.2.2 with h | h
        · exact absurd h.1 (by simp)
        · omega
  subst hX
  cases st <;> rcases opt3 wh t with rfl | rfl | hw <;> simp_all
  cases k with
  | true =>
    have hlm := isPromo_true pcok
    have e1 := fun hd => hold_lm_ok hd hlm
    simp_all [promoted, ownR2W]
    rwgoal
  | false =>
    have hlm := isPromo_false pcok
    have e1 := fun hd => hold_pr_ok hd hlm
    simp_all [promoted, ownR2W]
    rwgoal

set_option maxHeartbeats 1000000 in
theorem good_smOwn {t : Tid} {l : Lock} {x : Thr} {h : Hold} {T : Tot} {k : Bool} (c : Ctx t l x T)
    (hl : HL t l x h) (hp : x.pc = .smOwn k) : Good t l x h T (ownR2W t l x k) := by
  rwopen
  subst wx
  have hX : semX = 0 := by
    have hx1 := oWX (Or.inr rfl)
    cases st with
    | unlocked => exact absurd (un rfl).2.1 (by simp)
    | shared => exact (sh rfl).2.2.2.2.1
    | exclusive =>
      by_cases hw : wh = none
      · exact (ex0 rfl hw).2.2.2.2.1
      · rcases (ex1 rfl hw).2.2.2.2 with h | h
        · exact absurd h.1 (by simp)
        · omega
  subst hX
  cases st <;> rcases opt3 wh t with rfl | rfl | hw <;> simp_all
  cases k with
  | true =>
    have hlm := isPromo_true pcok
    have e1 := fun hd => hold_lm_ok hd hlm
    simp_all [promoted, ownR2W]
    rwgoal
  | false =>
    have hlm := isPromo_false pcok
    have e1 := fun hd => hold_pr_ok hd hlm
    simp_all [promoted, ownR2W]
    rwgoal

set_option maxHeartbeats 1000000 in
theorem good_rdTimed {t : Tid} {l : Lock} {x : Thr} {h : Hold} {T : Tot} {k : Bool} (c : Ctx t l x T)
    (hl : HL t l x h) (hp : x.pc = .rdTimed k) (hs : l.semX = 0 ∧ (0 < l.rw → 1 < l.ww)) :
    Good t l x h T (redeemTimed t l x k) := by
  rwopen
  subst wx
  simp only [redeemTimed]
  cases st <;> rcases opt3 wh t with rfl | rfl | hw <;> simp_all
  rwgoal

set_option maxHeartbeats 1000000 in
theorem good_smTimed {t : Tid} {l : Lock} {x : Thr} {h : Hold} {T : Tot} {k : Bool} (c : Ctx t l x T)
    (hl : HL t l x h) (hp : x.pc = .smTimed k) (hs : l.semX = 0 ∧ (0 < l.rw → 1 < l.ww)) :
    Good t l x h T (s2mTimed t l x k) := by
  rwopen
  subst wx
  simp only [s2mTimed]
  cases st <;> rcases opt3 wh t with rfl | rfl | hw <;> simp_all
  rwgoal


set_option maxHeartbeats 1000000 in
theorem good_m2sCS {t : Tid} {l : Lock} {x : Thr} {h : Hold} {T : Tot} {rsv nrs : Bool} (c : Ctx t l x T)
    (hl : HL t l x h) (hp : x.pc = .m2sCS rsv nrs) : Good t l x h T (m2sCS t l x rsv nrs) := by
  have hpl : plain x.pc := by rw [hp]; plain!
  have herr := fun e => good_err c hl hpl e
  unfold m2sCS
  split
  · exact herr _
  · split
    · exact herr _
    · split
      · exact herr _
      · split
        · exact herr _
        · rename_i q1 q2 q3 q4
          have q1 : l.st = .exclusive := Classical.byContradiction q1
          have q2 : l.wh = some t := Classical.byContradiction q2
          clear herr q3 q4
          rwopen
          obtain ⟨hcur, hdep⟩ := pcok
          subst q1 q2 hcur hdep
          have e1 : ∀ hd : Hold, holdStep hd (.mutex2shared rsv nrs) .ok = { sh := hd.ex, ex := 0, resv := rsv } := fun _ => rfl
          have hrn : rh = none := by
            rcases (ex1 rfl (by simp)).2.2.2.2 with h | h
            · exact h.1
            · have := trh h.1; omega
          subst hrn
          have hcast : 0 < rw → ((rw.toNat : Nat) : Int) = rw := by omega
          cases rsv
          · by_cases hw : ww = 0 ∧ 0 < rw
            · have := hcast hw.2
              simp_all
              rwgoal
            · simp only [hw, if_false, Bool.false_eq_true]
              simp_all
              rwgoal
          · by_cases hw : ww = 0 ∧ 0 < rw
            · have := hcast hw.2
              simp_all
              rwgoal
            · simp only [hw, if_false]
              simp_all
              rwgoal
end WS.RW
