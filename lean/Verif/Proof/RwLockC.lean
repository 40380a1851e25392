import Verif.Proof.RwLockA
import Verif.Proof.RwLockB
/-
Each step of a thread preserves the invariant: function entries, failed waits, and the whole step.
-/
namespace WS.RW
open Spec

theorem good_call_err {t : Tid} {l : Lock} {x : Thr} {h : Hold} {T : Tot} (c : Ctx t l x T) (hl : HL t l x h)
    (hp : x.pc = .idle) (op : Op) (e : Err) : Good t l x h T (fin l { x with cur := op } (.err e)) :=
  good_move c hl (by rw [hp]; plain!) { x with cur := op, pc := .idle } (by plain!) rfl rfl rfl rfl
    trivial (some (.err e)) (fun v hv => ⟨e, (Option.some.inj hv).symm⟩)

theorem good_call_goto {t : Tid} {l : Lock} {x : Thr} {h : Hold} {T : Tot} (c : Ctx t l x T) (hl : HL t l x h)
    (hp : x.pc = .idle) (op : Op) (p : Pc) (hpp : plain p) (hok : PcOk t l { x with cur := op, pc := p }) :
    Good t l x h T (goto l { x with cur := op } p) :=
  good_move c hl (by rw [hp]; plain!) { x with cur := op, pc := p } hpp rfl rfl rfl rfl hok none (fun v hv => by cases hv)

/-- An idle thread that owns the lock holds no reservation. -/
theorem idle_own {t : Tid} {l : Lock} {x : Thr} {T : Tot} (c : Ctx t l x T) (hp : x.pc = .idle) (hw : l.wh = some t) :
    l.rh ≠ some t := by
  intro hr
  rcases (c.ti.rh hr).2 with h | h
  · have := c.ti.wh hw; rw [h.1] at this; cases this
  · rw [hp] at h; simp [isW, isX] at h

theorem good_call_redeem {t : Tid} {l : Lock} {x : Thr} {h : Hold} {T : Tot} (c : Ctx t l x T) (hl : HL t l x h)
    (hp : x.pc = .idle) (op : Op) (w : Wait) (k : Bool) (hk : isPromo k op) :
    Good t l x h T (redeemEntry t l { x with cur := op } w k) := by
  unfold redeemEntry
  split
  · exact good_call_err c hl hp op _
  · rename_i hs
    exact good_call_goto c hl hp op _ (by plain!) ⟨hk, fun hw => hs (c.ti.wh hw)⟩

set_option maxHeartbeats 1000000 in
theorem good_rec_mutex {t : Tid} {l : Lock} {x : Thr} {h : Hold} {T : Tot} (c : Ctx t l x T) (hl : HL t l x h)
    (hp : x.pc = .idle) (op : Op) (hop : isLM op ∨ isAnyLS op) (hw : l.wh = some t) :
    Good t l x h T (fin { l with hc := l.hc + 1 } { x with cur := op, mrc := x.mrc + 1 } .ok) := by
  have hrt := idle_own c hp hw
  have hx : x.dep = 0 ∧ 1 ≤ l.hc := c.ti.own hw hrt
  have e1 : holdStep h op .ok = { h with ex := h.ex + 1 } := by
    have h3 := hl.2.2 (by rw [hp]; exact id) (by rw [hp]; simp)
    have hex := h3.2.1
    rw [if_pos ⟨hw, hrt⟩] at hex
    have hresv : h.resv = false := by
      cases hh : h.resv with
      | false => rfl
      | true => exact absurd (h3.2.2.1 hh).1 hrt
    rcases hop with ho | ho
    · rw [hold_lm_ok h ho]
      have : h.sh = 0 := by have := h3.1; omega
      simp [this, hresv]
    · rw [hold_anyLS_ok h ho, if_pos (by omega)]
  rwopen
  have hst := twh hw
  subst hst hw
  rwgoal

theorem good_call_s2m {t : Tid} {l : Lock} {x : Thr} {h : Hold} {T : Tot} (c : Ctx t l x T) (hl : HL t l x h)
    (hp : x.pc = .idle) (op : Op) (w : Wait) (k : Bool) (hk : isPromo k op) (hd : 0 < h.sh + h.ex)
    (hkk : k = true → l.wh ≠ some t) :
    Good t l x h T (s2mEntry t l { x with cur := op } w k) := by
  have h3 := hl.2.2 (by rw [hp]; exact id) (by rw [hp]; simp)
  unfold s2mEntry
  split
  · split
    · rename_i hs hw
      have hrt := idle_own c hp hw
      have hx : x.dep = 0 ∧ 1 ≤ l.hc := c.ti.own hw hrt
      have hkf : k = false := by cases k with | false => rfl | true => exact absurd hw (hkk rfl)
      subst hkf
      have e1 : holdStep h op .ok = h := by
        have hresv : h.resv = false := by
          cases hh : h.resv with
          | false => rfl
          | true => exact absurd (h3.2.2.1 hh).1 hrt
        have : h.sh = 0 := by have := h3.1; omega
        rw [hold_pr_ok h (by simpa [isPromo] using hk), this]
        rw [← hresv]; obtain ⟨a, b, cc⟩ := h; simp at *; exact this.symm
      simp only [promoted]
      rwopen
      subst hw hs
      rwgoal
    · exact good_call_err c hl hp op _
  · split
    · exact good_call_redeem c hl hp op w k hk
    · rename_i hs hr
      have hwt : l.wh ≠ some t := fun hw => by have := c.ti.wh hw; rw [hs] at this; cases this
      refine good_call_goto c hl hp op _ (by plain!) ⟨hk, hwt, ?_, hr⟩
      show 0 < x.dep
      have hex := h3.2.1
      rw [if_neg (fun hc => hwt hc.1)] at hex
      have := h3.1
      omega
  · exact good_call_err c hl hp op _

theorem good_call_mutex {t : Tid} {l : Lock} {x : Thr} {h : Hold} {T : Tot} (c : Ctx t l x T) (hl : HL t l x h)
    (hp : x.pc = .idle) (op : Op) (w : Wait) (nrm : Bool) (hop : isLM op ∨ (isAnyLS op ∧ l.wh = some t)) :
    Good t l x h T (mutexEntry t l { x with cur := op } w nrm) := by
  have h3 := hl.2.2 (by rw [hp]; exact id) (by rw [hp]; simp)
  unfold mutexEntry
  split
  · rename_i hs
    split
    · rename_i hw
      split
      · exact good_call_err c hl hp op _
      · exact good_rec_mutex c hl hp op (hop.imp id (fun h => h.1)) hw
    · rename_i hw
      exact good_call_goto c hl hp op _ (by plain!) ⟨hop.resolve_right (fun hc => hw hc.2), hw, c.oEx hs hw⟩
  · rename_i hs
    have hwt : l.wh ≠ some t := fun hw => by have := c.ti.wh hw; rw [hs] at this; cases this
    have hlm := hop.resolve_right (fun hc => hwt hc.2)
    split
    · split
      · exact good_call_err c hl hp op _
      · exact good_call_redeem c hl hp op w true (by simpa [isPromo] using hlm)
    · split
      · rename_i htrk
        refine good_call_s2m c hl hp op w true (by simpa [isPromo] using hlm) ?_ (fun _ => hwt)
        have := c.ti.trk.1 htrk
        have := h3.1
        omega
      · rename_i htrk
        refine good_call_goto c hl hp op _ (by plain!) ⟨hlm, hwt, ?_⟩
        have h1 : ¬ 0 < x.dep := fun hc => htrk (c.ti.trk.2 hc)
        have := c.ti.dep
        show x.dep = 0
        omega
  · rename_i hs
    have hu := c.g.un hs
    have hwt : l.wh ≠ some t := by rw [hu.1]; simp
    refine good_call_goto c hl hp op _ (by plain!) ⟨hop.resolve_right (fun hc => hwt hc.2), hwt, ?_⟩
    show x.dep = 0
    have := c.oR; have := c.ti.dep; omega

theorem good_call_unlock {t : Tid} {l : Lock} {x : Thr} {h : Hold} {T : Tot} (c : Ctx t l x T) (hl : HL t l x h)
    (hp : x.pc = .idle) (ab ad : Bool) (hok : ClientOk h (.unlock ab ad)) :
    Good t l x h T (unlockEntry t l { x with cur := .unlock ab ad } ab ad) := by
  have h3 := hl.2.2 (by rw [hp]; exact id) (by rw [hp]; simp)
  unfold unlockEntry
  split
  · rename_i hw
    obtain ⟨hw, hc2⟩ := hw
    have hrt := idle_own c hp hw
    have hx : x.dep = 0 ∧ 1 ≤ l.hc := c.ti.own hw hrt
    have e1 : holdStep h (.unlock ab ad) .ok = { h with ex := h.ex - 1 } := by
      have hex := h3.2.1
      rw [if_pos ⟨hw, hrt⟩] at hex
      simp only [holdStep]
      rw [if_pos (by omega)]
    clear hok
    rwopen
    have hst := twh hw
    subst hst hw
    rwgoal
  · rename_i hw
    refine good_call_goto c hl hp _ _ (by plain!) ⟨rfl, ?_, ?_⟩
    · show 0 < x.dep ∨ (l.wh = some t ∧ l.hc = 1)
      by_cases hd : 0 < x.dep
      · exact Or.inl hd
      · right
        have hs : h.sh = 0 := by have := h3.1; omega
        have hex : 0 < h.ex := by have := hok.1; omega
        have h4 := h3.2.1
        by_cases hcc : l.wh = some t ∧ l.rh ≠ some t
        · rw [if_pos hcc] at h4
          refine ⟨hcc.1, ?_⟩
          have : ¬ 1 < l.hc := fun hc => hw ⟨hcc.1, hc⟩
          omega
        · rw [if_neg hcc] at h4; omega
    · intro hr hd
      have hr' : l.rh = some t := hr
      have hd' : x.dep = 1 := hd
      exact hok.2 (h3.2.2.2 ⟨hr', by rw [hp]; exact id⟩) (by have := h3.1; omega)

theorem good_callOp {t : Tid} {l : Lock} {x : Thr} {h : Hold} {T : Tot} (c : Ctx t l x T) (hl : HL t l x h)
    (hp : x.pc = .idle) (op : Op) (hok : ClientOk h op) : Good t l x h T (callOp t l { x with cur := op } op) := by
  have h3 := hl.2.2 (by rw [hp]; exact id) (by rw [hp]; simp)
  cases op with
  | lockShared r w nrs nrm =>
    simp only [callOp, sharedEntry]
    split
    · rename_i hw
      exact good_call_mutex c hl hp _ w nrm (Or.inr ⟨trivial, hw⟩)
    · rename_i hw
      split
      · exact good_call_err c hl hp _ _
      · exact good_call_goto c hl hp _ _ (by plain!) ⟨rfl, hw⟩
  | lockMutex w nrm => exact good_call_mutex c hl hp _ w nrm (Or.inl trivial)
  | unlock ab ad => exact good_call_unlock c hl hp ab ad hok
  | mutex2shared rsv nrs =>
    simp only [callOp, m2sEntry]
    split
    · exact good_call_err c hl hp _ _
    · split
      · exact good_call_err c hl hp _ _
      · rename_i htrk
        refine good_call_goto c hl hp _ _ (by plain!) ⟨rfl, ?_⟩
        have h1 : ¬ 0 < x.dep := fun hc => htrk (c.ti.trk.2 hc)
        have := c.ti.dep
        show x.dep = 0
        omega
  | reserve =>
    simp only [callOp, reserveEntry]
    split
    · exact good_call_err c hl hp _ _
    · rename_i hs
      have hwt : l.wh ≠ some t := fun hw => hs (c.ti.wh hw)
      refine good_call_goto c hl hp _ _ (by plain!) ⟨rfl, ?_, hwt⟩
      show 0 < x.dep
      have hex := h3.2.1
      rw [if_neg (fun hc => hwt hc.1)] at hex
      have := h3.1
      have : 0 < h.sh + h.ex := hok
      omega
  | redeem w => exact good_call_redeem c hl hp _ w false (by simp [isPromo, isPr])
  | abandon =>
    simp only [callOp, abandonEntry]
    split
    · rename_i hr
      exact good_call_goto c hl hp _ _ (by plain!) ⟨rfl, hr⟩
    · exact good_call_err c hl hp _ _
  | shared2mutex w => exact good_call_s2m c hl hp _ w false (by simp [isPromo, isPr]) hok (by intro hc; cases hc)

/-- A wait that expires only changes the program point. -/
theorem good_expire {t : Tid} {l : Lock} {x : Thr} {h : Hold} {T : Tot} (c : Ctx t l x T) (hl : HL t l x h) (p : Pc)
    (hA : isA p = isA x.pc) (hB : isB p = isB x.pc) (hO : isO p = isO x.pc) (hW : isW p = isW x.pc) (hX : isX p = isX x.pc)
    (hS : isSm p ↔ isSm x.pc) (hP : ¬ isPend x.pc) (hP' : ¬ isPend p) (hI : x.pc ≠ .incW) (hI' : p ≠ .incW)
    (hpc : PcOk t l { x with pc := p }) : Good t l x h T (goto l x p) := by
  have hT : T.upd x { x with pc := p } = T := by
    cases T
    simp [Tot.upd, hA, hB, hO, hW, hX]
  refine ⟨⟨c.ti.sc, c.ti.dep, c.ti.trk, c.ti.wh, ?_, ?_, c.ti.own, c.ti.mrc, hpc⟩, ?_, ?_, fun u _ _ => FrU_refl u l, ?_⟩
  · have := c.ti.rh; rw [← hW, ← hX] at this; exact this
  · have := c.ti.wx; rw [← hW, ← hX] at this; exact this
  · have h3 := hl.2.2 hP hI
    refine ⟨fun hc => absurd hc hP', fun hc => absurd hc hI', fun _ _ => ⟨h3.1, h3.2.1, ?_⟩⟩
    have := h3.2.2
    rw [← hS] at this
    exact this
  · show G l (T.upd x { x with pc := p })
    rw [hT]; exact c.g
  · intro a b
    simp only [goto] at b
    rw [a] at b; cases b

theorem good_failStep {t : Tid} {l : Lock} {x : Thr} {h : Hold} {T : Tot} {o : Out} (c : Ctx t l x T) (hl : HL t l x h)
    (ho : failStep l x = some o) : Good t l x h T o := by
  have hsf : ∀ w, plain x.pc → semFail l x w = some o → Good t l x h T o := by
    intro w hpl hs
    cases w with
    | block => cases hs
    | now => cases hs; exact good_err c hl hpl _
    | timed => cases hs; exact good_err c hl hpl _
  have hpk := c.ti.pc
  unfold failStep at ho
  split at ho
  · rename_i e; exact hsf _ (by rw [e]; plain!) ho
  · rename_i e; exact hsf _ (by rw [e]; plain!) ho
  · rename_i e; exact hsf _ (by rw [e]; plain!) ho
  · rename_i e; exact hsf _ (by rw [e]; plain!) ho
  all_goals first
    | (cases ho; done)
    | (rename_i e
       cases ho
       simp only [PcOk, e] at hpk
       apply good_expire c hl <;> first
        | exact hpk
        | (rw [e]; simp [isA, isB, isO, isW, isX, isSm, isPend]; done)
        | simp [isPend])

/-- Every step of every thread is good. -/
theorem good_tstep {t : Tid} {l : Lock} {x : Thr} {h : Hold} {T : Tot} {o : Out} {ch : Choice} (c : Ctx t l x T)
    (hl : HL t l x h)
    (hok : match ch with | .call op => ClientOk h op | .run => TimeoutOk l x.pc | .fail => True)
    (ho : tstep t l x ch = some o) : Good t l x h T o := by
  cases ch with
  | call op =>
    simp only [tstep] at ho
    split at ho
    · rename_i hp
      cases ho
      exact good_callOp c hl hp op hok
    · cases ho
  | fail => exact good_failStep c hl ho
  | run =>
    simp only [tstep] at ho
    simp only at hok
    unfold runStep at ho
    split at ho
    · cases ho
    · rename_i e; cases ho; exact good_sharedCS c hl e
    · rename_i e; split at ho
      · rename_i hs; cases ho; exact good_sharedWoken c hl e hs
      · cases ho
    · rename_i e; cases ho; rw [e] at hok; exact good_sharedTimed c hl e hok
    · rename_i e; cases ho; exact good_sharedResv c hl e
    · rename_i e; cases ho; exact good_sharedResvCS c hl e
    · rename_i e; cases ho; exact good_sharedUnlockCS c hl e
    · rename_i e; cases ho; exact good_mutexCS c hl e
    · rename_i e; split at ho
      · rename_i hs; cases ho; exact good_mxWake c hl e hs
      · cases ho
    · rename_i e; cases ho; rw [e] at hok; exact good_mxTimed c hl e hok
    · rename_i e; cases ho; exact good_mxOwn c hl e
    · rename_i e; cases ho; exact good_incW c hl e
    · rename_i e; cases ho; exact good_unCS c hl e
    · rename_i e; cases ho; exact good_m2sCS c hl e
    · rename_i e; cases ho; exact good_reserveCS c hl e
    · rename_i e; cases ho; exact good_redeemCS c hl e
    · rename_i e; split at ho
      · rename_i hs; cases ho; exact good_rdWake c hl e hs
      · cases ho
    · rename_i e; cases ho; rw [e] at hok; exact good_rdTimed c hl e hok
    · rename_i e; cases ho; exact good_rdOwn c hl e
    · rename_i e; cases ho; exact good_abandonCS c hl e
    · rename_i e; cases ho; exact good_s2mCS c hl e
    · rename_i e; split at ho
      · rename_i hs; cases ho; exact good_smWake c hl e hs
      · cases ho
    · rename_i e; cases ho; rw [e] at hok; exact good_smTimed c hl e hok
    · rename_i e; cases ho; exact good_smOwn c hl e

end WS.RW
