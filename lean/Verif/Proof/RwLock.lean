import Verif.Spec.RwLock
/-
The invariant of the readers/writer lock.
-/
namespace WS.RW
open Spec

def isA : Pc → Int
  | .shWait .. | .shTimed _ => 1
  | _ => 0
def isB : Pc → Int
  | .mxWait _ | .mxTimed => 1
  | _ => 0
def isO : Pc → Int
  | .mxOwn => 1
  | _ => 0
def isW : Pc → Int
  | .rdWait .. | .rdTimed _ | .smWait .. | .smTimed _ => 1
  | _ => 0
def isX : Pc → Int
  | .rdOwn _ | .smOwn _ => 1
  | _ => 0
def isSm : Pc → Prop
  | .smWait .. | .smTimed _ | .smOwn _ => True
  | _ => False
def isPend : Pc → Prop
  | .shResv _ | .shResvCS _ | .shUnlockCS => True
  | _ => False

/-- Totals over all threads. -/
structure Tot where
  R : Int
  A : Int
  B : Int
  O : Int
  W : Int
  X : Int

def Tot.upd (T : Tot) (x y : Thr) : Tot :=
  { R := T.R - x.dep + y.dep, A := T.A - isA x.pc + isA y.pc, B := T.B - isB x.pc + isB y.pc
    O := T.O - isO x.pc + isO y.pc, W := T.W - isW x.pc + isW y.pc, X := T.X - isX x.pc + isX y.pc }

/-- The lock against the totals. -/
structure G (l : Lock) (T : Tot) : Prop where
  nR : 0 ≤ T.R
  nA : 0 ≤ T.A
  nB : 0 ≤ T.B
  nO : 0 ≤ T.O
  nW : 0 ≤ T.W
  nX : 0 ≤ T.X
  un : l.st = .unlocked → l.wh = none ∧ l.rh = none ∧ l.hc = 0 ∧ T.R = 0 ∧ l.semR = 0 ∧ l.semW = 0 ∧ l.semX = 0 ∧
    l.rw = 0 ∧ l.ww = 0 ∧ T.O = 0 ∧ T.W = 0 ∧ T.X = 0
  sh : l.st = .shared → l.wh = none ∧ l.hc = T.R + l.semR + (if l.rh ≠ none ∧ T.W = 0 then 1 else 0) ∧ 0 < l.hc ∧
    l.semW = 0 ∧ l.semX = 0 ∧ T.O = 0 ∧ T.X = 0 ∧ (T.W ≠ 0 → l.r2w < l.hc) ∧ (l.rh = none → T.W = 0)
  ex0 : l.st = .exclusive → l.wh = none → l.rh = none ∧ T.R = 0 ∧ l.hc = 1 ∧ l.semW + T.O = 1 ∧ l.semX = 0 ∧
    T.W = 0 ∧ T.X = 0 ∧ l.semR = 0
  ex1 : l.st = .exclusive → l.wh ≠ none → l.semR = 0 ∧ l.semW = 0 ∧ T.O = 0 ∧ 1 ≤ l.hc ∧
    ((l.rh = none ∧ T.R = 0 ∧ l.semX = 0 ∧ T.W = 0 ∧ T.X = 0) ∨
     (l.rh = l.wh ∧ T.R = l.hc ∧ l.semX + T.X = 1 ∧ T.W + T.X = 1))
  cr : T.A = l.rw + l.semR
  cw : T.B + (if l.st = .shared then T.W else 0) = l.ww + l.semW
  q : 0 < l.rw → l.st = .exclusive ∨ 0 < l.ww
  nrw : 0 ≤ l.rw
  nww : 0 ≤ l.ww

/-! recognisers of the current call -/
def isLS (r : Rsv) : Op → Prop
  | .lockShared r' _ _ _ => r' = r
  | _ => False
def isAnyLS : Op → Prop
  | .lockShared _ _ _ _ => True
  | _ => False
def isLM : Op → Prop
  | .lockMutex _ _ => True
  | _ => False
def isS2 : Op → Prop
  | .shared2mutex _ => True
  | _ => False
def isPr : Op → Prop
  | .redeem _ | .shared2mutex _ => True
  | _ => False
/-- The call a promoting thread is in. -/
def isPromo (k : Bool) (o : Op) : Prop := if k = true then isLM o else isPr o

theorem isAnyLS_of {r : Rsv} {o : Op} (h : isLS r o) : isAnyLS o := by cases o <;> simp_all [isLS, isAnyLS]
theorem hold_anyLS_ok {o : Op} (hd : Hold) (h : isAnyLS o) : holdStep hd o .ok =
    (if 0 < hd.ex then { hd with ex := hd.ex + 1 } else { hd with sh := hd.sh + 1 }) := by
  cases o <;> simp_all [isAnyLS, holdStep, show (Res.ok == Res.gotResv) = false from rfl]
theorem hold_ls_ok {r : Rsv} {o : Op} (hd : Hold) (h : isLS r o) : holdStep hd o .ok =
    (if 0 < hd.ex then { hd with ex := hd.ex + 1 } else { hd with sh := hd.sh + 1 }) :=
  hold_anyLS_ok hd (isAnyLS_of h)
theorem hold_ls_got {r : Rsv} {o : Op} (hd : Hold) (h : isLS r o) : holdStep hd o .gotResv =
    (if 0 < hd.ex then { hd with ex := hd.ex + 1 } else { hd with sh := hd.sh + 1, resv := true }) := by
  cases o <;> simp_all [isLS, holdStep]
theorem hold_lm_ok {o : Op} (hd : Hold) (h : isLM o) :
    holdStep hd o .ok = { sh := 0, ex := hd.sh + hd.ex + 1, resv := false } := by
  cases o <;> simp_all [isLM, holdStep]
theorem hold_pr_ok {o : Op} (hd : Hold) (h : isPr o) :
    holdStep hd o .ok = { sh := 0, ex := hd.sh + hd.ex, resv := false } := by
  cases o <;> simp_all [isPr, holdStep]
theorem hold_err (hd : Hold) (o : Op) (e : Err) : holdStep hd o (.err e) = hd := by
  cases o <;> rfl

/-- Which call a thread is in, by program point, and what it then knows. -/
def PcOk (t : Tid) (l : Lock) (x : Thr) : Prop :=
  match x.pc with
  | .idle => True
  | .shCS r _ => isLS r x.cur ∧ l.wh ≠ some t
  | .shWait r _ | .shTimed r => isLS r x.cur ∧ l.wh ≠ some t ∧ x.dep = 0
  | .shResv r | .shResvCS r => isLS r x.cur ∧ l.wh ≠ some t ∧ 0 < x.dep ∧ l.rh ≠ some t
  | .shUnlockCS => isAnyLS x.cur ∧ l.wh ≠ some t ∧ 0 < x.dep ∧ l.rh ≠ some t
  | .mxCS _ | .mxWait _ | .mxTimed | .mxOwn => isLM x.cur ∧ l.wh ≠ some t ∧ x.dep = 0
  | .incW => isLM x.cur ∧ l.wh = some t ∧ l.rh ≠ some t
  | .unCS ab ad => x.cur = .unlock ab ad ∧ (0 < x.dep ∨ (l.wh = some t ∧ l.hc = 1)) ∧
      (l.rh = some t → x.dep = 1 → ab = true)
  | .m2sCS rsv nrs => x.cur = .mutex2shared rsv nrs ∧ x.dep = 0
  | .rsvCS => x.cur = .reserve ∧ 0 < x.dep ∧ l.wh ≠ some t
  | .rdCS _ k => isPromo k x.cur ∧ l.wh ≠ some t
  | .rdWait _ k | .rdTimed k | .rdOwn k => isPromo k x.cur
  | .abCS => x.cur = .abandon ∧ l.rh = some t
  | .smCS _ k => isPromo k x.cur ∧ l.wh ≠ some t ∧ 0 < x.dep ∧ l.rh ≠ some t
  | .smWait _ k | .smTimed k | .smOwn k => isPromo k x.cur

/-- A thread's bookkeeping against the lock. -/
structure TI (t : Tid) (l : Lock) (x : Thr) : Prop where
  sc : x.sc = x.dep
  dep : 0 ≤ x.dep
  trk : x.trk = true ↔ 0 < x.dep
  wh : l.wh = some t → l.st = .exclusive
  rh : l.rh = some t → 0 < x.dep ∧ ((l.st = .shared ∧ l.r2w = x.dep) ∨
    (l.st = .exclusive ∧ l.wh = some t ∧ isW x.pc + isX x.pc = 1 ∧ l.hc = x.dep))
  wx : isW x.pc + isX x.pc ≠ 0 → l.rh = some t
  own : l.wh = some t → l.rh ≠ some t → x.dep = 0 ∧ 1 ≤ l.hc
  mrc : x.mrc = (if l.wh = some t ∧ l.rh ≠ some t then l.hc else 0) + (if l.rh = some t then 1 else 0)
  pc : PcOk t l x

/-- A thread's holdings, as its caller knows them, against its bookkeeping. -/
def HL (t : Tid) (l : Lock) (x : Thr) (h : Hold) : Prop :=
  (isPend x.pc → (h.sh : Int) + 1 = x.dep ∧ h.ex = 0 ∧ h.resv = false) ∧
  (x.pc = .incW → h.ex = 0 ∧ 0 < h.sh ∧ (h.sh : Int) = l.hc) ∧
  (¬ isPend x.pc → x.pc ≠ .incW →
    (h.sh : Int) = x.dep ∧ (h.ex : Int) = (if l.wh = some t ∧ l.rh ≠ some t then l.hc else 0) ∧
    (h.resv = true ↔ (l.rh = some t ∧ ¬ isSm x.pc)))

/-- What thread `t` needs to know about the other threads. -/
structure Ctx (t : Tid) (l : Lock) (x : Thr) (T : Tot) : Prop where
  ti : TI t l x
  g : G l T
  oR : x.dep ≤ T.R
  oA : isA x.pc ≤ T.A
  oB : isB x.pc ≤ T.B
  oO : isO x.pc ≤ T.O
  oW : isW x.pc ≤ T.W
  oX : isX x.pc ≤ T.X
  oRh : l.rh ≠ none → l.rh ≠ some t → l.st = .shared → 1 ≤ l.r2w ∧ l.r2w ≤ T.R - x.dep
  oWX : (l.rh = none ∨ l.rh = some t) → T.W = isW x.pc ∧ T.X = isX x.pc
  oEx : l.st = .exclusive → l.wh ≠ some t → x.dep = 0
  w1 : T.W + T.X ≤ 1

/-- The new state of the lock as seen by another thread `u`: nothing that concerns it changed, or it
was granted the promotion it waits for. -/
def FrU (u : Tid) (l l' : Lock) : Prop :=
  ((l'.wh = some u ↔ l.wh = some u) ∧ (l'.rh = some u ↔ l.rh = some u) ∧
   (l.wh = some u → l'.hc = l.hc ∧ l'.st = l.st) ∧ (l.rh = some u → l'.r2w = l.r2w ∧ l'.st = l.st)) ∨
  (l.rh = some u ∧ l.st = .shared ∧ l.wh = none ∧ l'.rh = some u ∧ l'.wh = some u ∧ l'.st = .exclusive ∧ l'.hc = l.r2w)

/-- A grant requires that the reservation holder is waiting. -/
def Good (t : Tid) (l : Lock) (x : Thr) (h : Hold) (T : Tot) (o : Out) : Prop :=
  TI t o.1 o.2.1 ∧
  HL t o.1 o.2.1 (match o.2.2 with | none => h | some r => holdStep h o.2.1.cur r) ∧
  G o.1 (T.upd x o.2.1) ∧
  (∀ u, u ≠ t → t ≠ u → FrU u l o.1) ∧
  (l.st = .shared → o.1.st = .exclusive → o.1.wh ≠ none → o.1.wh ≠ some t → T.W = 1)

theorem FrU_refl (u : Tid) (l : Lock) : FrU u l l := Or.inl ⟨Iff.rfl, Iff.rfl, fun _ => ⟨rfl, rfl⟩, fun _ => ⟨rfl, rfl⟩⟩


theorem opt3 (o : Option Tid) (t : Tid) : o = none ∨ o = some t ∨ (o ≠ none ∧ o ≠ some t) := by
  cases o with
  | none => exact Or.inl rfl
  | some u => by_cases h : u = t
              · exact Or.inr (Or.inl (by rw [h]))
              · exact Or.inr (Or.inr ⟨by simp, by simpa using h⟩)

set_option hygiene false in
macro "rwdestr" : tactic => `(tactic|
  (obtain ⟨pc, cur, trk, dep, sc, mrc⟩ := x
   obtain ⟨st, hc, wh, rh, rw, ww, r2w, prom, semR, semW, semX⟩ := l
   obtain ⟨hsh, hex, hresv⟩ := h
   obtain ⟨tR, tA, tB, tO, tW, tX⟩ := T
   simp only at hp
   obtain ⟨⟨isc, idep, itrk, twh, trh, wx, own, imrc, pcok⟩, ⟨nR, nA, nB, nO, nW, nX, un, sh, ex0, ex1, cr, cw, q, nrw, nww⟩,
    oR, oA, oB, oO, oW, oX, oRh, oWX, oEx, w1⟩ := c
   obtain ⟨h1, h2, h3⟩ := hl))

set_option hygiene false in
macro "rwopen" : tactic => `(tactic|
  (rwdestr; subst hp
   simp [PcOk, isPend, isSm, isA, isB, isO, isW, isX] at *))

set_option hygiene false in
macro "rwgoal0" : tactic => `(tactic|
  (refine ⟨⟨?_, ?_, ?_, ?_, ?_, ?_, ?_, ?_, ?_⟩, ⟨?_, ?_, ?_⟩, ⟨?_, ?_, ?_, ?_, ?_, ?_, ?_, ?_, ?_, ?_, ?_, ?_, ?_, ?_, ?_⟩, ?_, ?_⟩ ))

set_option hygiene false in
macro "rwgoal" : tactic => `(tactic|
  (rwgoal0 <;>
   simp_all [Tot.upd, isA, isB, isO, isW, isX, isPend, isSm, PcOk, hold_err, FrU, fin, goto] <;> try omega))

/-- Plain program points: nothing pending, not counted as waiting. -/
def plain (p : Pc) : Prop := isA p = 0 ∧ isB p = 0 ∧ isO p = 0 ∧ isW p = 0 ∧ isX p = 0 ∧ ¬ isPend p ∧ p ≠ .incW ∧ ¬ isSm p

theorem Tot.upd_pc {T : Tot} {x y : Thr} (hd : y.dep = x.dep) (hx : plain x.pc) (hy : plain y.pc) : T.upd x y = T := by
  obtain ⟨a1, a2, a3, a4, a5, -⟩ := hx
  obtain ⟨b1, b2, b3, b4, b5, -⟩ := hy
  simp only [Tot.upd, hd, a1, a2, a3, a4, a5, b1, b2, b3, b4, b5]
  cases T
  simp

/-- Moving between plain program points without touching anything. -/
theorem good_move {t : Tid} {l : Lock} {x : Thr} {h : Hold} {T : Tot} (c : Ctx t l x T) (hl : HL t l x h)
    (hx : plain x.pc) (y : Thr) (hy : plain y.pc) (hd : y.dep = x.dep) (hs : y.sc = x.sc) (hm : y.mrc = x.mrc)
    (ht : y.trk = x.trk) (hpc : PcOk t l y) (r : Option Res) (hr : ∀ v, r = some v → ∃ e, v = .err e) :
    Good t l x h T (l, y, r) := by
  refine ⟨⟨?_, ?_, ?_, c.ti.wh, ?_, ?_, ?_, ?_, hpc⟩, ?_, ?_, fun u _ _ => FrU_refl u l, ?_⟩
  · show y.sc = y.dep; rw [hs, hd]; exact c.ti.sc
  · show 0 ≤ y.dep; rw [hd]; exact c.ti.dep
  · show y.trk = true ↔ 0 < y.dep; rw [ht, hd]; exact c.ti.trk
  · intro hrh
    have := c.ti.rh hrh
    have h1 := hx.2.2.2.1; have h2 := hx.2.2.2.2.1
    rw [h1, h2] at this
    show 0 < y.dep ∧ ((l.st = .shared ∧ l.r2w = y.dep) ∨ _)
    rw [hd]
    exact ⟨this.1, Or.inl (this.2.resolve_right (by intro hc; have := hc.2.2.1; omega))⟩
  · intro hc; exfalso; have h1 := hy.2.2.2.1; have h2 := hy.2.2.2.2.1; apply hc; show isW y.pc + isX y.pc = 0; omega
  · intro a b; show y.dep = 0 ∧ _; rw [hd]; exact c.ti.own a b
  · show y.mrc = _; rw [hm]; exact c.ti.mrc
  · show HL t l y _
    have hh : ∀ a : Hold, a = h → HL t l y h → HL t l y a := fun a e => by rw [e]; exact id
    refine hh _ (by cases r with
      | none => rfl
      | some v => obtain ⟨e, rfl⟩ := hr v rfl; exact hold_err _ _ _) ?_
    have h3 := hl.2.2 hx.2.2.2.2.2.1 hx.2.2.2.2.2.2.1
    refine ⟨fun hc => absurd hc hy.2.2.2.2.2.1, fun hc => absurd hc hy.2.2.2.2.2.2.1, fun _ _ => ⟨?_, h3.2.1, ?_⟩⟩
    · rw [hd]; exact h3.1
    · have ha := hx.2.2.2.2.2.2.2; have hb := hy.2.2.2.2.2.2.2
      rw [h3.2.2]; simp [ha, hb]
  · show G l (T.upd x y)
    rw [Tot.upd_pc hd hx hy]
    exact c.g
  · intro a b; rw [a] at b; cases b

theorem good_err {t : Tid} {l : Lock} {x : Thr} {h : Hold} {T : Tot} (c : Ctx t l x T) (hl : HL t l x h)
    (hx : plain x.pc) (e : Err) : Good t l x h T (fin l x (.err e)) :=
  good_move c hl hx { x with pc := .idle } (by simp [plain, isA, isB, isO, isW, isX, isPend, isSm]) rfl rfl rfl rfl
    trivial (some (.err e)) (fun v hv => ⟨e, (Option.some.inj hv).symm⟩)

theorem good_goto {t : Tid} {l : Lock} {x : Thr} {h : Hold} {T : Tot} (c : Ctx t l x T) (hl : HL t l x h)
    (hx : plain x.pc) (p : Pc) (hp : plain p) (hok : PcOk t l { x with pc := p }) : Good t l x h T (goto l x p) :=
  good_move c hl hx { x with pc := p } hp rfl rfl rfl rfl hok none (fun v hv => by cases hv)

macro "plain!" : tactic => `(tactic| simp [plain, isA, isB, isO, isW, isX, isPend, isSm])

end WS.RW
