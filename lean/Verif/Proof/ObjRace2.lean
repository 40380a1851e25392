import Verif.Proof.ObjRace
/-
Proofs for C88: the steps that change an object keep the invariant.
-/
namespace WS.OR
open WS.Spec.OR

variable {rr : Bool} {s : St}

theorem Inv.not_excl (h : Inv rr s) {t u : Nat} (hne : u ≠ t) (hh : 0 < (s.th t).held) : (s.th u).excl = false := by
  cases hx : (s.th u).excl with
  | false => rfl
  | true => have := (h.lock u hx).2 t (Ne.symm hne); omega

/-- A thread that has the lock exclusively: the others do not have it. -/
theorem Inv.others (h : Inv rr s) {t u : Nat} (hx : (s.th t).excl = true) (hne : u ≠ t) : (s.th u).held = 0 ∧ (s.th u).excl = false :=
  ⟨(h.lock t hx).2 u hne, h.not_excl hne (h.lock t hx).1⟩

theorem linked_owned (h : Inv rr s) {x : Nat} (hl : (s.obs x).linked = true) : (s.obs x).owners ≠ [] := by
  intro e
  have := h.oTab x
  rw [e, if_pos hl] at this
  cases this

theorem owned_lt (h : Inv rr s) {x : Nat} (ho : (s.obs x).owners ≠ []) : x < s.next := by
  by_cases hx : s.next ≤ x
  · exact absurd (h.fresh x hx).1 ho
  · omega

theorem setOb_self (s : St) (x : Nat) (g : Ob → Ob) : (s.setOb x g).obs x = g (s.obs x) := by simp [St.setOb]
theorem setOb_other (s : St) {x y : Nat} (g : Ob → Ob) (h : y ≠ x) : (s.setOb x g).obs y = s.obs y := by simp [St.setOb, h]
theorem go_self (s : St) (t : Nat) (p : Pc) : (s.go t p).th t = { s.th t with pc := p } := by simp [St.go, St.setTh]
theorem go_other (s : St) {t u : Nat} (p : Pc) (h : u ≠ t) : (s.go t p).th u = s.th u := by simp [St.go, St.setTh, h]

/-- Nobody is freeing an object that has an owner. -/
theorem not_freeing (h : Inv rr s) {x : Nat} (ho : (s.obs x).owners ≠ []) (u : Nat) : freeing (s.th u).pc ≠ some x :=
  fun hf => ho (h.free u x hf).2

theorem more_step (h : Inv rr s) {t x : Nat} {p : Pc} (ho : (s.obs x).owners ≠ [])
    (h0 : ∀ y, inflight y (s.th t).pc = 0) (h1 : ∀ y, inflight y p = if y = x then 1 else 0)
    (f0 : freeing (s.th t).pc = none) (f1 : freeing p = none)
    (hp : PcOk rr s.obs s.table s.dflt { s.th t with pc := p }) : Inv rr ((s.setOb x (·.more (.thread t))).go t p) := by
  have hc : ∀ y, (((s.setOb x (·.more (.thread t))).go t p).obs y).linked = (s.obs y).linked ∧ (((s.setOb x (·.more (.thread t))).go t p).obs y).key = (s.obs y).key := by
    intro y
    show ((s.setOb x (·.more (.thread t))).obs y).linked = _ ∧ _
    by_cases e : y = x
    · subst e; rw [show ((s.setOb y (·.more (.thread t))).go t p).obs = (s.setOb y (·.more (.thread t))).obs from rfl, setOb_self]; exact ⟨rfl, rfl⟩
    · rw [show ((s.setOb x (·.more (.thread t))).go t p).obs = (s.setOb x (·.more (.thread t))).obs from rfl, setOb_other _ _ e]; exact ⟨rfl, rfl⟩
  have hx : ((s.setOb x (·.more (.thread t))).go t p).obs x = (s.obs x).more (.thread t) := setOb_self s x (·.more (.thread t))
  refine h.object t x (fun y e => setOb_other s (·.more (.thread t)) e) (fun u e => go_other _ _ e) (by rw [go_self]; rfl) (by rw [go_self]; rfl) ?_ ?_ ?_ ?_ ?_ (fun _ _ => Iff.rfl) ?_ ?_ ?_ ?_
    (.inl (by rw [go_self]; exact f1)) ?_ ?_ ?_ (Nat.le_refl _) ?_ ?_ ?_
  · intro k y hk; rw [(hc y).1, (hc y).2]; exact h.tab k y hk
  · intro y hy; rw [(hc y).1] at hy; rw [(hc y).2]; exact h.back y hy
  · rw [hx]; show (s.obs x).rc + 1 = _ + 1; rw [h.rc]
  · rw [hx]; show (Owner.thread t :: (s.obs x).owners).count .table = if (s.obs x).linked = true then 1 else 0
    rw [List.count_cons_of_ne (by simp)]; exact h.oTab x
  · rw [hx]; show (Owner.thread t :: (s.obs x).owners).count .dflt = if s.dflt = some x then 1 else 0
    rw [List.count_cons_of_ne (by simp)]; exact h.oDflt x
  · rw [hx, go_self]; show (Owner.thread t :: (s.obs x).owners).count (.thread t) = (s.th t).bag.count x + inflight x p
    rw [List.count_cons_self, h.oTh, h0, h1]; simp
  · intro y e; rw [go_self]; show (s.th t).bag.count y + inflight y p = _; rw [h1, h0, if_neg e]
  · intro u e; rw [hx]; show (Owner.thread t :: (s.obs x).owners).count (.thread u) = _
    rw [List.count_cons_of_ne (by simp; exact Ne.symm e)]
  · intro _; rw [hx]; exact h.alive x ho
  · intro u e hf; exact absurd hf (not_freeing h ho u)
  · intro y hy; rw [f0] at hy; cases hy
  · intro hn; exact absurd (owned_lt h ho) (Nat.not_lt.2 hn)
  · intro _; left; rw [hx]; exact List.cons_ne_nil _ _
  · rw [go_self]; exact PcOk.congr (fun _ h => h) hc hp
  · intro u _; exact PcOk.congr (fun _ h => h) hc (h.pc u)

/-- A reference is dropped: by its thread, or the default event's. -/
theorem less_step (h : Inv rr s) {t x : Nat} {w : Owner} {d : Option Nat} {pf pr : Pc} (hw : w ∈ (s.obs x).owners) (hwt : w ≠ .table)
    (hd : w = .thread t ∧ d = s.dflt ∨ w = .dflt ∧ d = none)
    (hi : ∀ q ∈ [pf, pr], ∀ y, inflight y (s.th t).pc = inflight y q + if w = .thread t ∧ y = x then 1 else 0)
    (f0 : freeing (s.th t).pc = none) (f1 : freeing pf = some x) (f2 : freeing pr = none)
    (hx : w = .dflt → (s.th t).excl = true)
    (hp : ∀ q ∈ [pf, pr], PcOk rr s.obs s.table d { s.th t with pc := q }) :
    Inv rr (({ s.setOb x (·.less w) with dflt := d } : St).go t (afterDrop (s.obs x) pf pr)) := by
  have ho : (s.obs x).owners ≠ [] := fun e => by rw [e] at hw; cases hw
  have hdx : w = .dflt → s.dflt = some x := by
    intro e
    have := h.oDflt x
    by_cases hs : s.dflt = some x
    · exact hs
    · rw [if_neg hs] at this; rw [e] at hw; exact absurd hw (List.count_eq_zero.1 this)
  have hq : afterDrop (s.obs x) pf pr ∈ [pf, pr] := by unfold afterDrop; split <;> simp
  have hlen : ((s.obs x).owners.erase w).length = (s.obs x).owners.length - 1 := List.length_erase_of_mem hw
  generalize hs' : (({ s.setOb x (·.less w) with dflt := d } : St).go t (afterDrop (s.obs x) pf pr)) = s'
  have hobs : s'.obs = (s.setOb x (·.less w)).obs := by subst hs'; rfl
  have htab : s'.table = s.table := by subst hs'; rfl
  have hdf : s'.dflt = d := by subst hs'; rfl
  have hnx : s'.next = s.next := by subst hs'; rfl
  have hme : s'.th t = { s.th t with pc := afterDrop (s.obs x) pf pr } := by subst hs'; exact go_self _ _ _
  have hot : ∀ u, u ≠ t → s'.th u = s.th u := fun u e => by subst hs'; exact go_other _ _ e
  have hxo : s'.obs x = (s.obs x).less w := by rw [hobs]; exact setOb_self s x _
  have hyo : ∀ y, y ≠ x → s'.obs y = s.obs y := fun y e => by rw [hobs]; exact setOb_other s _ e
  have hc : ∀ y, (s'.obs y).linked = (s.obs y).linked ∧ (s'.obs y).key = (s.obs y).key := by
    intro y
    by_cases e : y = x
    · subst e; rw [hxo]; exact ⟨rfl, rfl⟩
    · rw [hyo y e]; exact ⟨rfl, rfl⟩
  have hempty : (s.obs x).rc = 1 ↔ (s.obs x).owners.erase w = [] := by
    rw [h.rc, ← List.length_eq_zero_iff, hlen]
    have : 0 < (s.obs x).owners.length := List.length_pos_iff.2 ho
    omega
  refine h.object t x hyo hot (by rw [hme]) (by rw [hme]) ?_ ?_ ?_ ?_ ?_ ?_ ?_ ?_ ?_ ?_ ?_ ?_ ?_ ?_ (by rw [hnx]; exact Nat.le_refl _) ?_ ?_ ?_
  · intro k y hk; rw [htab] at hk; rw [(hc y).1, (hc y).2]; exact h.tab k y hk
  · intro y hy; rw [(hc y).1] at hy; rw [(hc y).2, htab]; exact h.back y hy
  · rw [hxo]; show (s.obs x).rc - 1 = ((s.obs x).owners.erase w).length; rw [hlen, h.rc]
  · rw [hxo]; show ((s.obs x).owners.erase w).count .table = if (s.obs x).linked = true then 1 else 0
    rw [List.count_erase_of_ne (Ne.symm hwt)]; exact h.oTab x
  · rw [hxo, hdf]; show ((s.obs x).owners.erase w).count .dflt = if d = some x then 1 else 0
    rcases hd with ⟨e, e'⟩ | ⟨e, e'⟩
    · subst e e'; rw [List.count_erase_of_ne (by simp)]; exact h.oDflt x
    · rw [e'] ; subst e; rw [List.count_erase_self, h.oDflt x, if_pos (hdx rfl)]; rfl
  · intro y e; rw [hdf]
    rcases hd with ⟨_, e'⟩ | ⟨e', e''⟩
    · rw [e']
    · rw [e'', hdx e']; simp; exact fun h => e h.symm
  · rw [hxo, hme]; show ((s.obs x).owners.erase w).count (.thread t) = (s.th t).bag.count x + inflight x (afterDrop (s.obs x) pf pr)
    have h2 := hi _ hq x
    have h3 := h.oTh t x
    rcases hd with ⟨e, _⟩ | ⟨e, _⟩
    · subst e
      rw [List.count_erase_self, h3, h2]; simp
    · subst e
      rw [List.count_erase_of_ne (by simp), h3, h2]; simp
  · intro y e; rw [hme]; show (s.th t).bag.count y + inflight y (afterDrop (s.obs x) pf pr) = _
    rw [hi _ hq y]; simp [e]
  · intro u e; rw [hxo]; show ((s.obs x).owners.erase w).count (.thread u) = _
    refine List.count_erase_of_ne ?_
    rcases hd with ⟨e', _⟩ | ⟨e', _⟩
    · rw [e']; simp [e]
    · rw [e']; simp
  · intro _; rw [hxo]; exact h.alive x ho
  · rw [hme, hxo]
    by_cases e : (s.obs x).rc = 1
    · right
      refine ⟨by show freeing (afterDrop _ _ _) = _; unfold afterDrop; rw [if_pos e]; exact f1, ho, h.alive x ho, hempty.1 e⟩
    · left; show freeing (afterDrop _ _ _) = _; unfold afterDrop; rw [if_neg e]; exact f2
  · intro u e hf; exact absurd hf (not_freeing h ho u)
  · intro y hy; rw [f0] at hy; cases hy
  · intro hn; rw [hnx] at hn; exact absurd (owned_lt h ho) (Nat.not_lt.2 hn)
  · intro _
    by_cases e : (s.obs x).rc = 1
    · right; refine ⟨t, ?_⟩; rw [hme]; show freeing (afterDrop _ _ _) = _; unfold afterDrop; rw [if_pos e]; exact f1
    · left; rw [hxo]; exact fun h' => e (hempty.2 h')
  · rw [hme, htab, hdf]; exact PcOk.congr (fun _ h => h) hc (hp _ hq)
  · intro u e
    rw [htab, hdf]
    rcases hd with ⟨_, e'⟩ | ⟨e', _⟩
    · rw [e']; exact PcOk.congr (fun _ h => h) hc (h.pc u)
    · have := h.others (hx e') e
      exact PcOk.unheld this.1 this.2 (h.pc u)

theorem freed_step (h : Inv rr s) {t x : Nat} {p : Pc} (f0 : freeing (s.th t).pc = some x) (f1 : freeing p = none)
    (hi : ∀ y, inflight y p = inflight y (s.th t).pc) (hp : PcOk rr s.obs s.table s.dflt { s.th t with pc := p }) :
    Inv rr ((s.setOb x (·.freed)).go t p) := by
  have hf := h.free t x f0
  generalize hs' : (s.setOb x (·.freed)).go t p = s'
  have hobs : s'.obs = (s.setOb x (·.freed)).obs := by subst hs'; rfl
  have htab : s'.table = s.table := by subst hs'; rfl
  have hdf : s'.dflt = s.dflt := by subst hs'; rfl
  have hnx : s'.next = s.next := by subst hs'; rfl
  have hme : s'.th t = { s.th t with pc := p } := by subst hs'; exact go_self _ _ _
  have hot : ∀ u, u ≠ t → s'.th u = s.th u := fun u e => by subst hs'; exact go_other _ _ e
  have hxo : s'.obs x = (s.obs x).freed := by rw [hobs]; exact setOb_self s x _
  have hyo : ∀ y, y ≠ x → s'.obs y = s.obs y := fun y e => by rw [hobs]; exact setOb_other s _ e
  have hc : ∀ y, (s'.obs y).linked = (s.obs y).linked ∧ (s'.obs y).key = (s.obs y).key := by
    intro y
    by_cases e : y = x
    · subst e; rw [hxo]; exact ⟨rfl, rfl⟩
    · rw [hyo y e]; exact ⟨rfl, rfl⟩
  have hown : (s'.obs x).owners = (s.obs x).owners := by rw [hxo]; rfl
  refine h.object t x hyo hot (by rw [hme]) (by rw [hme]) ?_ ?_ ?_ ?_ ?_ (fun _ _ => by rw [hdf]) ?_ ?_ ?_ ?_ (.inl (by rw [hme]; exact f1)) ?_ ?_ ?_
    (by rw [hnx]; exact Nat.le_refl _) ?_ ?_ ?_
  · intro k y hk; rw [htab] at hk; rw [(hc y).1, (hc y).2]; exact h.tab k y hk
  · intro y hy; rw [(hc y).1] at hy; rw [(hc y).2, htab]; exact h.back y hy
  · rw [hown, hxo]; exact h.rc x
  · rw [hown, hxo]; exact h.oTab x
  · rw [hown, hdf]; exact h.oDflt x
  · rw [hown, hme]; show _ = (s.th t).bag.count x + inflight x p; rw [hi]; exact h.oTh t x
  · intro y _; rw [hme]; show (s.th t).bag.count y + inflight y p = _; rw [hi]
  · intro u _; rw [hown]
  · intro h'; rw [hown] at h'; exact absurd hf.2 h'
  · intro u e hu; exact absurd (h.free1 u t x hu f0) e
  · intro y hy; rw [f0] at hy; cases hy; rfl
  · intro hn; rw [hown, hxo]; exact ⟨hf.2, rfl⟩
  · intro hl; rw [hxo] at hl; cases hl
  · rw [hme, htab, hdf]; exact PcOk.congr (fun _ h => h) hc hp
  · intro u _; rw [htab, hdf]; exact PcOk.congr (fun _ h => h) hc (h.pc u)

theorem unlink_step (h : Inv rr s) {t x : Nat} {p : Pc} (hx : (s.th t).excl = true) (hl : (s.obs x).linked = true)
    (h0 : ∀ y, inflight y (s.th t).pc = 0) (h1 : ∀ y, inflight y p = if y = x then 1 else 0)
    (f0 : freeing (s.th t).pc = none) (f1 : freeing p = none)
    (hp : ∀ s' : St, s'.table (s.obs x).key = none → PcOk rr s'.obs s'.table s'.dflt { s.th t with pc := p }) :
    Inv rr (({ s.setOb x (·.unlinked t) with table := fun k => if k = (s.obs x).key then none else s.table k } : St).go t p) := by
  have ho := linked_owned h hl
  have hm : Owner.table ∈ (s.obs x).owners := by
    have := h.oTab x
    rw [if_pos hl] at this
    exact List.count_pos_iff.1 (by omega)
  generalize hs' : (({ s.setOb x (·.unlinked t) with table := fun k => if k = (s.obs x).key then none else s.table k } : St).go t p) = s'
  have hobs : s'.obs = (s.setOb x (·.unlinked t)).obs := by subst hs'; rfl
  have htab : ∀ k, s'.table k = if k = (s.obs x).key then none else s.table k := by intro k; subst hs'; rfl
  have hdf : s'.dflt = s.dflt := by subst hs'; rfl
  have hnx : s'.next = s.next := by subst hs'; rfl
  have hme : s'.th t = { s.th t with pc := p } := by subst hs'; exact go_self _ _ _
  have hot : ∀ u, u ≠ t → s'.th u = s.th u := fun u e => by subst hs'; exact go_other _ _ e
  have hxo : s'.obs x = (s.obs x).unlinked t := by rw [hobs]; exact setOb_self s x _
  have hyo : ∀ y, y ≠ x → s'.obs y = s.obs y := fun y e => by rw [hobs]; exact setOb_other s _ e
  have hown : (s'.obs x).owners = Owner.thread t :: (s.obs x).owners.erase .table := by rw [hxo]; rfl
  refine h.object t x hyo hot (by rw [hme]) (by rw [hme]) ?_ ?_ ?_ ?_ ?_ (fun _ _ => by rw [hdf]) ?_ ?_ ?_ ?_ (.inl (by rw [hme]; exact f1)) ?_ ?_ ?_
    (by rw [hnx]; exact Nat.le_refl _) ?_ ?_ ?_
  · intro k y hk
    rw [htab] at hk
    split at hk
    · cases hk
    · rename_i e
      have := h.tab k y hk
      rw [hyo y (fun e' => e (by rw [← e']; exact this.2.symm))]
      exact this
  · intro y hy
    by_cases e : y = x
    · subst e; rw [hxo] at hy; cases hy
    · rw [hyo y e] at hy ⊢
      have := h.back y hy
      rw [htab, if_neg ?_]
      · exact this
      · intro e'; rw [e', h.back x hl] at this; injection this with this; exact e this.symm
  · rw [hown, hxo]; show (s.obs x).rc = ((s.obs x).owners.erase .table).length + 1
    rw [List.length_erase_of_mem hm, h.rc]
    have : 0 < (s.obs x).owners.length := List.length_pos_iff.2 ho
    omega
  · rw [hown, hxo, List.count_cons_of_ne (by simp), List.count_erase_self, h.oTab x, if_pos hl]; rfl
  · rw [hown, hdf, List.count_cons_of_ne (by simp), List.count_erase_of_ne (by simp)]; exact h.oDflt x
  · rw [hown, hme, List.count_cons_self, List.count_erase_of_ne (by simp), h.oTh, h0]
    show _ = (s.th t).bag.count x + inflight x p
    rw [h1]; simp
  · intro y e; rw [hme]; show (s.th t).bag.count y + inflight y p = _; rw [h1, h0, if_neg e]
  · intro u e; rw [hown, List.count_cons_of_ne (by simp; exact Ne.symm e), List.count_erase_of_ne (by simp)]
  · intro _; rw [hxo]; exact h.alive x ho
  · intro u e hf; exact absurd hf (not_freeing h ho u)
  · intro y hy; rw [f0] at hy; cases hy
  · intro hn; rw [hnx] at hn; exact absurd (owned_lt h ho) (Nat.not_lt.2 hn)
  · intro _; left; rw [hown]; exact List.cons_ne_nil _ _
  · rw [hme]; exact hp s' (by rw [htab, if_pos rfl])
  · intro u e
    have := h.others hx e
    exact PcOk.unheld this.1 this.2 (h.pc u)

theorem link_step (h : Inv rr s) {t k v : Nat} (hx : (s.th t).excl = true) (hk : s.table k = none)
    (h0 : ∀ y, inflight y (s.th t).pc = 0) (f0 : freeing (s.th t).pc = none) :
    Inv rr (({ s.setOb s.next (fun _ => { key := k, val := v, rc := 1, linked := true, live := true, owners := [.table] }) with
        next := s.next + 1, table := fun j => if j = k then some s.next else s.table j } : St).go t .unlock) := by
  have hfr := h.fresh s.next (Nat.le_refl _)
  have hnl : (s.obs s.next).linked = false := by
    have := h.oTab s.next
    rw [hfr.1] at this
    cases hl : (s.obs s.next).linked with
    | false => rfl
    | true => rw [hl] at this; cases this
  generalize hs' : (({ s.setOb s.next (fun _ => { key := k, val := v, rc := 1, linked := true, live := true, owners := [.table] }) with
        next := s.next + 1, table := fun j => if j = k then some s.next else s.table j } : St).go t .unlock) = s'
  have htab : ∀ j, s'.table j = if j = k then some s.next else s.table j := by intro k; subst hs'; rfl
  have hdf : s'.dflt = s.dflt := by subst hs'; rfl
  have hnx : s'.next = s.next + 1 := by subst hs'; rfl
  have hme : s'.th t = { s.th t with pc := .unlock } := by subst hs'; exact go_self _ _ _
  have hot : ∀ u, u ≠ t → s'.th u = s.th u := fun u e => by subst hs'; exact go_other _ _ e
  have hxo : s'.obs s.next = { key := k, val := v, rc := 1, linked := true, live := true, owners := [.table] } := by
    subst hs'; exact setOb_self s s.next (fun _ => { key := k, val := v, rc := 1, linked := true, live := true, owners := [.table] })
  have hyo : ∀ y, y ≠ s.next → s'.obs y = s.obs y := fun y e => by subst hs'; exact setOb_other s (fun _ => { key := k, val := v, rc := 1, linked := true, live := true, owners := [.table] }) e
  have hdn : s.dflt ≠ some s.next := by
    intro e
    have := h.oDflt s.next
    rw [hfr.1, if_pos e] at this; cases this
  have hth : ∀ u, (s.th u).bag.count s.next + inflight s.next (s.th u).pc = 0 := by
    intro u; rw [← h.oTh, hfr.1]; rfl
  refine h.object t s.next hyo hot (by rw [hme]) (by rw [hme]) ?_ ?_ (by rw [hxo]; rfl) (by rw [hxo]; rfl) ?_ (fun _ _ => by rw [hdf]) ?_ ?_ ?_ ?_
    (.inl (by rw [hme]; rfl)) ?_ ?_ ?_ (by rw [hnx]; omega) ?_ ?_ ?_
  · intro j y hj
    rw [htab] at hj
    split at hj
    · rename_i e; injection hj with hj; rw [← hj, hxo, e]; exact ⟨rfl, rfl⟩
    · have := h.tab j y hj
      rw [hyo y (fun e => by rw [e, hnl] at this; cases this.1)]
      exact this
  · intro y hy
    by_cases e : y = s.next
    · subst e; rw [hxo, htab, if_pos rfl]
    · rw [hyo y e] at hy ⊢
      rw [htab, if_neg ?_]
      · exact h.back y hy
      · intro e'; have := h.back y hy; rw [e', hk] at this; cases this
  · rw [hxo, hdf, if_neg hdn]; rfl
  · rw [hxo, hme]
    have := hth t
    show List.count (Owner.thread t) [Owner.table] = (s.th t).bag.count s.next + inflight s.next .unlock
    have h1 : (s.th t).bag.count s.next = 0 := by omega
    rw [h1]; rfl
  · intro y e; rw [hme]; show (s.th t).bag.count y + 0 = _; rw [h0]
  · intro u e; rw [hxo, hfr.1]; rfl
  · intro _; rw [hxo]
  · intro u e hf
    have := (h.free u _ hf).1
    rw [hfr.2] at this; cases this
  · intro y hy; rw [f0] at hy; cases hy
  · intro hn; rw [hnx] at hn; omega
  · intro _; left; rw [hxo]; exact List.cons_ne_nil _ _
  · rw [hme]; exact (h.lock t hx).1
  · intro u e
    have := h.others hx e
    exact PcOk.unheld this.1 this.2 (h.pc u)

theorem put_step (h : Inv rr s) {t x : Nat} (hx : (s.th t).excl = true) (hd : s.dflt = none) (hpc : (s.th t).pc = .dPut (some x)) :
    Inv rr (({ s.setOb x (fun o => { o with owners := .dflt :: o.owners.erase (.thread t) }) with dflt := some x } : St).go t .unlock) := by
  have hm : Owner.thread t ∈ (s.obs x).owners := by
    have := h.oTh t x
    rw [hpc] at this
    have h1 : inflight x (.dPut (some x)) = 1 := by simp [inflight]
    rw [h1] at this
    exact List.count_pos_iff.1 (by omega)
  have ho : (s.obs x).owners ≠ [] := fun e => by rw [e] at hm; cases hm
  generalize hs' : (({ s.setOb x (fun o => { o with owners := .dflt :: o.owners.erase (.thread t) }) with dflt := some x } : St).go t .unlock) = s'
  have htab : s'.table = s.table := by subst hs'; rfl
  have hdf : s'.dflt = some x := by subst hs'; rfl
  have hnx : s'.next = s.next := by subst hs'; rfl
  have hme : s'.th t = { s.th t with pc := .unlock } := by subst hs'; exact go_self _ _ _
  have hot : ∀ u, u ≠ t → s'.th u = s.th u := fun u e => by subst hs'; exact go_other _ _ e
  have hxo : s'.obs x = { s.obs x with owners := .dflt :: (s.obs x).owners.erase (.thread t) } := by subst hs'; exact setOb_self s x (fun o => { o with owners := .dflt :: o.owners.erase (.thread t) })
  have hyo : ∀ y, y ≠ x → s'.obs y = s.obs y := fun y e => by subst hs'; exact setOb_other s (fun o => { o with owners := .dflt :: o.owners.erase (.thread t) }) e
  have hown : (s'.obs x).owners = .dflt :: (s.obs x).owners.erase (.thread t) := by rw [hxo]
  have hc : ∀ y, (s'.obs y).linked = (s.obs y).linked ∧ (s'.obs y).key = (s.obs y).key := by
    intro y
    by_cases e : y = x
    · subst e; rw [hxo]; exact ⟨rfl, rfl⟩
    · rw [hyo y e]; exact ⟨rfl, rfl⟩
  refine h.object t x hyo hot (by rw [hme]) (by rw [hme]) ?_ ?_ ?_ ?_ ?_ ?_ ?_ ?_ ?_ ?_ (.inl (by rw [hme]; rfl)) ?_ ?_ ?_
    (by rw [hnx]; exact Nat.le_refl _) ?_ ?_ ?_
  · intro k y hk; rw [htab] at hk; rw [(hc y).1, (hc y).2]; exact h.tab k y hk
  · intro y hy; rw [(hc y).1] at hy; rw [(hc y).2, htab]; exact h.back y hy
  · rw [hown, hxo]; show (s.obs x).rc = ((s.obs x).owners.erase (.thread t)).length + 1
    rw [List.length_erase_of_mem hm, h.rc]
    have : 0 < (s.obs x).owners.length := List.length_pos_iff.2 ho
    omega
  · rw [hown, (hc x).1, List.count_cons_of_ne (by simp), List.count_erase_of_ne (by simp)]; exact h.oTab x
  · rw [hown, hdf, List.count_cons_self, List.count_erase_of_ne (by simp), h.oDflt x, hd]; simp
  · intro y e; rw [hdf, hd]; simp; exact fun h => e h.symm
  · rw [hown, hme, List.count_cons_of_ne (by simp), List.count_erase_self, h.oTh, hpc]
    show _ = (s.th t).bag.count x + 0
    simp [inflight]
  · intro y e; rw [hme, hpc]; show (s.th t).bag.count y + 0 = _ + (if some x = some y then 1 else 0)
    rw [if_neg (fun h => e (by injection h with h; exact h.symm))]
  · intro u e; rw [hown, List.count_cons_of_ne (by simp), List.count_erase_of_ne (by simp [e])]
  · intro _; rw [hxo]; exact h.alive x ho
  · intro u e hf; exact absurd hf (not_freeing h ho u)
  · intro y hy; rw [hpc] at hy; cases hy
  · intro hn; rw [hnx] at hn; exact absurd (owned_lt h ho) (Nat.not_lt.2 hn)
  · intro _; left; rw [hown]; exact List.cons_ne_nil _ _
  · rw [hme]; exact (h.lock t hx).1
  · intro u e
    have := h.others hx e
    exact PcOk.unheld this.1 this.2 (h.pc u)

end WS.OR
