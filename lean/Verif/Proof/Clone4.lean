import Verif.Proof.Clone3
/-
Lemmas for property C45: the coupled address-family tables.
-/
namespace WS.Cl
open WS

variable {H : Heap} {S : Ctx} {ρ : Ptr → Ptr} {O : List Ptr}

/-- The by-name object of a by-number object. -/
def nm (H : Heap) (p : Ptr) : Ptr :=
  match H.mem p with
  | some { pay := .afNum a, .. } => a.name
  | _ => p

/-- Everything of a context but its tables and ID index. -/
def SameRest (d d' : Ctx) : Prop :=
  d'.rt = d.rt ∧ d'.validator = d.validator ∧ d'.config = d.config ∧ d'.config0 = d.config0 ∧ d'.mkId = d.mkId ∧
    d'.idState = d.idState

theorem SameRest.refl (d : Ctx) : SameRest d d := ⟨rfl, rfl, rfl, rfl, rfl, rfl⟩
theorem SameRest.trans {a b c : Ctx} (h : SameRest a b) (h' : SameRest b c) : SameRest a c := by
  obtain ⟨a1, a2, a3, a4, a5, a6⟩ := h
  obtain ⟨b1, b2, b3, b4, b5, b6⟩ := h'
  exact ⟨b1.trans a1, b2.trans a2, b3.trans a3, b4.trans a4, b5.trans a5, b6.trans a6⟩

theorem fixPrev_spec (hO : Ord H O ρ) {g : Ptr → Pay} {D R : List Ptr} (hDO : ∀ q ∈ D, q ∈ O) :
    ∀ (N : List Ptr) (h : Heap) (pv : Option Ptr), (∀ q ∈ N, q ∈ D) → Inv H ρ g h D R →
    Inv H ρ g (fixPrev h pv (N.map ρ)) D R
  | [], h, pv, _, I => by simpa [fixPrev] using I
  | x :: N, h, pv, hN, I => by
    simp only [List.map_cons, fixPrev]
    have hx := hN x (by simp)
    obtain ⟨o, pr, ho, hm⟩ := I.copied x hx
    rw [hm]
    have := I.set (g' := g) hO hDO hx ho pv (fun _ _ _ => rfl)
    exact fixPrev_spec hO hDO N _ _ (fun q hq => hN q (by simp [hq])) this

theorem nameSplice_map (h : Heap) (x : Ptr) (l : Label) (hx : H.label x = some l) : ∀ N : List Ptr, Asc H N →
    (∀ q ∈ N, h.label (ρ q) = H.label q ∧ ∃ a, H.label q = some a ∧ a ≠ l) →
    ∃ N' : List Ptr, h.nameSplice (ρ x) l (N.map ρ) = some (N'.map ρ) ∧ Asc H N' ∧ N'.Perm (x :: N)
  | [], _, _ => ⟨[x], rfl, by simp [Asc], List.Perm.refl _⟩
  | i :: N, hs, hl => by
    unfold Asc at hs
    rw [List.pairwise_cons] at hs
    obtain ⟨e1, a, ea, hne⟩ := hl i (by simp)
    cases hc : labelCmp a l with
    | lt =>
      obtain ⟨N', h1, h2, h3⟩ := nameSplice_map h x l hx N hs.2 (fun q hq => hl q (by simp [hq]))
      refine ⟨i :: N', ?_, ?_, (List.Perm.cons i h3).trans (List.Perm.swap x i N)⟩
      · simp only [List.map_cons, Heap.nameSplice, e1, ea, hc, h1, Option.map_some]
      · unfold Asc
        rw [List.pairwise_cons]
        refine ⟨fun q hq => ?_, h2⟩
        rcases List.mem_cons.1 (h3.mem_iff.1 hq) with rfl | hq
        · exact ⟨a, l, ea, hx, hc⟩
        · exact hs.1 q hq
    | eq => exact absurd ((labelCmp_eq_iff a l).1 hc) hne
    | gt =>
      have hlt : labelCmp l a = .lt := by
        rw [labelCmp_lex] at *
        rw [Std.OrientedCmp.eq_swap (cmp := compare), hc]; rfl
      refine ⟨x :: i :: N, ?_, ?_, List.Perm.refl _⟩
      · simp only [List.map_cons, Heap.nameSplice, e1, ea, hc]
      · unfold Asc
        rw [List.pairwise_cons, List.pairwise_cons]
        refine ⟨fun q hq => ?_, hs⟩
        rcases List.mem_cons.1 hq with rfl | hq
        · exact ⟨l, a, hx, ea, hlt⟩
        · obtain ⟨a', b, h1, h2, h3⟩ := hs.1 q hq
          rw [ea] at h1; cases h1
          refine ⟨l, b, hx, h2, ?_⟩
          rw [labelCmp_lex] at *
          exact Std.TransCmp.lt_trans hlt h3

theorem coupledLoop_spec (f : CloneFlags) (hO : Ord H O ρ) (Nums : List Ptr)
    (hp : ∀ p ∈ Nums, ∃ o a o' b, H.mem p = some o ∧ o.pay = .afNum a ∧ H.mem a.name = some o' ∧ o'.pay = .afName b ∧
      b.number = p)
    (hlab : ∀ p ∈ Nums, ∀ q ∈ Nums, H.label (nm H p) = H.label (nm H q) → p = q) :
    ∀ (ps : List Ptr) (h : Heap) (d : Ctx) (D R rest done N : List Ptr), (∀ p ∈ ps, p ∈ Nums) → (∀ p ∈ done, p ∈ Nums) →
    (done ++ ps).Nodup →
    O = D ++ ps.flatMap (fun p => [p, nm H p]) ++ rest → Inv H ρ (bare f H ρ) h D R → ByIdL H ρ d.byId d.nById D →
    (∀ q ∈ N, q ∈ D) → (d.tab .afName).ents = N.map ρ → Asc H N → N.Perm (done.map (nm H)) →
    (d.tab .afName).nEnts = done.length →
    ∃ h' d' N', coupledLoop ps h d = .ok (h', d') ∧
      Inv H ρ (bare f H ρ) h' (D ++ ps.flatMap (fun p => [p, nm H p])) R ∧
      ByIdL H ρ d'.byId d'.nById (D ++ ps.flatMap (fun p => [p, nm H p])) ∧
      (d'.tab .afNum).ents = (d.tab .afNum).ents ++ ps.map ρ ∧ (d'.tab .afName).ents = N'.map ρ ∧ Asc H N' ∧
      N'.Perm ((done ++ ps).map (nm H)) ∧ (d'.tab .afName).nEnts = (done ++ ps).length ∧
      (∀ k, k ≠ .afNum → k ≠ .afName → d'.tab k = d.tab k) ∧ SameRest d d'
  | [], h, d, D, R, rest, done, N, _, _, _, _, I, hb, _, hN, hs, hperm, hn => by
    refine ⟨h, d, N, rfl, by simpa using I, by simpa using hb, by simp, hN, hs, by simpa using hperm, by simpa using hn,
      fun _ _ _ => rfl, SameRest.refl d⟩
  | p :: ps, h, d, D, R, rest, done, N, hps, hdn, hnd, e, I, hb, hND, hN, hs, hperm, hn => by
    have hpN := hps p (by simp)
    obtain ⟨⟨i1, hh1, pv1, y1⟩, a, ⟨i2, hh2, pv2, y2⟩, b, ho1, ha, ho2, hbb, hnum⟩ := hp p hpN
    simp only at ha hbb; subst ha hbb
    have hnm : nm H p = a.name := by unfold nm; rw [ho1]
    have e1 : O = D ++ p :: (nm H p :: (ps.flatMap (fun p => [p, nm H p]) ++ rest)) := by rw [e]; simp
    have e2 : O = (D ++ [p]) ++ nm H p :: (ps.flatMap (fun p => [p, nm H p]) ++ rest) := by rw [e]; simp
    have f1 : bare f H ρ p = .afNum { a with name := ρ (nm H p) } := by
      unfold bare fin; rw [ho1]; simp only [Pay.rename, hnm]
    have f2 : bare f H ρ (nm H p) = .afName { b with number := ρ p } := by
      unfold bare fin; rw [hnm, ho2]; simp only [Pay.rename, hnum]
    have hpO : p ∈ O := by rw [e1]; simp
    have hqO : nm H p ∈ O := by rw [e1]; simp
    obtain ⟨A1, I1⟩ := I.alloc hO e1 ho1 none
    have A2I2 := I1.alloc (R := R) hO e2 (by rw [hnm]; exact ho2) none
    obtain ⟨A2, I2⟩ := A2I2
    generalize hhx : ((h.alloc ⟨i1, hh1, none, bare f H ρ p⟩).2.alloc ⟨i2, hh2, none, bare f H ρ (nm H p)⟩).2 = h2 at *
    have haf : afClone h p = .ok (ρ p, ρ (nm H p), h2) := by
      have n1 : h.next = ρ p := A1
      have n2 : h.next + 1 = ρ (nm H p) := A2
      unfold afClone
      rw [I.old p (hO.live p hpO).1, ho1]
      simp only
      rw [← hnm, I.old (nm H p) (hO.live _ hqO).1, hnm, ho2]
      simp only
      rw [← hnm, n2, n1, ← hhx, f1, f2]
    -- number table, both IDs
    obtain ⟨d1, hd1⟩ : ∃ d1, d1 = d.setTab .afNum { d.tab .afNum with ents := (d.tab .afNum).ents ++ [ρ p] } := ⟨_, rfl⟩
    have hb1 : ByIdL H ρ d1.byId d1.nById D := by rw [hd1]; exact hb
    obtain ⟨b2, m2, hi1, hB1⟩ := insertById_step (d := d1) hO I2 e1 (fun q hq => by simp at hq ⊢; rcases hq with h | h <;> simp [h]) hb1
    obtain ⟨b3, m3, hi2, hB2⟩ := insertById_step (d := { d1 with byId := b2, nById := m2 }) hO I2 e2 (fun q hq => hq) hB1
    -- name table
    have hlq : H.label (nm H p) = some b.label := by rw [hnm, Heap.label_of ho2]; rfl
    have hlab2 : h2.label (ρ (nm H p)) = some b.label := by rw [I2.label (by simp), f2]; rfl
    have hD2O : ∀ q ∈ D ++ [p] ++ [nm H p], q ∈ O := by
      intro q hq; rw [e1]; simp at hq ⊢; rcases hq with h | h | h <;> simp [h]
    have htab : (({ d1 with byId := b3, nById := m3 } : Ctx).tab .afName).ents = N.map ρ := by
      rw [hd1, ← hN]; rfl
    obtain ⟨N2, s1, s2, s3⟩ := nameSplice_map (ρ := ρ) h2 (nm H p) b.label hlq N hs (fun q hq => by
      have hqD := hND q hq
      obtain ⟨o, ho, _⟩ := (hO.live q (hD2O q (by simp [hqD]))).2
      refine ⟨by rw [I2.label (by simp [hqD]), bare_label ho], ?_⟩
      have hqm := hperm.mem_iff.1 hq
      rw [List.mem_map] at hqm
      obtain ⟨p', hp', rfl⟩ := hqm
      obtain ⟨o1, a', o2, b', w1, w2, w3, w4, w5⟩ := hp p' (hdn p' hp')
      have hnm' : nm H p' = a'.name := by
        unfold nm; rw [w1]; obtain ⟨_, _, _, y⟩ := o1; simp only at w2; subst w2; rfl
      have hl' : H.label (nm H p') = some b'.label := by rw [hnm', Heap.label_of w3, w4]; rfl
      refine ⟨b'.label, hl', fun hc => ?_⟩
      have := hlab p' (hdn p' hp') p hpN (by rw [hl', hlq, hc])
      subst this
      have := (List.nodup_append.1 hnd).2.2 p' hp' p' (by simp)
      exact this rfl)
    have hN2 : ∀ q ∈ N2, q ∈ D ++ [p] ++ [nm H p] := by
      intro q hq
      rcases List.mem_cons.1 (s3.mem_iff.1 hq) with rfl | hq
      · simp
      · simp [hND q hq]
    have I3 := fixPrev_spec hO hD2O N2 h2 none hN2 I2
    obtain ⟨d4, hd4⟩ : ∃ d4, d4 = ({ d1 with byId := b3, nById := m3 } : Ctx).setTab .afName
        { ents := N2.map ρ, nEnts := (d1.tab .afName).nEnts + 1, nInserts := (d1.tab .afName).nInserts + 1,
          nDeletes := (d1.tab .afName).nDeletes } := ⟨_, rfl⟩
    have hstep : coupledLoop (p :: ps) h d = coupledLoop ps (fixPrev h2 none (N2.map ρ)) d4 := by
      conv => lhs; unfold coupledLoop
      rw [haf]
      simp only [← hd1]
      rw [hi1]; simp only
      rw [hi2]; simp only
      rw [hlab2]; simp only
      rw [htab, s1, hd4]
    have t1 : d1.tab .afName = d.tab .afName := by rw [hd1]; exact setTab_other d (by decide) _
    obtain ⟨h', d', N', k1, k2, k3, k4, k5, k6, k7, k8, k9, k10⟩ := coupledLoop_spec f hO Nums hp hlab ps
      (fixPrev h2 none (N2.map ρ)) d4 (D ++ [p] ++ [nm H p]) R rest (done ++ [p]) N2
      (fun q hq => hps q (by simp [hq])) (fun q hq => by
        rcases List.mem_append.1 hq with hq | hq
        · exact hdn q hq
        · simp at hq; subst hq; exact hpN)
      (by simpa using hnd) (by rw [e]; simp) I3 (by rw [hd4]; exact hB2) hN2 (by rw [hd4, setTab_same]) s2
      (by rw [List.map_append]
          exact s3.trans ((List.Perm.cons _ hperm).trans (List.perm_append_singleton _ _).symm))
      (by rw [hd4, setTab_same]; simp only [t1, hn, List.length_append, List.length_singleton])
    have q1 : d4.tab .afNum = { d.tab .afNum with ents := (d.tab .afNum).ents ++ [ρ p] } := by
      rw [hd4, setTab_other _ (by decide)]
      show d1.tab .afNum = _
      rw [hd1, setTab_same]
    refine ⟨h', d', N', by rw [hstep, k1], by simpa using k2, by simpa using k3, ?_, k5, k6, by simpa using k7,
      by simpa using k8, ?_, ?_⟩
    · rw [k4, q1]; simp
    · intro k h1 h2
      rw [k9 k h1 h2, hd4, setTab_other _ h2]
      show d1.tab k = _
      rw [hd1, setTab_other _ h1]
    · refine SameRest.trans ?_ k10
      rw [hd4, hd1]; exact ⟨rfl, rfl, rfl, rfl, rfl, rfl⟩

end WS.Cl
