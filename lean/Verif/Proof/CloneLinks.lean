import Verif.Spec.Clone
/-
Lemmas for property C45: the `prev` links of the clone's tables.
-/
namespace WS.Cl
open WS

/-- Following `next` from an object whose predecessor is `pr`, each `prev` is the object before. -/
def LinkedFrom (h : Heap) : Option Ptr → List Ptr → Prop
  | _, [] => True
  | pr, p :: rest => (h.mem p).map Obj.prev = some pr ∧ LinkedFrom h (some p) rest

theorem linkedFrom_append {h : Heap} {n : Ptr} : ∀ {l : List Ptr} {pr : Option Ptr}, LinkedFrom h pr l →
    (h.mem n).map Obj.prev = some (l.getLast?.or pr) → LinkedFrom h pr (l ++ [n])
  | [], pr, _, hn => ⟨by simpa using hn, trivial⟩
  | x :: l, pr, hl, hn => by
    refine ⟨hl.1, linkedFrom_append hl.2 ?_⟩
    rw [hn]
    cases l with
    | nil => rfl
    | cons y l => rw [List.getLast?_cons_cons]; simp [List.getLast?_cons]

/-- No object that existed has another `prev`. -/
def PrevExt (h h' : Heap) : Prop := h.next ≤ h'.next ∧ ∀ q, q < h.next → (h'.mem q).map Obj.prev = (h.mem q).map Obj.prev

theorem PrevExt.refl (h : Heap) : PrevExt h h := ⟨Nat.le_refl _, fun _ _ => rfl⟩
theorem PrevExt.trans {a b c : Heap} (h : PrevExt a b) (h' : PrevExt b c) : PrevExt a c :=
  ⟨Nat.le_trans h.1 h'.1, fun q hq => (h'.2 q (Nat.lt_of_lt_of_le hq h.1)).trans (h.2 q hq)⟩

theorem PrevExt.alloc (h : Heap) (o : Obj) : PrevExt h (h.alloc o).2 :=
  ⟨Nat.le_succ _, fun q hq => by simp [Heap.alloc, Nat.ne_of_lt hq]⟩
theorem PrevExt.upref (h : Heap) (p : Ptr) : PrevExt h (h.upref p) := ⟨Nat.le_refl _, fun _ _ => rfl⟩

theorem LinkedFrom.ext {h h' : Heap} (e : PrevExt h h') : ∀ {l : List Ptr} {pr : Option Ptr}, (∀ q ∈ l, q < h.next) →
    LinkedFrom h pr l → LinkedFrom h' pr l
  | [], _, _, _ => trivial
  | x :: l, pr, hl, hk => ⟨(e.2 x (hl x (by simp))).trans hk.1, LinkedFrom.ext e (fun q hq => hl q (by simp [hq])) hk.2⟩

/-- The entries are allocated objects, linked. -/
def TabOk (h : Heap) (l : List Ptr) : Prop := (∀ q ∈ l, q < h.next) ∧ LinkedFrom h none l

theorem TabOk.ext {h h' : Heap} (e : PrevExt h h') {l : List Ptr} (t : TabOk h l) : TabOk h' l :=
  ⟨fun q hq => Nat.lt_of_lt_of_le (t.1 q hq) e.1, LinkedFrom.ext e t.1 t.2⟩

theorem routeEvent_ext {h : Heap} {d : Ctx} {r : RouteO} {e : Option Ptr} {h' : Heap} (hr : routeEvent h d r = .ok (e, h')) :
    PrevExt h h' ∧ h'.next = h.next := by
  unfold routeEvent at hr
  split at hr
  · cases hr; exact ⟨PrevExt.refl _, rfl⟩
  · split at hr
    · cases hr
    · split at hr
      · cases hr
      · cases hr; exact ⟨PrevExt.upref _ _, rfl⟩

theorem cloneOne_ext {f : CloneFlags} {s : Ctx} {h : Heap} {d : Ctx} {p n : Ptr} {h' : Heap}
    (hc : cloneOne f s h d p = .ok (n, h')) : PrevExt h h' ∧ n = h.next ∧ n < h'.next ∧ ∃ o, h'.mem n = some o := by
  unfold cloneOne at hc
  split at hc
  · cases hc
  · split at hc
    · cases hc; exact ⟨PrevExt.alloc _ _, rfl, Nat.lt_succ_self _, _, if_pos rfl⟩
    · cases hc; exact ⟨PrevExt.alloc _ _, rfl, Nat.lt_succ_self _, _, if_pos rfl⟩
    · cases hc; exact ⟨PrevExt.alloc _ _, rfl, Nat.lt_succ_self _, _, if_pos rfl⟩
    · split at hc
      · cases hc
      · rename_i e h1 hr
        obtain ⟨k1, k2⟩ := routeEvent_ext hr
        cases hc
        exact ⟨k1.trans (PrevExt.alloc _ _), k2, Nat.lt_succ_self _, _, if_pos rfl⟩
    · cases hc

theorem insertById_tab {h : Heap} {d d' : Ctx} {n : Ptr} (hi : insertById h d n = .ok d') : d'.tab = d.tab := by
  unfold insertById at hi
  split at hi
  · cases hi
  · split at hi
    · cases hi
    · cases hi; rfl

theorem cloneLoop_links (f : CloneFlags) (s : Ctx) (k : Kind) : ∀ (ps : List Ptr) (h : Heap) (d : Ctx) (h' : Heap) (d' : Ctx),
    cloneLoop f s k ps h d = .ok (h', d') → TabOk h (d.tab k).ents →
    TabOk h' (d'.tab k).ents ∧ PrevExt h h' ∧ ∀ k', k' ≠ k → d'.tab k' = d.tab k'
  | [], h, d, h', d', hc, ht => by
    simp only [cloneLoop] at hc; cases hc
    exact ⟨ht, PrevExt.refl _, fun _ _ => rfl⟩
  | p :: ps, h, d, h', d', hc, ht => by
    unfold cloneLoop at hc
    split at hc
    · cases hc
    · rename_i n h1 h1e
      obtain ⟨x1, x2, x3, o, x4⟩ := cloneOne_ext h1e
      simp only at hc
      have hl : link h1 d k n = (h1.set n { o with prev := (d.tab k).ents.getLast? },
          d.setTab k { d.tab k with ents := (d.tab k).ents ++ [n] }) := by unfold link; rw [x4]
      rw [hl] at hc
      simp only at hc
      split at hc
      · cases hc
      · rename_i d2 hd2
        have ht2 := insertById_tab hd2
        have e2 : PrevExt h (h1.set n { o with prev := (d.tab k).ents.getLast? }) := by
          refine ⟨x1.1, fun q hq => ?_⟩
          have : q ≠ n := by omega
          simp only [Heap.set, if_neg this]; exact x1.2 q hq
        have htk : (d2.tab k).ents = (d.tab k).ents ++ [n] := by rw [ht2]; simp [Ctx.setTab]
        have htab : ∀ D : Ctx, D = (if k = .routes then { d2 with rt := noteRoute (h1.set n { o with prev := (d.tab k).ents.getLast? }) d2.rt n } else d2) →
            D.tab = d2.tab := by
          intro D hD; rw [hD]; split <;> rfl
        obtain ⟨r1, r2, r3⟩ := cloneLoop_links f s k ps _ _ h' d' hc (by
          rw [htab _ rfl, htk]
          refine ⟨fun q hq => ?_, ?_⟩
          · rcases List.mem_append.1 hq with hq | hq
            · exact Nat.lt_of_lt_of_le (ht.1 q hq) e2.1
            · simp at hq; subst hq; exact x3
          · refine linkedFrom_append (LinkedFrom.ext e2 ht.1 ht.2) ?_
            simp [Heap.set])
        refine ⟨r1, e2.trans r2, fun k' hk' => ?_⟩
        rw [r3 k' hk', htab _ rfl, ht2]
        simp [Ctx.setTab, hk']

theorem cloneList_ext (d : Ctx) : ∀ (l acc : List Ptr) (h : Heap) (r : List Ptr) (h' : Heap), cloneList d l acc h = .ok (r, h') →
    PrevExt h h' ∧ h'.mem = h.mem
  | [], acc, h, r, h', hc => by simp only [cloneList] at hc; cases hc; exact ⟨PrevExt.refl _, rfl⟩
  | a :: l, acc, h, r, h', hc => by
    unfold cloneList at hc
    split at hc
    · cases hc
    · split at hc
      · cases hc
      · obtain ⟨k1, k2⟩ := cloneList_ext d l _ _ r h' hc
        exact ⟨(PrevExt.upref _ _).trans k1, k2⟩

theorem resolveAux_ext {d : Ctx} {aux r : Option Ptr} {h h' : Heap} (hc : resolveAux d aux h = .ok (r, h')) :
    PrevExt h h' ∧ h'.mem = h.mem := by
  unfold resolveAux at hc
  split at hc
  · cases hc; exact ⟨PrevExt.refl _, rfl⟩
  · split at hc
    · cases hc
    · split at hc
      · cases hc
      · cases hc; exact ⟨PrevExt.upref _ _, rfl⟩

theorem set_same_prev {h : Heap} {n : Ptr} {o o' : Obj} (hm : h.mem n = some o) (hp : o'.prev = o.prev) : PrevExt h (h.set n o') := by
  refine ⟨Nat.le_refl _, fun q _ => ?_⟩
  simp only [Heap.set]
  split
  · rename_i hq; rw [hq, hm]; simp [hp]
  · rfl

theorem eventResolve_ext {d : Ctx} {p n : Ptr} {h h' : Heap} (hc : eventResolve d p n h = .ok h') : PrevExt h h' := by
  unfold eventResolve at hc
  split at hc
  · split at hc
    · cases hc
    · rename_i l1 h1 e1
      split at hc
      · cases hc
      · rename_i l2 h2 e2
        split at hc
        · cases hc
        · rename_i l3 h3 e3
          split at hc
          · cases hc
          · rename_i l4 h4 e4
            split at hc
            · cases hc
            · rename_i l5 h5 e5
              split at hc
              · cases hc
              · rename_i l6 h6 e6
                split at hc
                · cases hc
                · rename_i ax h7 e7
                  split at hc
                  · rename_i o ho
                    split at hc
                    · cases hc
                      exact (cloneList_ext d _ _ _ _ _ e1).1.trans <| (cloneList_ext d _ _ _ _ _ e2).1.trans <|
                        (cloneList_ext d _ _ _ _ _ e3).1.trans <| (cloneList_ext d _ _ _ _ _ e4).1.trans <|
                        (cloneList_ext d _ _ _ _ _ e5).1.trans <| (cloneList_ext d _ _ _ _ _ e6).1.trans <|
                        (resolveAux_ext e7).1.trans (set_same_prev ho rfl)
                    · cases hc
                  · cases hc
  · cases hc

theorem resolveLoop_ext (d : Ctx) : ∀ (ps ns : List Ptr) (h h' : Heap), resolveLoop d ps ns h = .ok h' → PrevExt h h'
  | [], [], h, h', hc => by simp only [resolveLoop] at hc; cases hc; exact PrevExt.refl _
  | p :: ps, n :: ns, h, h', hc => by
    unfold resolveLoop at hc
    split at hc
    · cases hc
    · rename_i h1 e1
      exact (eventResolve_ext e1).trans (resolveLoop_ext d ps ns h1 h' hc)
  | [], n :: ns, h, h', hc => by simp [resolveLoop] at hc
  | p :: ps, [], h, h', hc => by simp [resolveLoop] at hc

theorem tableClone_links {f : CloneFlags} {s : Ctx} {k : Kind} {h : Heap} {d : Ctx} {h' : Heap} {d' : Ctx}
    (hc : tableClone f s k h d = .ok (h', d')) :
    TabOk h' (d'.tab k).ents ∧ PrevExt h h' ∧ ∀ k', k' ≠ k → d'.tab k' = d.tab k' := by
  unfold tableClone at hc
  split at hc
  · cases hc
  · rename_i h0
    have h0 : (d.tab k).ents = [] := Classical.byContradiction h0
    split at hc
    · cases hc
    · rename_i h1 d1 e1
      obtain ⟨r1, r2, r3⟩ := cloneLoop_links f s k _ h d h1 d1 e1 (by rw [h0]; exact ⟨by simp, trivial⟩)
      have same : (d1.setTab k { d1.tab k with nEnts := (s.tab k).nEnts }).tab k = { d1.tab k with nEnts := (s.tab k).nEnts } := by
        simp [Ctx.setTab]
      have oth : ∀ k', k' ≠ k → (d1.setTab k { d1.tab k with nEnts := (s.tab k).nEnts }).tab k' = d.tab k' := by
        intro k' hk'; rw [← r3 k' hk']; simp [Ctx.setTab, hk']
      simp only at hc
      split at hc
      · split at hc
        · cases hc
        · split at hc
          · cases hc
          · rename_i h2 e2
            cases hc
            have x := resolveLoop_ext _ _ _ _ _ e2
            exact ⟨by rw [same]; exact r1.ext x, r2.trans x, oth⟩
      · cases hc
        exact ⟨by rw [same]; exact r1, r2, oth⟩

theorem fixPrev_ext : ∀ (l : List Ptr) (h : Heap) (pr : Option Ptr) (b : Nat), (∀ q ∈ l, b ≤ q) → b ≤ h.next →
    (fixPrev h pr l).next = h.next ∧ ∀ q, q ∉ l → (fixPrev h pr l).mem q = h.mem q
  | [], h, pr, b, _, _ => ⟨rfl, fun _ _ => rfl⟩
  | x :: l, h, pr, b, hb, hn => by
    simp only [fixPrev]
    have hx : ∀ g : Heap, g = (match h.mem x with | some o => h.set x { o with prev := pr } | none => h) →
        g.next = h.next ∧ ∀ q, q ≠ x → g.mem q = h.mem q := by
      intro g hg; rw [hg]
      split
      · exact ⟨rfl, fun q hq => by simp [Heap.set, hq]⟩
      · exact ⟨rfl, fun _ _ => rfl⟩
    obtain ⟨a1, a2⟩ := hx _ rfl
    obtain ⟨k1, k2⟩ := fixPrev_ext l _ (some x) b (fun q hq => hb q (by simp [hq])) (by rw [a1]; exact hn)
    refine ⟨k1.trans a1, fun q hq => ?_⟩
    rw [List.mem_cons, not_or] at hq
    exact (k2 q hq.2).trans (a2 q hq.1)

theorem fixPrev_linked : ∀ (l : List Ptr) (h : Heap) (pr : Option Ptr), l.Nodup → (∀ q ∈ l, ∃ o, h.mem q = some o) →
    LinkedFrom (fixPrev h pr l) pr l
  | [], _, _, _, _ => trivial
  | x :: l, h, pr, hn, hm => by
    rw [List.nodup_cons] at hn
    simp only [fixPrev]
    obtain ⟨o, ho⟩ := hm x (by simp)
    rw [ho]
    simp only
    refine ⟨?_, fixPrev_linked l _ (some x) hn.2 (fun q hq => ?_)⟩
    · have := (fixPrev_ext l (h.set x { o with prev := pr }) (some x) 0 (fun _ _ => Nat.zero_le _) (Nat.zero_le _)).2 x hn.1
      rw [this]; simp [Heap.set]
    · by_cases hq' : q = x
      · subst hq'; exact absurd hq hn.1
      · obtain ⟨o', ho'⟩ := hm q (by simp [hq])
        exact ⟨o', by simp [Heap.set, hq', ho']⟩

theorem nameSplice_perm (h : Heap) (n : Ptr) (lb : Label) : ∀ (l l' : List Ptr), h.nameSplice n lb l = some l' → l'.Perm (n :: l)
  | [], l', hc => by simp only [Heap.nameSplice] at hc; cases hc; exact List.Perm.refl _
  | i :: l, l', hc => by
    unfold Heap.nameSplice at hc
    split at hc
    · cases hc
    · split at hc
      · cases hs : h.nameSplice n lb l with
        | none => rw [hs] at hc; cases hc
        | some r =>
          rw [hs] at hc; cases hc
          exact (List.Perm.cons i (nameSplice_perm h n lb l r hs)).trans (List.Perm.swap n i l)
      · cases hc
      · cases hc; exact List.Perm.refl _

/-- State of the family tables while they are cloned: the by-name table is linked; no by-number object
has a `prev`. -/
structure FamOk (b : Nat) (h : Heap) (nums names : List Ptr) : Prop where
  low : ∀ q ∈ names, b ≤ q
  lnk : TabOk h names
  nd : names.Nodup
  live : ∀ q ∈ names, ∃ o, h.mem q = some o
  num : ∀ q ∈ nums, q < h.next ∧ q ∉ names ∧ (h.mem q).map Obj.prev = some none

theorem afClone_ext {h : Heap} {p n1 n2 : Ptr} {h' : Heap} (hc : afClone h p = .ok (n1, n2, h')) :
    n1 = h.next ∧ n2 = h.next + 1 ∧ h'.next = h.next + 2 ∧ (∀ q, q < h.next → h'.mem q = h.mem q) ∧
      (h'.mem n1).map Obj.prev = some none ∧ ∃ o, h'.mem n2 = some o := by
  unfold afClone at hc
  split at hc
  · split at hc
    · split at hc
      · split at hc
        · cases hc
          refine ⟨rfl, rfl, rfl, fun q hq => ?_, ?_, ?_⟩
          · simp [Heap.alloc, Nat.ne_of_lt hq, show q ≠ h.next + 1 by omega]
          · simp [Heap.alloc]
          · exact ⟨_, if_pos rfl⟩
        · cases hc
      · cases hc
    · cases hc
  · cases hc

theorem coupledLoop_links (b : Nat) : ∀ (ps : List Ptr) (h : Heap) (d : Ctx) (h' : Heap) (d' : Ctx),
    coupledLoop ps h d = .ok (h', d') → b ≤ h.next → FamOk b h (d.tab .afNum).ents (d.tab .afName).ents →
    FamOk b h' (d'.tab .afNum).ents (d'.tab .afName).ents ∧ h.next ≤ h'.next ∧
      (∀ q, q < b → h'.mem q = h.mem q) ∧ ∀ k, k ≠ .afNum → k ≠ .afName → d'.tab k = d.tab k
  | [], h, d, h', d', hc, _, F => by
    simp only [coupledLoop] at hc; cases hc; exact ⟨F, Nat.le_refl _, fun _ _ => rfl, fun _ _ _ => rfl⟩
  | p :: ps, h, d, h', d', hc, hb, F => by
    unfold coupledLoop at hc
    split at hc
    · cases hc
    · rename_i n1 n2 h1 e1
      obtain ⟨a1, a2, a3, a4, a5, a6⟩ := afClone_ext e1
      simp only at hc
      split at hc
      · cases hc
      · rename_i d1 i1
        split at hc
        · cases hc
        · rename_i d2 i2
          split at hc
          · cases hc
          · rename_i lb hlb
            split at hc
            · cases hc
            · rename_i N hN
              have t2 : d2.tab = (d.setTab .afNum { d.tab .afNum with ents := (d.tab .afNum).ents ++ [n1] }).tab := by
                rw [insertById_tab i2, insertById_tab i1]
              have tn : (d2.tab .afName).ents = (d.tab .afName).ents := by rw [t2]; rfl
              have hp := nameSplice_perm _ _ _ _ _ hN
              rw [tn] at hp
              have hold : ∀ q ∈ (d.tab .afName).ents, q < h.next := F.lnk.1
              have hNlow : ∀ q ∈ N, b ≤ q := by
                intro q hq
                rcases List.mem_cons.1 (hp.mem_iff.1 hq) with rfl | hq
                · omega
                · exact F.low q hq
              have hNlt : ∀ q ∈ N, q < h1.next := by
                intro q hq
                rcases List.mem_cons.1 (hp.mem_iff.1 hq) with rfl | hq
                · omega
                · have := hold q hq; omega
              have hNlive : ∀ q ∈ N, ∃ o, h1.mem q = some o := by
                intro q hq
                rcases List.mem_cons.1 (hp.mem_iff.1 hq) with rfl | hq
                · exact a6
                · obtain ⟨o, ho⟩ := F.live q hq
                  exact ⟨o, by rw [a4 q (hold q hq)]; exact ho⟩
              have hNnd : N.Nodup := by
                rw [hp.nodup_iff, List.nodup_cons]
                refine ⟨fun hm => ?_, F.nd⟩
                have := hold _ hm; omega
              obtain ⟨x1, x2⟩ := fixPrev_ext N h1 none b hNlow (by omega)
              have tnum : ((d2.setTab .afName ⟨N, (d2.tab .afName).nEnts + 1, (d2.tab .afName).nInserts + 1, (d2.tab .afName).nDeletes⟩).tab .afNum).ents =
                  (d.tab .afNum).ents ++ [n1] := by
                show (d2.tab .afNum).ents = _
                rw [t2]; rfl
              obtain ⟨r1, r2, r3, r4⟩ := coupledLoop_links b ps _ _ h' d' hc (by rw [x1]; omega) (by
                rw [tnum]
                refine ⟨hNlow, ⟨fun q hq => by rw [x1]; exact hNlt q hq, fixPrev_linked N h1 none hNnd hNlive⟩, hNnd, ?_, ?_⟩
                · intro q hq
                  have hl := fixPrev_linked N h1 none hNnd hNlive
                  have : ∀ (l : List Ptr) (pr : Option Ptr), LinkedFrom (fixPrev h1 none N) pr l → ∀ q ∈ l, ∃ o, (fixPrev h1 none N).mem q = some o := by
                    intro l
                    induction l with
                    | nil => intro _ _ q hq; simp at hq
                    | cons x l ih =>
                      intro pr hk q hq
                      rcases List.mem_cons.1 hq with rfl | hq
                      · cases hm : (fixPrev h1 none N).mem q with
                        | none => rw [LinkedFrom, hm] at hk; cases hk.1
                        | some o => exact ⟨o, rfl⟩
                      · exact ih _ hk.2 q hq
                  exact this N none hl q hq
                · intro q hq
                  show q < (fixPrev h1 none N).next ∧ q ∉ N ∧ _
                  have hqN : q ∉ N ∧ q < h1.next ∧ (h1.mem q).map Obj.prev = some none := by
                    rcases List.mem_append.1 hq with hq | hq
                    · obtain ⟨y1, y2, y3⟩ := F.num q hq
                      refine ⟨fun hm => ?_, by omega, by rw [a4 q y1]; exact y3⟩
                      rcases List.mem_cons.1 (hp.mem_iff.1 hm) with rfl | hm
                      · omega
                      · exact y2 hm
                    · simp at hq; subst hq
                      refine ⟨fun hm => ?_, by omega, a5⟩
                      rcases List.mem_cons.1 (hp.mem_iff.1 hm) with hm | hm
                      · omega
                      · have := hold _ hm; omega
                  exact ⟨by rw [x1]; exact hqN.2.1, hqN.1, by rw [x2 q hqN.1]; exact hqN.2.2⟩)
              refine ⟨r1, by rw [x1] at r2; omega, fun q hq => ?_, fun k k1 k2 => ?_⟩
              · rw [r3 q hq, x2 q (fun hm => by have := hNlow q hm; omega), a4 q (by omega)]
              · rw [r4 k k1 k2]
                show (d2.setTab .afName _).tab k = _
                simp only [Ctx.setTab, if_neg k2, t2, if_neg k1]

theorem coupledClone_links {s : Ctx} {h : Heap} {d : Ctx} {h' : Heap} {d' : Ctx} (hc : coupledClone s h d = .ok (h', d')) :
    TabOk h' (d'.tab .afName).ents ∧
      (∀ q ∈ (d'.tab .afNum).ents, q < h'.next ∧ (h'.mem q).map Obj.prev = some none) ∧
      PrevExt h h' ∧ ∀ k, k ≠ .afNum → k ≠ .afName → d'.tab k = d.tab k := by
  unfold coupledClone at hc
  split at hc
  · cases hc
  · rename_i h0
    have h01 : (d.tab .afNum).ents = [] := Classical.byContradiction fun hh => h0 (Or.inl hh)
    have h02 : (d.tab .afName).ents = [] := Classical.byContradiction fun hh => h0 (Or.inr hh)
    split at hc
    · cases hc
    · rename_i h1 d1 e1
      obtain ⟨r1, r2, r3, r4⟩ := coupledLoop_links h.next _ h d h1 d1 e1 (Nat.le_refl _) (by
        rw [h01, h02]; exact ⟨by simp, ⟨by simp, trivial⟩, by simp, by simp, by simp⟩)
      simp only at hc
      split at hc
      · cases hc
      · cases hc
        refine ⟨r1.lnk, fun q hq => ?_, ⟨r2, fun q hq => by rw [r3 q hq]⟩, fun k k1 k2 => ?_⟩
        · have : q ∈ (d1.tab .afNum).ents := by simpa [Ctx.setTab] using hq
          exact ⟨(r1.num q this).1, (r1.num q this).2.2⟩
        · rw [← r4 k k1 k2]; simp [Ctx.setTab, k1]

theorem routeHeader_ext {f : CloneFlags} {s : Ctx} {h : Heap} {d : Ctx} {h' : Heap} {d' : Ctx}
    (hc : routeHeaderClone f s h d = .ok (h', d')) : PrevExt h h' ∧ d'.tab = d.tab := by
  unfold routeHeaderClone at hc
  simp only at hc
  split at hc
  · cases hc
  · rename_i h1 rt1 e1
    have x1 : PrevExt h h1 := by
      split at e1
      · cases e1; exact PrevExt.refl _
      · split at e1
        · cases e1
        · split at e1
          · cases e1
          · cases e1; exact PrevExt.upref _ _
    cases hft : s.rt.fallthrough with
    | none => simp only [hft] at hc; cases hc; exact ⟨x1, rfl⟩
    | some r => simp only [hft] at hc; cases hc; exact ⟨x1.trans (PrevExt.upref _ _), rfl⟩

/-- After any successful clone: every table but the by-number one is linked, and no by-number object has a
`prev`. -/
theorem contextClone_links {f : CloneFlags} {s : Ctx} {h : Heap} {h' : Heap} {d : Ctx} (hc : contextClone f s h = .ok (h', d)) :
    (∀ k, k ≠ .afNum → TabOk h' (d.tab k).ents) ∧
      ∀ q ∈ (d.tab .afNum).ents, (h'.mem q).map Obj.prev = some none := by
  unfold contextClone at hc
  simp only at hc
  split at hc
  · cases hc
  · rename_i h1 d1 e1
    obtain ⟨a1, a2, a3⟩ := tableClone_links e1
    split at hc
    · cases hc
    · rename_i h2 d2 e2
      obtain ⟨b1, b2, b3, b4⟩ := coupledClone_links e2
      have nil1 : ∀ k, k ≠ .actions → (d1.tab k).ents = [] := fun k hk => by rw [a3 k hk]
      have act2 : TabOk h2 (d2.tab .actions).ents := by
        rw [b4 _ (by decide) (by decide)]; exact a1.ext b3
      have nil2 : ∀ k, k ≠ .actions → k ≠ .afNum → k ≠ .afName → (d2.tab k).ents = [] := fun k h1 h2 h3 => by
        rw [b4 k h2 h3]; exact nil1 k h1
      have triv : ∀ (h : Heap) (l : List Ptr), l = [] → TabOk h l := fun h l hl => by rw [hl]; exact ⟨by simp, trivial⟩
      split at hc
      · cases hc
        refine ⟨fun k hk => ?_, fun q hq => (b2 q hq).2⟩
        cases k with
        | actions => exact act2
        | afNum => exact absurd rfl hk
        | afName => exact b1
        | events => exact triv _ _ (nil2 _ (by decide) (by decide) (by decide))
        | routes => exact triv _ _ (nil2 _ (by decide) (by decide) (by decide))
        | kvs => exact triv _ _ (nil2 _ (by decide) (by decide) (by decide))
      · split at hc
        · cases hc
        · rename_i h3 d3 e3
          obtain ⟨c1, c2, c3⟩ := tableClone_links e3
          split at hc
          · cases hc
          · rename_i h4 d4 e4
            obtain ⟨g1, g2⟩ := routeHeader_ext e4
            split at hc
            · cases hc
            · rename_i h5 d5 e5
              have x5 : TabOk h5 (d5.tab .routes).ents ∧ PrevExt h4 h5 ∧ ∀ k', k' ≠ .routes → d5.tab k' = d4.tab k' := by
                split at e5
                · cases e5
                  refine ⟨triv _ _ ?_, PrevExt.refl _, fun _ _ => rfl⟩
                  rw [g2, c3 _ (by decide)]; exact nil2 _ (by decide) (by decide) (by decide)
                · exact tableClone_links e5
              obtain ⟨y1, y2, y3⟩ := x5
              obtain ⟨z1, z2, z3⟩ := tableClone_links hc
              have z3' : ∀ k, k ≠ .kvs → d.tab k = d5.tab k := fun k hk => z3 k hk
              have ext3 : PrevExt h3 h' := g1.trans (y2.trans z2)
              have ext2 : PrevExt h2 h' := c2.trans ext3
              refine ⟨fun k hk => ?_, fun q hq => ?_⟩
              · cases k with
                | actions => rw [z3' _ (by decide), y3 _ (by decide), g2, c3 _ (by decide)]; exact act2.ext ext2
                | afNum => exact absurd rfl hk
                | afName => rw [z3' _ (by decide), y3 _ (by decide), g2, c3 _ (by decide)]; exact b1.ext ext2
                | events => rw [z3' _ (by decide), y3 _ (by decide), g2]; exact c1.ext ext3
                | routes => rw [z3' _ (by decide)]; exact y1.ext z2
                | kvs => exact z1
              · rw [z3' _ (by decide), y3 _ (by decide), g2, c3 _ (by decide)] at hq
                obtain ⟨w1, w2⟩ := b2 q hq
                rw [ext2.2 q w1]; exact w2

end WS.Cl
