import Verif.Proof.Clone2
/-
Lemmas for property C45: the second pass over events.
-/
namespace WS.Cl
open WS

variable {H : Heap} {S : Ctx} {ρ : Ptr → Ptr} {O : List Ptr}

/-- The labels of a list are strictly ascending. -/
def Asc (H : Heap) (E : List Ptr) : Prop :=
  E.Pairwise (fun p q => ∃ a b, H.label p = some a ∧ H.label q = some b ∧ labelCmp a b = .lt)

/-- Final content of the copy of `p`. -/
def fin (f : CloneFlags) (H : Heap) (ρ : Ptr → Ptr) (p : Ptr) : Pay :=
  match H.mem p with
  | some o => o.pay.rename f ρ
  | none => .action { label := [] }

/-- Content of the copy of `p` before the second pass over events. -/
def bare (f : CloneFlags) (H : Heap) (ρ : Ptr → Ptr) (p : Ptr) : Pay :=
  match fin f H ρ p with
  | .event e => eventCloneBare e
  | y => y

theorem rename_label (f : CloneFlags) (ρ : Ptr → Ptr) (y : Pay) : (y.rename f ρ).label? = y.label? := by
  cases y <;> rfl

theorem fin_label {f : CloneFlags} {p : Ptr} {o : Obj} (h : H.mem p = some o) : (fin f H ρ p).label? = H.label p := by
  rw [Heap.label_of h]; unfold fin; rw [h]; exact rename_label f ρ o.pay

theorem bare_label {f : CloneFlags} {p : Ptr} {o : Obj} (h : H.mem p = some o) : (bare f H ρ p).label? = H.label p := by
  rw [← fin_label (f := f) (ρ := ρ) h]; unfold bare
  generalize fin f H ρ p = y
  cases y <;> rfl

theorem cloneList_spec (hO : Ord H O ρ) {g : Ptr → Pay} {d : Ctx} {D A : List Ptr} (hDO : ∀ q ∈ D, q ∈ O)
    (hA : ∀ a ∈ A, a ∈ D) (hd : (d.tab .actions).ents = A.map ρ) (hs : Asc H A)
    (hl : ∀ q ∈ A, (g q).label? = H.label q ∧ ∃ l, H.label q = some l) :
    ∀ (L acc : List Ptr) (h : Heap) (R : List Ptr), (∀ a ∈ L, a ∈ A) → Inv H ρ g h D R →
    ∃ h', cloneList d L acc h = .ok (acc ++ L.map ρ, h') ∧ Inv H ρ g h' D (R ++ L.map ρ)
  | [], acc, h, R, _, I => ⟨h, by simp [cloneList], by simpa using I⟩
  | a :: L, acc, h, R, hL, I => by
    have haA : a ∈ A := hL a (by simp)
    obtain ⟨hla, l, hal⟩ := hl a haA
    have hold : h.label a = some l := by
      rw [I.oldLabel (hO.live a (hDO a (hA a haA))).1, hal]
    have hf : h.find l (A.map ρ) = .ok (ρ a) := find_map h a l hal A haA hs (fun q hq => by
      rw [I.label (hA q hq), (hl q hq).1])
    obtain ⟨h', k1, k2⟩ := cloneList_spec hO hDO hA hd hs hl L (acc ++ [ρ a]) (h.upref (ρ a)) (R ++ [ρ a])
      (fun x hx => hL x (by simp [hx])) (I.upref hO hDO (hA a haA))
    refine ⟨h', ?_, by simpa using k2⟩
    unfold cloneList
    rw [hold, hd]
    simp only [hf, k1]
    simp

theorem resolveAux_spec (hO : Ord H O ρ) {g : Ptr → Pay} {d : Ctx} {D E : List Ptr} (hDO : ∀ q ∈ D, q ∈ O)
    (hE : ∀ a ∈ E, a ∈ D) (hd : (d.tab .events).ents = E.map ρ) (hs : Asc H E)
    (hl : ∀ q ∈ E, (g q).label? = H.label q ∧ ∃ l, H.label q = some l) (aux : Option Ptr) (ha : ∀ x ∈ aux, x ∈ E)
    (h : Heap) (R : List Ptr) (I : Inv H ρ g h D R) :
    ∃ h', resolveAux d aux h = .ok (aux.map ρ, h') ∧ Inv H ρ g h' D (R ++ (aux.map ρ).toList) := by
  cases aux with
  | none => exact ⟨h, rfl, by simpa using I⟩
  | some x =>
    have hx : x ∈ E := ha x rfl
    obtain ⟨hla, l, hal⟩ := hl x hx
    have hold : h.label x = some l := by rw [I.oldLabel (hO.live x (hDO x (hE x hx))).1, hal]
    have hf : h.find l (E.map ρ) = .ok (ρ x) := find_map h x l hal E hx hs (fun q hq => by
      rw [I.label (hE q hq), (hl q hq).1])
    refine ⟨h.upref (ρ x), ?_, by simpa using I.upref hO hDO (hE x hx)⟩
    simp only [resolveAux, hold, hd, hf, Option.map_some]

theorem routeEvent_spec (hO : Ord H O ρ) {g : Ptr → Pay} {d : Ctx} {D E : List Ptr} (hDO : ∀ q ∈ D, q ∈ O)
    (hE : ∀ a ∈ E, a ∈ D) (hd : (d.tab .events).ents = E.map ρ) (hs : Asc H E)
    (hl : ∀ q ∈ E, (g q).label? = H.label q ∧ ∃ l, H.label q = some l) (r : RouteO) (ha : ∀ x ∈ r.event, x ∈ E)
    (h : Heap) (R : List Ptr) (I : Inv H ρ g h D R) :
    ∃ h', routeEvent h d r = .ok (r.event.map ρ, h') ∧ Inv H ρ g h' D (R ++ (r.event.map ρ).toList) := by
  obtain ⟨h', k1, k2⟩ := resolveAux_spec hO hDO hE hd hs hl r.event ha h R I
  refine ⟨h', ?_, k2⟩
  rw [← k1]; unfold routeEvent resolveAux; rfl

/-- The second pass over one event. -/
theorem eventResolve_spec (f : CloneFlags) (hO : Ord H O ρ) {g : Ptr → Pay} {d : Ctx} {D A E : List Ptr} (hDO : ∀ q ∈ D, q ∈ O)
    (hA : ∀ a ∈ A, a ∈ D) (hE : ∀ a ∈ E, a ∈ D) (hdA : (d.tab .actions).ents = A.map ρ)
    (hdE : (d.tab .events).ents = E.map ρ) (hsA : Asc H A) (hsE : Asc H E)
    (hlA : ∀ q ∈ A, (g q).label? = H.label q ∧ ∃ l, H.label q = some l)
    (hlE : ∀ q ∈ E, (g q).label? = H.label q ∧ ∃ l, H.label q = some l)
    {p : Ptr} (hp : p ∈ E) {o : Obj} {e : EventO} (ho : H.mem p = some o) (he : o.pay = .event e)
    (hL : e.lists.all (fun l => ∀ a ∈ l, a ∈ A)) (hx : ∀ x ∈ e.aux, x ∈ E) (hg : g p = bare f H ρ p)
    (h : Heap) (R : List Ptr) (I : Inv H ρ g h D R) :
    ∃ h', eventResolve d p (ρ p) h = .ok h' ∧
      Inv H ρ (fun q => if q = p then fin f H ρ p else g q) h' D (R ++ (fin f H ρ p).refs) := by
  obtain ⟨i, hh, pv, y⟩ := o
  simp only at he; subst he
  obtain ⟨L1, L2, L3, L4, L5, L6⟩ := hL
  have hpO := hDO p (hE p hp)
  obtain ⟨h1, a1, I1⟩ := cloneList_spec hO hDO hA hdA hsA hlA _ [] h R L1 I
  obtain ⟨h2, a2, I2⟩ := cloneList_spec hO hDO hA hdA hsA hlA _ [] h1 _ L2 I1
  obtain ⟨h3, a3, I3⟩ := cloneList_spec hO hDO hA hdA hsA hlA _ [] h2 _ L3 I2
  obtain ⟨h4, a4, I4⟩ := cloneList_spec hO hDO hA hdA hsA hlA _ [] h3 _ L4 I3
  obtain ⟨h5, a5, I5⟩ := cloneList_spec hO hDO hA hdA hsA hlA _ [] h4 _ L5 I4
  obtain ⟨h6, a6, I6⟩ := cloneList_spec hO hDO hA hdA hsA hlA _ [] h5 _ L6 I5
  obtain ⟨h7, a7, I7⟩ := resolveAux_spec hO hDO hE hdE hsE hlE e.aux hx h6 _ I6
  obtain ⟨o', pr, ho', hm⟩ := I7.copied p (hE p hp)
  rw [ho] at ho'; cases ho'
  have hfin : fin f H ρ p = .event { e with lists := e.lists.map (List.map ρ), aux := e.aux.map ρ } := by
    unfold fin; rw [ho]; rfl
  have hbare : bare f H ρ p = .event { e with lists := ⟨[], [], [], [], [], []⟩, aux := none } := by
    unfold bare; rw [hfin]; rfl
  have I8 := I7.set (g' := fun q => if q = p then fin f H ρ p else g q) hO hDO (hE p hp) ho pr
    (fun q _ hq => if_neg hq)
  have hold : h.mem p = some ⟨i, hh, pv, .event e⟩ := by rw [I.old p (hO.live p hpO).1, ho]
  refine ⟨h7.set (ρ p) ⟨i, hh, pr, fin f H ρ p⟩, ?_, ?_⟩
  · unfold eventResolve
    rw [hold]
    simp only [a1, a2, a3, a4, a5, a6, a7, hm, hg, hbare, List.nil_append]
    rw [hfin]; rfl
  · have hr : (fin f H ρ p).refs = e.lists.post.map ρ ++ e.lists.insert.map ρ ++ e.lists.match_.map ρ ++
        e.lists.update.map ρ ++ e.lists.delete.map ρ ++ e.lists.decision.map ρ ++ (e.aux.map ρ).toList := by
      rw [hfin]; rfl
    rw [hr]
    simp only [if_true, List.append_assoc] at I8 ⊢
    exact I8

theorem resolveLoop_spec (f : CloneFlags) (hO : Ord H O ρ) {d : Ctx} {D A E : List Ptr} (hDO : ∀ q ∈ D, q ∈ O)
    (hA : ∀ a ∈ A, a ∈ D) (hE : ∀ a ∈ E, a ∈ D) (hdA : (d.tab .actions).ents = A.map ρ)
    (hdE : (d.tab .events).ents = E.map ρ) (hsA : Asc H A) (hsE : Asc H E)
    (hev : ∀ p ∈ E, ∃ o e, H.mem p = some o ∧ o.pay = .event e ∧ e.lists.all (fun l => ∀ a ∈ l, a ∈ A) ∧
      ∀ x ∈ e.aux, x ∈ E) :
    ∀ (ps : List Ptr) (g : Ptr → Pay) (h : Heap) (R : List Ptr), ps.Nodup → (∀ p ∈ ps, p ∈ E) →
    (∀ p ∈ ps, g p = bare f H ρ p) →
    (∀ q ∈ A, (g q).label? = H.label q ∧ ∃ l, H.label q = some l) →
    (∀ q ∈ E, (g q).label? = H.label q ∧ ∃ l, H.label q = some l) → Inv H ρ g h D R →
    ∃ h', resolveLoop d ps (ps.map ρ) h = .ok h' ∧
      Inv H ρ (fun q => if q ∈ ps then fin f H ρ q else g q) h' D (R ++ ps.flatMap (fun p => (fin f H ρ p).refs))
  | [], g, h, R, _, _, _, _, _, I => ⟨h, rfl, by simpa using I⟩
  | p :: ps, g, h, R, hn, hps, hg, hlA, hlE, I => by
    rw [List.nodup_cons] at hn
    have hpE := hps p (by simp)
    obtain ⟨o, e, ho, he, hL, hx⟩ := hev p hpE
    obtain ⟨h1, k1, I1⟩ := eventResolve_spec f hO hDO hA hE hdA hdE hsA hsE hlA hlE hpE ho he hL hx
      (hg p (by simp)) h R I
    have hlab : ∀ q, ((g q).label? = H.label q ∧ ∃ l, H.label q = some l) →
        (((if q = p then fin f H ρ p else g q).label? = H.label q) ∧ ∃ l, H.label q = some l) := by
      intro q hq
      refine ⟨?_, hq.2⟩
      split
      · rename_i hqp; subst hqp; exact fin_label ho
      · exact hq.1
    obtain ⟨h2, k2, I2⟩ := resolveLoop_spec f hO hDO hA hE hdA hdE hsA hsE hev ps
      (fun q => if q = p then fin f H ρ p else g q) h1 _ hn.2 (fun q hq => hps q (by simp [hq]))
      (fun q hq => by
        have : q ≠ p := fun h => hn.1 (h ▸ hq)
        simp only [if_neg this]; exact hg q (by simp [hq]))
      (fun q hq => hlab q (hlA q hq)) (fun q hq => hlab q (hlE q hq)) I1
    refine ⟨h2, ?_, ?_⟩
    · simp only [List.map_cons, resolveLoop, k1, k2]
    · have := I2.congr (g' := fun q => if q ∈ p :: ps then fin f H ρ q else g q) (fun q _ => by
        by_cases h1 : q ∈ ps
        · simp [h1]
        · by_cases h2 : q = p
          · subst h2; simp [h1]
          · simp [h1, h2])
      simpa using this

end WS.Cl
