import Verif.Proof.Clone6
/-
Lemmas for property C45: the whole clone.
-/
namespace WS.Cl
open WS

variable {H : Heap} {S : Ctx}

theorem WF.action (w : WF H S) {p : Ptr} (hp : p ∈ (S.tab .actions).ents) : ∃ o a, H.mem p = some o ∧ o.pay = .action a := by
  obtain ⟨_, o, ho, hk, _⟩ := w.valid _ p hp
  obtain ⟨i, hh, pv, y⟩ := o
  cases y with
  | action a => exact ⟨_, a, ho, rfl⟩
  | _ => cases hk

theorem WF.event (w : WF H S) {p : Ptr} (hp : p ∈ (S.tab .events).ents) : ∃ o a, H.mem p = some o ∧ o.pay = .event a := by
  obtain ⟨_, o, ho, hk, _⟩ := w.valid _ p hp
  obtain ⟨i, hh, pv, y⟩ := o
  cases y with
  | event a => exact ⟨_, a, ho, rfl⟩
  | _ => cases hk

theorem WF.route (w : WF H S) {p : Ptr} (hp : p ∈ (S.tab .routes).ents) : ∃ o a, H.mem p = some o ∧ o.pay = .route a := by
  obtain ⟨_, o, ho, hk, _⟩ := w.valid _ p hp
  obtain ⟨i, hh, pv, y⟩ := o
  cases y with
  | route a => exact ⟨_, a, ho, rfl⟩
  | _ => cases hk

theorem WF.kv (w : WF H S) {p : Ptr} (hp : p ∈ (S.tab .kvs).ents) : ∃ o k v, H.mem p = some o ∧ o.pay = .kv k v := by
  obtain ⟨_, o, ho, hk, _⟩ := w.valid _ p hp
  obtain ⟨i, hh, pv, y⟩ := o
  cases y with
  | kv k v => exact ⟨_, k, v, ho, rfl⟩
  | _ => cases hk

theorem fin_of {f : CloneFlags} {ρ : Ptr → Ptr} {p : Ptr} {o : Obj} (h : H.mem p = some o) : fin f H ρ p = o.pay.rename f ρ := by
  unfold fin; rw [h]

/-- An object that is not an event has its final content at once. -/
theorem bare_eq_fin (w : WF H S) (f : CloneFlags) (ρ : Ptr → Ptr) {k : Kind} (hk : k ≠ .events) {p : Ptr} (hp : p ∈ (S.tab k).ents) :
    bare f H ρ p = fin f H ρ p ∧ ∀ e, fin f H ρ p ≠ .event e := by
  obtain ⟨_, o, ho, hkk, _⟩ := w.valid _ p hp
  unfold bare
  rw [fin_of ho]
  cases hy : o.pay <;> simp_all [Pay.rename, Pay.kind]

theorem kind_refs (w : WF H S) (f : CloneFlags) (ρ : Ptr → Ptr) {k : Kind} (hk : k ≠ .events) (hk' : k ≠ .routes) {p : Ptr}
    (hp : p ∈ (S.tab k).ents) : (fin f H ρ p).refs = [] := by
  obtain ⟨_, o, ho, hkk, _⟩ := w.valid _ p hp
  rw [fin_of ho]
  cases hy : o.pay <;> simp_all [Pay.rename, Pay.kind, Pay.refs]

/-- Actions and address families. -/
theorem clone_first (f : CloneFlags) (w : WF H S) (d0 : Ctx) (h0 : ∀ k, d0.tab k = {}) (hb0 : d0.byId = [] ∧ d0.nById = 0) :
    ∃ h1 d1 h2 d2, tableClone f S .actions H d0 = .ok (h1, d1) ∧ coupledClone S h1 d1 = .ok (h2, d2) ∧
      Inv H (newPtr f H S) (bare f H (newPtr f H S)) h2 ((S.tab .actions).ents ++ (S.tab .afNum).ents.flatMap (fun p => [p, nm H p])) [] ∧
      ByIdL H (newPtr f H S) d2.byId d2.nById ((S.tab .actions).ents ++ (S.tab .afNum).ents.flatMap (fun p => [p, nm H p])) ∧
      (∀ k, k = .actions ∨ k = .afNum ∨ k = .afName →
        (d2.tab k).ents = (S.tab k).ents.map (newPtr f H S) ∧ (d2.tab k).nEnts = (S.tab k).nEnts) ∧
      (∀ k, k ≠ .actions → k ≠ .afNum → k ≠ .afName → d2.tab k = {}) ∧ SameRest d0 d2 := by
  have hO := order_ord f w
  have e0 : order f H S = [] ++ (S.tab .actions).ents ++ ((S.tab .afNum).ents.flatMap (fun p => [p, nm H p]) ++
      (if f.asAtCreation then [] else
        (S.tab .events).ents ++ (if f.noRoutes then [] else (S.tab .routes).ents) ++ (S.tab .kvs).ents)) := by
    unfold order; simp
  obtain ⟨h1, d1, k1, k2, k3, k4, k5, k6, k7⟩ := tableClone_plain f S .actions (Or.inl rfl) hO (bare f H (newPtr f H S))
    (h := H) (d := d0) e0 (fun p hp h d D R I => by
      obtain ⟨o, a, ho, ha⟩ := w.action hp
      have hb := (bare_eq_fin w f (newPtr f H S) (by decide) hp).1
      refine ⟨o, ho, ?_, by rw [hb]; exact kind_refs w f _ (by decide) (by decide) hp⟩
      have hlt := (w.valid _ p hp).1
      unfold cloneOne
      rw [I.old p hlt, ho]
      simp only [ha]
      rw [hb, fin_of ho, ha]
      unfold actionClone Pay.rename
      split <;> simp_all)
    (Inv.start _) ⟨[], List.Pairwise.nil, List.Perm.refl _, by rw [hb0.1]; rfl, hb0.2⟩ [] (by simp) (by rw [h0]; rfl) (by rw [h0])
  rw [List.nil_append] at k2 k3
  have hp : ∀ p ∈ (S.tab .afNum).ents, ∃ o a o' b, H.mem p = some o ∧ o.pay = .afNum a ∧ H.mem a.name = some o' ∧
      o'.pay = .afName b ∧ b.number = p := by
    intro p hp
    obtain ⟨o, a, o', b, h1, h2, _, _, h5, h6, h7⟩ := w.nm_eq hp
    exact ⟨o, a, o', b, h1, h2, h5, h6, h7⟩
  have hlab : ∀ p ∈ (S.tab .afNum).ents, ∀ q ∈ (S.tab .afNum).ents, H.label (nm H p) = H.label (nm H q) → p = q := by
    intro p hp q hq h
    refine w.nm_inj hp hq (asc_label_inj (w.sorted .afName (by simp)) ?_ ?_ h)
    · exact w.names_perm.mem_iff.1 (List.mem_map_of_mem hp)
    · exact w.names_perm.mem_iff.1 (List.mem_map_of_mem hq)
  have t1 : d1.tab .afNum = {} := by rw [k6 _ (by decide), h0]
  have t2 : d1.tab .afName = {} := by rw [k6 _ (by decide), h0]
  obtain ⟨h2, d2, N, c1, c2, c3, c4, c5, c6, c7, c8, c9, c10⟩ := coupledLoop_spec f hO (S.tab .afNum).ents hp hlab
    (S.tab .afNum).ents h1 d1 (S.tab .actions).ents [] (if f.asAtCreation then [] else
        (S.tab .events).ents ++ (if f.noRoutes then [] else (S.tab .routes).ents) ++ (S.tab .kvs).ents) [] []
    (fun _ h => h) (by simp) (by simpa using w.nodup .afNum) rfl k2 k3 (by simp) (by rw [t2]; rfl) List.Pairwise.nil
    (by simp) (by rw [t2]; rfl)
  simp only [List.nil_append] at c7 c8
  have hN : N = (S.tab .afName).ents := asc_unique c6 (w.sorted .afName (by simp)) (c7.trans w.names_perm)
  have hlen : (S.tab .afName).nEnts = (S.tab .afNum).ents.length := by
    rw [w.counts, ← w.names_perm.length_eq, List.length_map]
  refine ⟨h1, d1, h2, d2.setTab .afNum { d2.tab .afNum with nEnts := (S.tab .afNum).nEnts }, k1, ?_, c2, c3, ?_, ?_, ?_⟩
  · unfold coupledClone
    rw [if_neg (by rw [t1, t2]; simp), c1]
    simp only
    rw [setTab_other _ (by decide), c8, if_neg (by rw [hlen]; simp)]
  · intro k hk
    rcases hk with rfl | rfl | rfl
    · rw [setTab_other _ (by decide), c9 _ (by decide) (by decide)]; exact ⟨k4, k5⟩
    · rw [setTab_same]
      exact ⟨by show (d2.tab .afNum).ents = _; rw [c4, t1]; rfl, rfl⟩
    · rw [setTab_other _ (by decide)]
      exact ⟨by rw [c5, hN], by rw [c8, hlen]⟩
  · intro k a1 a2 a3
    rw [setTab_other _ a2, c9 k a2 a3, k6 k a1, h0]
  · exact k7.trans (c10.trans ⟨rfl, rfl, rfl, rfl, rfl, rfl⟩)

/-- The heap with one more reference on the fallthrough rule. -/
def bumped (H : Heap) (S : Ctx) : Heap :=
  match S.rt.fallthrough with
  | none => H
  | some x => H.upref x

theorem bumped_mem (H : Heap) (S : Ctx) : (bumped H S).mem = H.mem ∧ (bumped H S).next = H.next := by
  unfold bumped; split <;> exact ⟨rfl, rfl⟩

theorem bumped_idOf (H : Heap) (S : Ctx) : (bumped H S).idOf = H.idOf := by
  funext p; unfold Heap.idOf; rw [(bumped_mem H S).1]

theorem bumped_label (H : Heap) (S : Ctx) : (bumped H S).label = H.label := by
  funext p; unfold Heap.label; rw [(bumped_mem H S).1]

theorem Ord.bump {O : List Ptr} {ρ : Ptr → Ptr} (hO : Ord H O ρ) : Ord (bumped H S) O ρ := by
  obtain ⟨e1, e2⟩ := bumped_mem H S
  refine ⟨hO.nodup, fun p hp => by rw [e2]; exact hO.ren p hp, fun p hp => by rw [e1, e2]; exact hO.live p hp, ?_⟩
  rw [bumped_idOf]; exact hO.ids

theorem Inv.bump {g : Ptr → Pay} {ρ : Ptr → Ptr} {h : Heap} {D R : List Ptr} (I : Inv H ρ g h D R)
    (hf : ∀ p ∈ D, H.next ≤ ρ p) (ho : ∀ x ∈ S.rt.fallthrough, x < H.next) :
    Inv (bumped H S) ρ g (bumped h S) D R := by
  obtain ⟨e1, e2⟩ := bumped_mem H S
  obtain ⟨e3, e4⟩ := bumped_mem h S
  refine ⟨by rw [e2, e4]; exact I.next, ?_, ?_, ?_, ?_, ?_, ?_⟩
  · intro q hq; rw [e1, e3]; rw [e2] at hq; exact I.old q hq
  · intro q hq
    rw [e2] at hq
    have := I.oldRefs q hq
    unfold bumped
    split
    · exact this
    · simp only [Heap.upref, this]
  · intro p hp; rw [e1, e3]; exact I.copied p hp
  · intro p hp
    have h1 := I.refs p hp
    unfold bumped
    split
    · exact h1
    · rename_i x hx
      have hne : ρ p ≠ x := by
        have := hf p hp
        have := ho x hx
        omega
      simp only [Heap.upref, if_neg hne]; exact h1
  · rw [e4]; exact I.bound
  · rw [e4]; exact I.below

theorem ByIdL.bump {ρ : Ptr → Ptr} {b : List Ptr} {n : Nat} {D : List Ptr} (h : ByIdL H ρ b n D) : ByIdL (bumped H S) ρ b n D := by
  unfold ByIdL; rw [bumped_idOf]; exact h

theorem ByIdL.unbump {ρ : Ptr → Ptr} {b : List Ptr} {n : Nat} {D : List Ptr} (h : ByIdL (bumped H S) ρ b n D) : ByIdL H ρ b n D := by
  unfold ByIdL at *; rw [bumped_idOf] at h; exact h

/-- The header of the rule table. -/
theorem routeHeader_spec (f : CloneFlags) (w : WF H S) {O : List Ptr} {ρ : Ptr → Ptr} (hO : Ord H O ρ) {h : Heap} {d : Ctx}
    {D R : List Ptr} (hDO : ∀ q ∈ D, q ∈ O) (hE : ∀ x ∈ (S.tab .events).ents, x ∈ D)
    (hd : (d.tab .events).ents = (S.tab .events).ents.map ρ) (I : Inv H ρ (fin f H ρ) h D R) :
    ∃ h', routeHeaderClone f S h d = .ok (h', { d with rt :=
        { d.rt with maxPurgeable := S.rt.maxPurgeable, defaultPolicy := S.rt.defaultPolicy,
                    defaultEvent := (S.rt.defaultEvent.map ρ).or d.rt.defaultEvent,
                    fallthrough := S.rt.fallthrough.or d.rt.fallthrough,
                    highest := if f.noRoutes then d.rt.highest else S.rt.highest } }) ∧
      Inv (bumped H S) ρ (fin f H ρ) h' D (R ++ (S.rt.defaultEvent.map ρ).toList) := by
  have hfr : ∀ p ∈ D, H.next ≤ ρ p := fun p hp => (hO.fresh (hDO p hp)).1
  cases hde : S.rt.defaultEvent with
  | none =>
    refine ⟨bumped h S, ?_, by simpa using I.bump hfr w.fallthroughOld⟩
    unfold routeHeaderClone bumped
    simp only [hde]
    cases hf : S.rt.fallthrough <;> cases hn : f.noRoutes <;> simp
  | some x =>
    have hx : x ∈ (S.tab .events).ents := w.defaultRef x (by rw [hde]; rfl)
    obtain ⟨o, e, ho, he⟩ := w.event hx
    have hl : H.label x = some e.label := by rw [Heap.label_of ho, he]; rfl
    have hold : h.label x = some e.label := by rw [I.oldLabel (w.valid _ x hx).1, hl]
    have hfind : h.find e.label ((S.tab .events).ents.map ρ) = .ok (ρ x) :=
      find_map h x e.label hl _ hx (w.sorted .events (by simp)) (fun q hq => by
        obtain ⟨o, e, ho, he⟩ := w.event hq
        rw [I.label (hE q hq), fin_label ho])
    have I1 := I.upref hO hDO (hE x hx)
    refine ⟨bumped (h.upref (ρ x)) S, ?_, by simpa using I1.bump hfr w.fallthroughOld⟩
    unfold routeHeaderClone bumped
    simp only [hde, hold, hd, hfind]
    cases hf : S.rt.fallthrough <;> cases hn : f.noRoutes <;> simp

/-- One rule. -/
theorem route_copies (f : CloneFlags) (w : WF H S) {O : List Ptr} {ρ : Ptr → Ptr} (hO : Ord H O ρ)
    {p : Ptr} (hp : p ∈ (S.tab .routes).ents) :
    Copies f S (bumped H S) ρ (fin f H ρ) O (S.tab .events).ents p := by
  intro h d D R hD I hE hd
  obtain ⟨e1, e2⟩ := bumped_mem H S
  obtain ⟨o, r, ho, hr⟩ := w.route hp
  obtain ⟨h1, k1, k2⟩ := routeEvent_spec (hO.bump (S := S)) hD hE hd
    (show Asc (bumped H S) (S.tab .events).ents by unfold Asc; rw [bumped_label]; exact w.sorted .events (by simp))
    (fun q hq => by
      obtain ⟨o, e, ho, he⟩ := w.event hq
      rw [bumped_label]
      exact ⟨fin_label ho, e.label, by rw [Heap.label_of ho, he]; rfl⟩) r (w.eventRefs p hp o r ho hr) h R I
  have hfin : fin f H ρ p = .route { r with event := r.event.map ρ } := by rw [fin_of ho, hr]; rfl
  refine ⟨h1, o, by rw [e1]; exact ho, ?_, by rw [hfin]; exact k2⟩
  have hlt : p < (bumped H S).next := by rw [e2]; exact (w.valid _ p hp).1
  unfold cloneOne
  rw [I.old p hlt, e1, ho]
  simp only [hr, k1]
  have hcfg : r.off = (ruleConfig h1 S r).config.privSize := by
    rw [w.private_ p hp o r ho hr]
    unfold ruleConfig
    cases hev : r.event with
    | none => rfl
    | some x =>
      have hx : x ∈ (S.tab .events).ents := w.eventRefs p hp o r ho hr x (by rw [hev]; rfl)
      have hxlt : x < (bumped H S).next := by rw [e2]; exact (w.valid _ x hx).1
      simp only [Option.bind_some]
      rw [k2.old x hxlt, e1]
      obtain ⟨o', e, ho', he⟩ := w.event hx
      rw [ho']
      obtain ⟨i, hh, pv, y⟩ := o'
      simp only at he; subst he; rfl
  rw [hfin]
  simp only [routeCopy, if_pos hcfg]

end WS.Cl
