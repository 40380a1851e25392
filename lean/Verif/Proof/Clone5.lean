import Verif.Proof.Clone4
/-
Lemmas for property C45: whole tables.
-/
namespace WS.Cl
open WS

variable {H : Heap} {S : Ctx} {ρ : Ptr → Ptr} {O : List Ptr}

theorem ents_nil_ne {l : List Ptr} (h : l = []) : ¬ (l ≠ []) := fun hc => hc h

/-- A context after the loop of one table and the store of its count. -/
def grown (d : Ctx) (k : Kind) (L : List Ptr) (b : List Ptr) (n : Nat) (rt : RtHdr) (m : Nat) : Ctx :=
  ({ d.setTab k { d.tab k with ents := (d.tab k).ents ++ L } with byId := b, nById := n, rt := rt } : Ctx).setTab k
    { (({ d.setTab k { d.tab k with ents := (d.tab k).ents ++ L } with byId := b, nById := n, rt := rt } : Ctx).tab k) with
      nEnts := m }

/-- A table other than events and routes. -/
theorem tableClone_plain (f : CloneFlags) (S : Ctx) (k : Kind) (hk : k = .actions ∨ k = .kvs) (hO : Ord H O ρ) (g : Ptr → Pay)
    {h : Heap} {d : Ctx} {D R rest : List Ptr} (e : O = D ++ (S.tab k).ents ++ rest)
    (hc : ∀ p ∈ (S.tab k).ents, ∀ (h : Heap) (d : Ctx) (D R : List Ptr), Inv H ρ g h D R →
      ∃ o, H.mem p = some o ∧ cloneOne f S h d p = .ok (h.alloc ⟨o.id, o.hits, none, g p⟩) ∧ (g p).refs = [])
    (I : Inv H ρ g h D R) (hb : ByIdL H ρ d.byId d.nById D) (E : List Ptr) (hE : ∀ x ∈ E, x ∈ D)
    (hd : (d.tab .events).ents = E.map ρ) (h0 : (d.tab k).ents = []) :
    ∃ h' d', tableClone f S k h d = .ok (h', d') ∧ Inv H ρ g h' (D ++ (S.tab k).ents) R ∧
      ByIdL H ρ d'.byId d'.nById (D ++ (S.tab k).ents) ∧ (d'.tab k).ents = (S.tab k).ents.map ρ ∧
      (d'.tab k).nEnts = (S.tab k).nEnts ∧ (∀ k', k' ≠ k → d'.tab k' = d.tab k') ∧ SameRest d d' := by
  have hke : k ≠ .events := by rcases hk with rfl | rfl <;> decide
  have hkr : k ≠ .routes := by rcases hk with rfl | rfl <;> decide
  have hnil : (S.tab k).ents.flatMap (fun p => (g p).refs) = [] := by
    rw [List.flatMap_eq_nil_iff]
    intro p hp
    obtain ⟨o, _, _, h3⟩ := hc p hp h d D R I
    exact h3
  obtain ⟨h', b, n, rt, k1, k2, k3, k4, _⟩ := cloneLoop_spec f S k hO g E d.rt (fun h => absurd h hke) (S.tab k).ents h d D R rest []
    e (fun p hp => by
      rw [if_neg hke]
      intro h d D R _ I _ _
      obtain ⟨o, h1, h2, h3⟩ := hc p hp h d D R I
      exact ⟨h, o, h1, h2, by rw [h3]; simpa using I⟩) I hb hE (fun _ => hd) (fun h => absurd h hkr)
  rw [hnil, List.append_nil] at k2
  refine ⟨h', grown d k ((S.tab k).ents.map ρ) b n rt (S.tab k).nEnts, ?_, k2, ?_, ?_, ?_, ?_, ?_⟩
  · unfold tableClone
    rw [if_neg (ents_nil_ne h0), k1]
    simp only [if_neg hke, grown]
  · exact k3
  · rw [grown, setTab_same]
    show ((d.setTab k _).tab k).ents = _
    rw [setTab_same, h0]; rfl
  · rw [grown, setTab_same]
  · intro k' hk'
    rw [grown, setTab_other _ hk']
    show (d.setTab k _).tab k' = _
    rw [setTab_other _ hk']
  · refine ⟨?_, rfl, rfl, rfl, rfl, rfl⟩
    show rt = d.rt
    exact k4 hkr

/-- The rule table. -/
theorem tableClone_routes (f : CloneFlags) (S : Ctx) (hO : Ord H O ρ) (g : Ptr → Pay) (rt0 : RtHdr)
    {h : Heap} {d : Ctx} {D R rest : List Ptr} (e : O = D ++ (S.tab .routes).ents ++ rest) (E : List Ptr)
    (hc : ∀ p ∈ (S.tab .routes).ents, Copies f S H ρ g O E p) (hr : ∀ p ∈ (S.tab .routes).ents, ∃ r, g p = .route r)
    (I : Inv H ρ g h D R) (hb : ByIdL H ρ d.byId d.nById D) (hE : ∀ x ∈ E, x ∈ D)
    (hd : (d.tab .events).ents = E.map ρ) (h0 : (d.tab .routes).ents = []) (hrt : RtI ρ g rt0 d.rt []) :
    ∃ h' d', tableClone f S .routes h d = .ok (h', d') ∧
      Inv H ρ g h' (D ++ (S.tab .routes).ents) (R ++ (S.tab .routes).ents.flatMap (fun p => (g p).refs)) ∧
      ByIdL H ρ d'.byId d'.nById (D ++ (S.tab .routes).ents) ∧ (d'.tab .routes).ents = (S.tab .routes).ents.map ρ ∧
      (d'.tab .routes).nEnts = (S.tab .routes).nEnts ∧ (∀ k', k' ≠ .routes → d'.tab k' = d.tab k') ∧
      RtI ρ g rt0 d'.rt (S.tab .routes).ents ∧ SameRest d { d' with rt := d.rt } := by
  have hke : Kind.routes ≠ .events := by decide
  obtain ⟨h', b, n, rt, k1, k2, k3, _, k5⟩ := cloneLoop_spec f S .routes hO g E rt0 (fun h => absurd h hke) (S.tab .routes).ents
    h d D R rest [] e (fun p hp => by rw [if_neg hke]; exact hc p hp) I hb hE (fun _ => hd)
    (fun _ => ⟨hrt, by simp, hr⟩)
  refine ⟨h', grown d .routes ((S.tab .routes).ents.map ρ) b n rt (S.tab .routes).nEnts, ?_, k2, ?_, ?_, ?_, ?_, ?_, ?_⟩
  · unfold tableClone
    rw [if_neg (ents_nil_ne h0), k1]
    simp only [if_neg hke, grown]
  · exact k3
  · rw [grown, setTab_same]
    show ((d.setTab .routes _).tab .routes).ents = _
    rw [setTab_same, h0]; rfl
  · rw [grown, setTab_same]
  · intro k' hk'
    rw [grown, setTab_other _ hk']
    show (d.setTab .routes _).tab k' = _
    rw [setTab_other _ hk']
  · show RtI ρ g rt0 rt _
    have := k5 rfl
    simpa using this
  · exact ⟨rfl, rfl, rfl, rfl, rfl, rfl⟩

/-- The event table, with its second pass. -/
theorem tableClone_events (f : CloneFlags) (S : Ctx) (hO : Ord H O ρ) {A : List Ptr}
    {h : Heap} {d : Ctx} {D R rest : List Ptr} (e : O = D ++ (S.tab .events).ents ++ rest)
    (hA : ∀ a ∈ A, a ∈ D) (hdA : (d.tab .actions).ents = A.map ρ) (hsA : Asc H A) (hsE : Asc H (S.tab .events).ents)
    (hlA : ∀ q ∈ A, ∃ l, H.label q = some l)
    (hev : ∀ p ∈ (S.tab .events).ents, ∃ o e, H.mem p = some o ∧ o.pay = .event e ∧
      e.lists.all (fun l => ∀ a ∈ l, a ∈ A) ∧ ∀ x ∈ e.aux, x ∈ (S.tab .events).ents)
    (hnd : (S.tab .events).ents.Nodup)
    (I : Inv H ρ (bare f H ρ) h D R) (hb : ByIdL H ρ d.byId d.nById D) (hnE : ∀ p ∈ D, ∀ e, fin f H ρ p ≠ .event e)
    (h0 : (d.tab .events).ents = []) :
    ∃ h' d', tableClone f S .events h d = .ok (h', d') ∧
      Inv H ρ (fin f H ρ) h' (D ++ (S.tab .events).ents) (R ++ (S.tab .events).ents.flatMap (fun p => (fin f H ρ p).refs)) ∧
      ByIdL H ρ d'.byId d'.nById (D ++ (S.tab .events).ents) ∧ (d'.tab .events).ents = (S.tab .events).ents.map ρ ∧
      (d'.tab .events).nEnts = (S.tab .events).nEnts ∧ (∀ k', k' ≠ .events → d'.tab k' = d.tab k') ∧ SameRest d d' := by
  have hbe : ∀ p ∈ (S.tab .events).ents, ∃ e, fin f H ρ p = .event e ∧ bare f H ρ p = eventCloneBare e := by
    intro p hp
    obtain ⟨o, e, ho, he, _, _⟩ := hev p hp
    have : fin f H ρ p = .event { e with lists := e.lists.map (List.map ρ), aux := e.aux.map ρ } := by
      unfold fin; rw [ho]; simp only [he]; rfl
    exact ⟨_, this, by unfold bare; rw [this]⟩
  have hnil : (S.tab .events).ents.flatMap (fun p => (bare f H ρ p).refs) = [] := by
    rw [List.flatMap_eq_nil_iff]
    intro p hp
    obtain ⟨e, _, h2⟩ := hbe p hp
    rw [h2]; rfl
  obtain ⟨h1, b, n, rt, k1, k2, k3, k4, _⟩ := cloneLoop_spec f S .events hO (bare f H ρ) [] d.rt (fun _ => rfl)
    (S.tab .events).ents h d D R rest []
    e (fun p hp => by
      rw [if_pos rfl]
      intro h d D R I
      obtain ⟨o, e, ho, he, _, _⟩ := hev p hp
      obtain ⟨e', h1, h2⟩ := hbe p hp
      refine ⟨o, ho, ?_, by rw [h2]; rfl⟩
      have hpO : p < H.next := (hO.live p (by rw [‹O = _›]; simp [hp])).1
      unfold cloneOne
      rw [I.old p hpO, ho]
      simp only [he]
      rw [h2]
      have : e' = { e with lists := e.lists.map (List.map ρ), aux := e.aux.map ρ } := by
        have h3 : fin f H ρ p = .event { e with lists := e.lists.map (List.map ρ), aux := e.aux.map ρ } := by
          unfold fin; rw [ho]; simp only [he]; rfl
        rw [h1] at h3; injection h3
      rw [this]; rfl) I hb (by simp) (fun h => absurd rfl h) (fun h => absurd h (by decide))
  rw [hnil, List.append_nil] at k2
  -- the context with the count set
  obtain ⟨d2, hd2⟩ : ∃ d2, d2 = ({ d.setTab .events { d.tab .events with ents := (d.tab .events).ents ++ (S.tab .events).ents.map ρ } with
      byId := b, nById := n, rt := rt } : Ctx).setTab .events
      { (({ d.setTab .events { d.tab .events with ents := (d.tab .events).ents ++ (S.tab .events).ents.map ρ } with
      byId := b, nById := n, rt := rt } : Ctx).tab .events) with nEnts := (S.tab .events).nEnts } := ⟨_, rfl⟩
  have t1 : (d2.tab .events).ents = (S.tab .events).ents.map ρ := by
    rw [hd2, setTab_same]
    show ((d.setTab .events _).tab .events).ents = _
    rw [setTab_same, h0]; rfl
  have t2 : (d2.tab .events).nEnts = (S.tab .events).nEnts := by rw [hd2, setTab_same]
  have t3 : ∀ k', k' ≠ .events → d2.tab k' = d.tab k' := by
    intro k' hk'
    rw [hd2, setTab_other _ hk']
    show (d.setTab .events _).tab k' = _
    rw [setTab_other _ hk']
  have hDO : ∀ q ∈ D ++ (S.tab .events).ents, q ∈ O := by
    intro q hq; rw [e]; exact List.mem_append_left _ hq
  have hlE : ∀ q ∈ (S.tab .events).ents, (bare f H ρ q).label? = H.label q ∧ ∃ l, H.label q = some l := by
    intro q hq
    obtain ⟨o, e, ho, he, _, _⟩ := hev q hq
    exact ⟨bare_label ho, e.label, by rw [Heap.label_of ho, he]; rfl⟩
  obtain ⟨h2, r1, r2⟩ := resolveLoop_spec f hO (d := d2) hDO (fun a ha => List.mem_append_left _ (hA a ha))
    (fun a ha => List.mem_append_right _ ha) (by rw [t3 _ (by decide)]; exact hdA) t1 hsA hsE hev
    (S.tab .events).ents (bare f H ρ) h1 R hnd (fun p hp => hp) (fun _ _ => rfl)
    (fun q hq => by
      obtain ⟨o, ho, _⟩ := (hO.live q (hDO q (List.mem_append_left _ (hA q hq)))).2
      exact ⟨bare_label ho, hlA q hq⟩) hlE k2
  refine ⟨h2, d2, ?_, ?_, ?_, t1, t2, t3, ?_⟩
  · unfold tableClone
    rw [if_neg (ents_nil_ne h0), k1]
    simp only [if_true]
    rw [← hd2, t2, if_neg (by simp), t1, r1]
  · refine r2.congr ?_
    intro p hp
    by_cases hpE : p ∈ (S.tab .events).ents
    · simp only [if_pos hpE]
    · simp only [if_neg hpE]
      have hpD : p ∈ D := by
        rcases List.mem_append.1 hp with h | h
        · exact h
        · exact absurd h hpE
      have := hnE p hpD
      unfold bare
      generalize fin f H ρ p = y at this
      cases y <;> first | rfl | exact absurd rfl (this _)
  · rw [hd2]; exact k3
  · rw [hd2]
    refine ⟨?_, rfl, rfl, rfl, rfl, rfl⟩
    show rt = d.rt
    exact k4 (by decide)

end WS.Cl
