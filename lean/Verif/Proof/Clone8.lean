import Verif.Proof.Clone7
/-
Lemmas for property C45: the whole clone, put together.
-/
namespace WS.Cl
open WS

variable {H : Heap} {S : Ctx}

/-- The context the clone starts from. -/
def freshCtx (f : CloneFlags) (S : Ctx) : Ctx :=
  { mkId := S.mkId, idState := S.idState, config := if f.asAtCreation then S.config0 else S.config, config0 := S.config0 }

/-- The references the copies hold, in the order they were taken. -/
def takenRefs (f : CloneFlags) (H : Heap) (S : Ctx) : List Ptr :=
  if f.asAtCreation then [] else
    (S.tab .events).ents.flatMap (fun p => (fin f H (newPtr f H S) p).refs) ++
    (S.rt.defaultEvent.map (newPtr f H S)).toList ++
    (if f.noRoutes then [] else (S.tab .routes).ents.flatMap (fun p => (fin f H (newPtr f H S) p).refs))

/-- The header of the clone's rule table before rules are copied. -/
def headerCopy (f : CloneFlags) (H : Heap) (S : Ctx) : RtHdr :=
  { maxPurgeable := S.rt.maxPurgeable, defaultPolicy := S.rt.defaultPolicy,
    defaultEvent := S.rt.defaultEvent.map (newPtr f H S), fallthrough := S.rt.fallthrough,
    highest := if f.noRoutes then 65535 else S.rt.highest }

theorem or_none' {α : Type} (x : Option α) : x.or none = x := by cases x <;> rfl

theorem clone_creation (f : CloneFlags) (hf : f.asAtCreation = true) (w : WF H S) :
    ∃ h' D, contextClone f S H = .ok (h', D) ∧
      Inv H (newPtr f H S) (fin f H (newPtr f H S)) h' (order f H S) (takenRefs f H S) ∧
      ByIdL H (newPtr f H S) D.byId D.nById (order f H S) ∧
      (∀ k, f.keeps k = true → (D.tab k).ents = (S.tab k).ents.map (newPtr f H S) ∧ (D.tab k).nEnts = (S.tab k).nEnts) ∧
      (∀ k, f.keeps k = false → D.tab k = {}) ∧ SameRest (freshCtx f S) D := by
  obtain ⟨h1, d1, h2, d2, k1, k2, k3, k4, k5, k6, k7⟩ := clone_first f w (freshCtx f S) (fun _ => rfl) ⟨rfl, rfl⟩
  have eo : order f H S = (S.tab .actions).ents ++ (S.tab .afNum).ents.flatMap (fun p => [p, nm H p]) := by
    unfold order; rw [if_pos hf, List.append_nil]
  refine ⟨h2, d2, ?_, ?_, by rw [eo]; exact k4, ?_, ?_, k7⟩
  · unfold contextClone
    simp only
    have : tableClone f S .actions H { mkId := S.mkId, idState := S.idState, config := if f.asAtCreation then S.config0 else S.config, config0 := S.config0 } = .ok (h1, d1) := k1
    rw [this]; simp only
    rw [k2]; simp only
    rw [if_pos hf]
  · have : takenRefs f H S = [] := by unfold takenRefs; rw [if_pos hf]
    rw [this]
    rw [← eo] at k3
    refine k3.congr (fun p hp => ?_)
    obtain ⟨k, hk, hpk⟩ := (mem_order w).1 hp
    refine (bare_eq_fin w f _ (k := k) ?_ hpk).1
    intro hc; subst hc; simp [CloneFlags.keeps, hf] at hk
  · intro k hk
    cases k <;> simp [CloneFlags.keeps, hf] at hk <;> exact k5 _ (by simp)
  · intro k hk
    cases k <;> simp [CloneFlags.keeps] at hk <;> exact k6 _ (by decide) (by decide) (by decide)

theorem RtI_start {ρ : Ptr → Ptr} {g : Ptr → Pay} {rt : RtHdr} (h1 : rt.purge = []) (h2 : rt.lastAfWildcard = none)
    (h3 : rt.bitmaskAfs = []) : RtI ρ g rt rt [] := by
  refine ⟨[], List.Perm.refl _, List.Pairwise.nil, ?_⟩
  cases rt; simp only at h1 h2 h3; subst h1 h2 h3; rfl

theorem clone_full (f : CloneFlags) (hf : f.asAtCreation = false) (w : WF H S) :
    ∃ h' D, contextClone f S H = .ok (h', D) ∧
      Inv (bumped H S) (newPtr f H S) (fin f H (newPtr f H S)) h' (order f H S) (takenRefs f H S) ∧
      ByIdL H (newPtr f H S) D.byId D.nById (order f H S) ∧
      (∀ k, f.keeps k = true → (D.tab k).ents = (S.tab k).ents.map (newPtr f H S) ∧ (D.tab k).nEnts = (S.tab k).nEnts) ∧
      (∀ k, f.keeps k = false → D.tab k = {}) ∧
      RtI (newPtr f H S) (fin f H (newPtr f H S)) (headerCopy f H S) D.rt (if f.noRoutes then [] else (S.tab .routes).ents) ∧
      D.validator = S.validator ∧ D.config = S.config ∧ D.config0 = S.config0 ∧ D.mkId = S.mkId ∧ D.idState = S.idState := by
  obtain ⟨h1, d1, h2, d2, k1, k2, k3, k4, k5, k6, k7⟩ := clone_first f w (freshCtx f S) (fun _ => rfl) ⟨rfl, rfl⟩
  have hO := order_ord f w
  obtain ⟨ρ, hρ⟩ : ∃ ρ, ρ = newPtr f H S := ⟨_, rfl⟩
  rw [← hρ] at hO k3 k4 k5 ⊢
  obtain ⟨D0, hD0⟩ : ∃ D0, D0 = (S.tab .actions).ents ++ (S.tab .afNum).ents.flatMap (fun p => [p, nm H p]) := ⟨_, rfl⟩
  rw [← hD0] at k3 k4
  have eo : order f H S = D0 ++ (S.tab .events).ents ++
      ((if f.noRoutes then [] else (S.tab .routes).ents) ++ (S.tab .kvs).ents) := by
    unfold order; simp [hf, hD0]
  have hD0k : ∀ p ∈ D0, ∃ k, k ≠ .events ∧ k ≠ .routes ∧ p ∈ (S.tab k).ents := by
    intro p hp
    rw [hD0, List.mem_append] at hp
    rcases hp with hp | hp
    · exact ⟨.actions, by decide, by decide, hp⟩
    · have := (pairs_perm (nm H) _).mem_iff.1 hp
      rw [List.mem_append] at this
      rcases this with h | h
      · exact ⟨.afNum, by decide, by decide, h⟩
      · exact ⟨.afName, by decide, by decide, w.names_perm.mem_iff.1 h⟩
  -- events
  obtain ⟨h3, d3, e1, e2, e3, e4, e5, e6, e7⟩ := tableClone_events f S hO (A := (S.tab .actions).ents) eo
    (fun a ha => by rw [hD0]; simp [ha]) (k5 .actions (by simp)).1 (w.sorted .actions (by simp)) (w.sorted .events (by simp))
    (fun q hq => by
      obtain ⟨o, a, ho, ha⟩ := w.action hq
      exact ⟨a.label, by rw [Heap.label_of ho, ha]; rfl⟩)
    (fun p hp => by
      obtain ⟨o, e, ho, he⟩ := w.event hp
      exact ⟨o, e, ho, he, w.actionRefs p hp o e ho he, w.auxRefs p hp o e ho he⟩)
    (w.nodup _) k3 k4 (fun p hp => by
      obtain ⟨k, h1, _, h2⟩ := hD0k p hp
      exact (bare_eq_fin w f ρ h1 h2).2) (by rw [k6 _ (by decide) (by decide) (by decide)])
  -- header
  obtain ⟨h4, r1, r2⟩ := routeHeader_spec f w hO (h := h3) (d := d3)
    (fun q hq => by rw [eo]; exact List.mem_append_left _ hq) (fun x hx => by simp [hx]) e4 e2
  have hrt3 : d3.rt = {} := by rw [e7.1, k7.1]; rfl
  rw [hrt3] at r1
  have r1 : routeHeaderClone f S h3 d3 = .ok (h4, { d3 with rt := headerCopy f H S }) := by
    rw [r1]; unfold headerCopy; rw [← hρ]
    simp only [or_none']
  obtain ⟨d4, hd4⟩ : ∃ d4, d4 = ({ d3 with rt := headerCopy f H S } : Ctx) := ⟨_, rfl⟩
  rw [← hd4] at r1
  have t4 : d4.tab = d3.tab := by rw [hd4]
  have b4 : ByIdL (bumped H S) ρ d4.byId d4.nById (D0 ++ (S.tab .events).ents) := by rw [hd4]; exact e3.bump
  have hO' := hO.bump (S := S)
  have hrti : RtI ρ (fin f H ρ) (headerCopy f H S) d4.rt [] := by rw [hd4]; exact RtI_start rfl rfl rfl
  -- routes
  obtain ⟨h5, d5, q1, q2, q3, q4, q5, q6, q7, q8⟩ : ∃ h5 d5,
      (if f.noRoutes then Except.ok (h4, d4) else tableClone f S .routes h4 d4) = .ok (h5, d5) ∧
      Inv (bumped H S) ρ (fin f H ρ) h5 (D0 ++ (S.tab .events).ents ++ (if f.noRoutes then [] else (S.tab .routes).ents)) (takenRefs f H S) ∧
      ByIdL (bumped H S) ρ d5.byId d5.nById (D0 ++ (S.tab .events).ents ++ (if f.noRoutes then [] else (S.tab .routes).ents)) ∧
      (f.noRoutes = false → (d5.tab .routes).ents = (S.tab .routes).ents.map ρ ∧ (d5.tab .routes).nEnts = (S.tab .routes).nEnts) ∧
      (f.noRoutes = true → d5.tab .routes = {}) ∧
      (∀ k', k' ≠ .routes → d5.tab k' = d4.tab k') ∧
      RtI ρ (fin f H ρ) (headerCopy f H S) d5.rt (if f.noRoutes then [] else (S.tab .routes).ents) ∧
      SameRest d4 { d5 with rt := d4.rt } := by
    cases hn : f.noRoutes with
    | true =>
      refine ⟨h4, d4, by simp, ?_, by simpa using b4, by simp, ?_, fun _ _ => rfl, by simpa using hrti, SameRest.refl _⟩
      · have : takenRefs f H S = [] ++ (S.tab .events).ents.flatMap (fun p => (fin f H ρ p).refs) ++ (S.rt.defaultEvent.map ρ).toList := by
          unfold takenRefs; rw [if_neg (by simp [hf]), if_pos hn, ← hρ]; simp
        rw [this]; simpa using r2
      · intro _
        rw [t4, e6 _ (by decide), k6 _ (by decide) (by decide) (by decide)]
    | false =>
      have eo' : order f H S = (D0 ++ (S.tab .events).ents) ++ (S.tab .routes).ents ++ (S.tab .kvs).ents := by
        rw [eo, hn]; simp
      obtain ⟨h5, d5, q1, q2, q3, q4, q5, q6, q7, q8⟩ := tableClone_routes f S hO' (fin f H ρ) (headerCopy f H S)
        eo' (S.tab .events).ents (fun p hp => route_copies f w hO hp) (fun p hp => by
          obtain ⟨o, r, ho, hr⟩ := w.route hp
          exact ⟨_, by rw [fin_of ho, hr]; rfl⟩) r2 b4 (fun x hx => by simp [hx]) (by rw [t4]; exact e4)
        (by rw [t4, e6 _ (by decide), k6 _ (by decide) (by decide) (by decide)]) hrti
      refine ⟨h5, d5, by simpa using q1, ?_, by simpa using q3, fun _ => ⟨q4, q5⟩, by simp, q6, by simpa using q7, q8⟩
      have : takenRefs f H S = [] ++ (S.tab .events).ents.flatMap (fun p => (fin f H ρ p).refs) ++ (S.rt.defaultEvent.map ρ).toList ++
          (S.tab .routes).ents.flatMap (fun p => (fin f H ρ p).refs) := by
        unfold takenRefs; rw [if_neg (by simp [hf]), if_neg (by simp [hn]), ← hρ]; simp
      rw [this]; simpa using q2
  -- user values
  have eo2 : order f H S = (D0 ++ (S.tab .events).ents ++ (if f.noRoutes then [] else (S.tab .routes).ents)) ++ (S.tab .kvs).ents ++ [] := by
    rw [eo]; simp
  obtain ⟨h6, d6, v1, v2, v3, v4, v5, v6, v7⟩ := tableClone_plain f S .kvs (Or.inr rfl) hO' (fin f H ρ)
    (h := h5) (d := { d5 with validator := S.validator }) eo2 (fun p hp h d D R I => by
      obtain ⟨o, k, v, ho, hv⟩ := w.kv hp
      refine ⟨o, by rw [(bumped_mem H S).1]; exact ho, ?_, kind_refs w f _ (by decide) (by decide) hp⟩
      have hlt := (w.valid _ p hp).1
      unfold cloneOne
      rw [I.old p (by rw [(bumped_mem H S).2]; exact hlt), (bumped_mem H S).1, ho]
      simp only [hv]
      rw [fin_of ho, hv]; rfl)
    q2 q3 (S.tab .events).ents (fun x hx => by simp [hx])
    (by show (d5.tab .events).ents = _; rw [q6 _ (by decide), t4]; exact e4)
    (by show (d5.tab .kvs).ents = _
        rw [q6 _ (by decide), t4, e6 _ (by decide), k6 _ (by decide) (by decide) (by decide)])
  have hkv : ∀ k, k ≠ .kvs → d6.tab k = d5.tab k := fun k hk => v6 k hk
  have hT : ∀ k, k = .actions ∨ k = .afNum ∨ k = .afName → d6.tab k = d2.tab k := by
    intro k hk
    rcases hk with rfl | rfl | rfl <;>
      rw [hkv _ (by decide), q6 _ (by decide), t4, e6 _ (by decide)]
  refine ⟨h6, d6, ?_, ?_, ?_, ?_, ?_, ?_, ?_⟩
  · unfold contextClone
    simp only
    have : tableClone f S .actions H { mkId := S.mkId, idState := S.idState, config := if f.asAtCreation then S.config0 else S.config, config0 := S.config0 } = .ok (h1, d1) := k1
    rw [this]; simp only
    rw [k2]; simp only
    rw [if_neg (by simp [hf]), e1]; simp only
    rw [r1]; simp only
    rw [q1]; simp only
    exact v1
  · rw [eo2]; simpa using v2
  · rw [eo2]; simpa using v3.unbump
  · intro k hk
    cases k with
    | actions => rw [hT _ (by simp)]; exact k5 _ (by simp)
    | afNum => rw [hT _ (by simp)]; exact k5 _ (by simp)
    | afName => rw [hT _ (by simp)]; exact k5 _ (by simp)
    | events => rw [hkv _ (by decide), q6 _ (by decide), t4]; exact ⟨e4, e5⟩
    | routes =>
      rw [hkv _ (by decide)]
      exact q4 (by simpa [CloneFlags.keeps, hf] using hk)
    | kvs => exact ⟨v4, v5⟩
  · intro k hk
    cases k <;> simp [CloneFlags.keeps, hf] at hk
    rw [hkv _ (by decide)]; exact q5 hk
  · rw [v7.1]; exact q7
  · obtain ⟨w1, w2, w3, w4, w5, w6⟩ := v7
    obtain ⟨x1, x2, x3, x4, x5, x6⟩ := q8
    obtain ⟨y1, y2, y3, y4, y5, y6⟩ := e7
    obtain ⟨z1, z2, z3, z4, z5, z6⟩ := k7
    simp only [hd4] at x3 x4 x5 x6
    refine ⟨w2, ?_, ?_, ?_, ?_⟩
    · rw [w3, x3, y3, z3]; simp [freshCtx, hf]
    · rw [w4, x4, y4, z4]; rfl
    · rw [w5, x5, y5, z5]; rfl
    · rw [w6, x6, y6, z6]; rfl

end WS.Cl
