import Verif.Proof.Clone
/-
Lemmas for property C45: the copying loop of one table, and the second pass over events.
-/
namespace WS.Cl
open WS

variable {H : Heap} {S : Ctx} {ρ : Ptr → Ptr} {O : List Ptr}

theorem link_eq {h : Heap} {d : Ctx} {k : Kind} {n : Ptr} {o : Obj} (e : h.mem n = some o) :
    link h d k n = (h.set n { o with prev := (d.tab k).ents.getLast? },
      d.setTab k { d.tab k with ents := (d.tab k).ents ++ [n] }) := by
  unfold link; rw [e]

theorem setTab_same (d : Ctx) (k : Kind) (t : Tab) : (d.setTab k t).tab k = t := by simp [Ctx.setTab]
theorem setTab_other (d : Ctx) {k k' : Kind} (h : k' ≠ k) (t : Tab) : (d.setTab k t).tab k' = d.tab k' := by
  simp [Ctx.setTab, h]
theorem setTab_twice (d : Ctx) (k : Kind) (t t' : Tab) : (d.setTab k t).setTab k t' = d.setTab k t' := by
  simp only [Ctx.setTab]; congr 1; funext k'; split <;> rfl

/-- What copying one object has to do: allocate the copy with content `g p`, after taking the references
that content holds. -/
def Copies (f : CloneFlags) (S : Ctx) (H : Heap) (ρ : Ptr → Ptr) (g : Ptr → Pay) (O E : List Ptr) (p : Ptr) : Prop :=
  ∀ (h : Heap) (d : Ctx) (D R : List Ptr), (∀ q ∈ D, q ∈ O) → Inv H ρ g h D R → (∀ x ∈ E, x ∈ D) → (d.tab .events).ents = E.map ρ →
    ∃ h1 o, H.mem p = some o ∧ cloneOne f S h d p = .ok (h1.alloc ⟨o.id, o.hits, none, g p⟩) ∧
      Inv H ρ g h1 D (R ++ (g p).refs)

theorem cloneLoop_spec (f : CloneFlags) (S : Ctx) (k : Kind) (hO : Ord H O ρ) (g : Ptr → Pay) (E : List Ptr)
    (rt0 : RtHdr) (hk : k = .events → E = []) :
    ∀ (ps : List Ptr) (h : Heap) (d : Ctx) (D R rest done : List Ptr), O = D ++ ps ++ rest →
    (∀ p ∈ ps, if k = .events then (∀ (h : Heap) (d : Ctx) (D R : List Ptr), Inv H ρ g h D R →
        ∃ o, H.mem p = some o ∧ cloneOne f S h d p = .ok (h.alloc ⟨o.id, o.hits, none, g p⟩) ∧ (g p).refs = [])
      else Copies f S H ρ g O E p) →
    Inv H ρ g h D R → ByIdL H ρ d.byId d.nById D → (∀ x ∈ E, x ∈ D) → (k ≠ .events → (d.tab .events).ents = E.map ρ) →
    (k = .routes → RtI ρ g rt0 d.rt done ∧ (∀ q ∈ done, q ∈ D) ∧ ∀ p ∈ ps, ∃ r, g p = .route r) →
    ∃ h' b n rt, cloneLoop f S k ps h d = .ok (h', { d.setTab k { d.tab k with ents := (d.tab k).ents ++ ps.map ρ } with
        byId := b, nById := n, rt := rt }) ∧
      Inv H ρ g h' (D ++ ps) (R ++ ps.flatMap (fun p => (g p).refs)) ∧ ByIdL H ρ b n (D ++ ps) ∧
      (k ≠ .routes → rt = d.rt) ∧ (k = .routes → RtI ρ g rt0 rt (done ++ ps))
  | [], h, d, D, R, rest, done, _, _, I, hb, _, _, hr => by
    refine ⟨h, d.byId, d.nById, d.rt, ?_, ?_, ?_, fun _ => rfl, fun hk => ?_⟩
    · simp only [cloneLoop, List.map_nil, List.append_nil]
      congr 2
      cases d with | mk tab => simp only [Ctx.setTab]; congr 1; funext k'; split
                               · rename_i h; rw [h]
                               · rfl
    · simpa using I
    · simpa using hb
    · simpa using (hr hk).1
  | p :: ps, h, d, D, R, rest, done, e, hc, I, hb, hE, hd, hr => by
    have e' : O = D ++ p :: (ps ++ rest) := by rw [e]; simp
    -- the copy
    obtain ⟨h1, o, ho, hcl, I1⟩ : ∃ h1 o, H.mem p = some o ∧ cloneOne f S h d p = .ok (h1.alloc ⟨o.id, o.hits, none, g p⟩) ∧
        Inv H ρ g h1 D (R ++ (g p).refs) := by
      by_cases hke : k = .events
      · have := hc p (by simp)
        rw [if_pos hke] at this
        obtain ⟨o, h1, h2, h3⟩ := this h d D R I
        exact ⟨h, o, h1, h2, by rw [h3]; simpa using I⟩
      · have := hc p (by simp)
        rw [if_neg hke] at this
        exact this h d D R (fun q hq => by rw [e']; simp [hq]) I hE (hd hke)
    obtain ⟨ha, I2⟩ := I1.alloc hO e' ho none
    -- linked
    have hDO : ∀ q ∈ D ++ [p], q ∈ O := by
      intro q hq; rw [e']; simp at hq ⊢; rcases hq with h | h <;> simp [h]
    obtain ⟨o2, pr2, ho2, hm2⟩ := I2.copied p (by simp)
    rw [ho] at ho2; cases ho2
    have I3 := I2.set (g' := g) hO hDO (p := p) (by simp) ho (d.tab k).ents.getLast? (fun _ _ _ => rfl)
    have hlink : link (h1.alloc ⟨o.id, o.hits, none, g p⟩).2 d k (ρ p) =
        ((h1.alloc ⟨o.id, o.hits, none, g p⟩).2.set (ρ p) ⟨o.id, o.hits, (d.tab k).ents.getLast?, g p⟩,
          d.setTab k { d.tab k with ents := (d.tab k).ents ++ [ρ p] }) := link_eq hm2
    generalize hh3 : (h1.alloc ⟨o.id, o.hits, none, g p⟩).2.set (ρ p) ⟨o.id, o.hits, (d.tab k).ents.getLast?, g p⟩ = h3 at *
    generalize hd3 : d.setTab k { d.tab k with ents := (d.tab k).ents ++ [ρ p] } = d3 at *
    have hb3 : d3.byId = d.byId ∧ d3.nById = d.nById ∧ d3.rt = d.rt := by rw [← hd3]; exact ⟨rfl, rfl, rfl⟩
    obtain ⟨b, n, hins, hB⟩ := insertById_step (d := d3) hO I3 e' (fun q hq => hq) (by rw [hb3.1, hb3.2.1]; exact hb)
    obtain ⟨rt4, hrt4⟩ : ∃ rt4, rt4 = if k = .routes then noteRoute h3 d.rt (ρ p) else d.rt := ⟨_, rfl⟩
    have hstep : cloneLoop f S k (p :: ps) h d = cloneLoop f S k ps h3 { d3 with byId := b, nById := n, rt := rt4 } := by
      have hpair : h1.alloc ⟨o.id, o.hits, none, g p⟩ = (ρ p, (h1.alloc ⟨o.id, o.hits, none, g p⟩).2) := by
        rw [← ha]
      conv => lhs; unfold cloneLoop
      rw [hcl, hpair]
      simp only [hlink, hins]
      by_cases hkr : k = .routes
      · simp only [if_pos hkr, hrt4, hb3.2.2]
      · simp only [if_neg hkr, hrt4, ← hb3.2.2]
    obtain ⟨h', b', n', rt', k1, k2, k3, k4, k5⟩ := cloneLoop_spec f S k hO g E rt0 hk ps h3
      { d3 with byId := b, nById := n, rt := rt4 } (D ++ [p]) (R ++ (g p).refs) rest (done ++ [p])
      (by rw [e']; simp) (fun q hq => hc q (by simp [hq])) I3 hB (fun x hx => by simp [hE x hx])
      (fun hke => by
        rw [← hd3]; show ((d.setTab k _).tab .events).ents = _
        rw [setTab_other d (fun h => hke h.symm)]; exact hd hke)
      (fun hkr => by
        obtain ⟨r1, r2, r3⟩ := hr hkr
        refine ⟨?_, ?_, fun q hq => r3 q (by simp [hq])⟩
        · show RtI ρ g rt0 rt4 (done ++ [p])
          rw [hrt4, if_pos hkr]
          exact noteRoute_step I3 (by simp) (fun q hq => by simp [r2 q hq]) (r3 p (by simp)) r1
        · intro q hq
          simp at hq ⊢
          rcases hq with h | h
          · exact Or.inl (r2 q h)
          · exact Or.inr h)
    refine ⟨h', b', n', rt', ?_, by simpa using k2, by simpa using k3, fun hkr => ?_, fun hkr => by simpa using k5 hkr⟩
    · rw [hstep, k1]
      congr 2
      rw [← hd3]
      have : ({ d.setTab k { d.tab k with ents := (d.tab k).ents ++ [ρ p] } with byId := b, nById := n, rt := rt4 } : Ctx).tab k =
          { d.tab k with ents := (d.tab k).ents ++ [ρ p] } := setTab_same d k _
      rw [this]
      simp only [Ctx.setTab, List.map_cons, List.append_assoc, List.singleton_append]
      congr 1
      funext k'
      split <;> rfl
    · rw [k4 hkr]
      show rt4 = d.rt
      rw [hrt4, if_neg hkr]

end WS.Cl
