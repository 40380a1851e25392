import Verif.Proof.Restore2
/-
C85: all the calls succeed, and the rules come back in the same order.
-/
namespace WS.Rs
open WS WS.Conf WS.LT WS.Ld WS.Spec WS.Spec.Load WS.Spec.Ld WS.Spec.Rs WS.Spec.Dump WS.Spec.RoundTrip

variable {issued : Nat → Nat → Prop} {old : List Nat} {H : Host}

theorem tw_symm {x y : Seen} (h : Twin x y) : Twin y x :=
  ⟨h.1.symm, h.2.1.symm, h.2.2.1.symm, h.2.2.2.1.symm, h.2.2.2.2.1.symm, fun k hk => (h.2.2.2.2.2 k hk).symm⟩

theorem tw_trans {x y z : Seen} (h : Twin x y) (h' : Twin y z) : Twin x z :=
  ⟨h.1.trans h'.1, h.2.1.trans h'.2.1, h.2.2.1.trans h'.2.2.1, h.2.2.2.1.trans h'.2.2.2.1, h.2.2.2.2.1.trans h'.2.2.2.2.1,
    fun k hk => (h.2.2.2.2.2 k hk).trans (h'.2.2.2.2.2 k hk)⟩

theorem nodup_le {α : Type} [DecidableEq α] : ∀ {l m : List α}, l.Nodup → (∀ x ∈ l, x ∈ m) → l.length ≤ m.length
  | [], m, _, _ => Nat.zero_le _
  | a :: l, m, hn, hs => by
    rw [List.nodup_cons] at hn
    have ha : a ∈ m := hs a (List.mem_cons_self ..)
    have := nodup_le (l := l) (m := m.erase a) hn.2 (fun x hx => by
      have hne : x ≠ a := fun h => hn.1 (h ▸ hx)
      rw [List.mem_erase_of_ne hne]
      exact hs x (List.mem_cons_of_mem _ hx))
    rw [List.length_erase_of_mem ha] at this
    have hp : 0 < m.length := List.length_pos_of_mem ha
    simp only [List.length_cons]
    omega

theorem usesBitmask_iff (r : Route) : r.hasBitmask = true ↔ UsesBitmask r := by
  rw [hasBitmask_iff, Bool.or_eq_true]; exact Iff.rfl

/-- Room for masks, as the table counts them. -/
theorem mask_room {T : RouteTable} (hT : CoreInv T) {fams : List Nat} (h4 : fams.length < 4) (hf : ∀ x ∈ T.ents, UsesBitmask x → x.family ∈ fams)
    (hn : T.ents.length < 65535) : T.bitmaskAfs.length < 4 ∧ ∀ p ∈ T.bitmaskAfs, p.2 < 65535 := by
  refine ⟨?_, ?_⟩
  · have := nodup_le hT.afsNodup (m := fams) (fun af haf => by
      obtain ⟨⟨af', n⟩, hp, rfl⟩ := List.mem_map.mp haf
      obtain ⟨h1, h2⟩ := hT.afsCount af' n hp
      rw [h1] at h2
      unfold bmCount at h2
      rw [List.countP_pos_iff] at h2
      obtain ⟨x, hx, hb⟩ := h2
      simp only [Bool.and_eq_true, beq_iff_eq] at hb
      rw [← hb.2]
      exact hf x hx ((usesBitmask_iff x).mp hb.1))
    rw [List.length_map] at this
    omega
  · rintro ⟨af, n⟩ hp
    obtain ⟨h1, -⟩ := hT.afsCount af n hp
    have : bmCount T.ents af ≤ T.ents.length := List.countP_le_length
    show n < 65535
    omega

theorem perm_pairs_mem {R : Seen → Seen → Prop} {l : List Seen} : ∀ {m : List Seen}, Pairs R l m → ∀ y ∈ m, ∃ x ∈ l, R x y := by
  intro m h
  induction h with
  | nil => intro y hy; cases hy
  | cons h _ ih =>
    intro y hy
    rcases List.mem_cons.mp hy with rfl | hy
    · exact ⟨_, List.mem_cons_self .., h⟩
    · obtain ⟨x, hx, hr⟩ := ih y hy
      exact ⟨x, List.mem_cons_of_mem _ hx, hr⟩

theorem pairs_length {α β : Type} {R : α → β → Prop} {l : List α} {m : List β} (h : Pairs R l m) : l.length = m.length := by
  induction h with
  | nil => rfl
  | cons _ _ ih => simp [ih]

/-- All the calls succeed: `done` have been restored as `back`, `rs` are to come. -/
theorem reinsert_all (hM : Mild H.acts) (hI : Issues H issued) (hW : Works H) {fams : List Nat} (h4 : fams.length < 4) :
    ∀ (rs : List Route) (ks : List Call), ReinsertsAll rs ks → ∀ (done : List Route) (back : List Seen) (w : World), Good issued old w.cx →
      (∀ r ∈ rs, Ready (view w.cx) r) → (∀ r ∈ done ++ rs, UsesBitmask r → r.family ∈ fams) → (done ++ rs).length < 65535 →
      (done ++ rs).Pairwise (fun x y => ¬ Twin (seen x) (seen y)) →
      Pairs Restored (done.map seen) back → (view w.cx).rules.Perm back →
      ∃ w' back', Performed H.env ks w w' ∧ Good issued old w'.cx ∧ view w'.cx = { view w.cx with rules := (view w'.cx).rules } ∧
        Pairs Restored ((done ++ rs).map seen) back' ∧ (view w'.cx).rules.Perm back' := by
  intro rs ks h
  induction h with
  | nil =>
    intro done back w hG _ _ _ _ hp hperm
    refine ⟨w, back, .nil _, hG, rfl, ?_, hperm⟩
    rw [List.append_nil]; exact hp
  | @cons r rs k ks hk _ ih =>
    intro done back w hG hR hF hL hpw hp hperm
    have hback : ∀ s ∈ (view w.cx).rules, ∃ x ∈ done, Restored (seen x) s := by
      intro s hs
      obtain ⟨y, hy, hr⟩ := perm_pairs_mem hp s (hperm.subset hs)
      obtain ⟨x, hx, rfl⟩ := List.mem_map.mp hy
      exact ⟨x, hx, hr⟩
    have hnext : Next w.cx r := by
      refine ⟨?_, ?_⟩
      · intro s hs ht
        obtain ⟨x, hx, hr⟩ := hback s hs
        exact (List.pairwise_append.mp hpw).2.2 x hx r (List.mem_cons_self ..) (tw_trans hr.twin ht)
      · intro _
        refine mask_room hG.table.core h4 ?_ ?_
        · intro x hx hu
          obtain ⟨y, hy, hr⟩ := hback (seen x) (List.mem_map_of_mem hx)
          have hfam : y.family = x.family := hr.twin.2.1
          have hb := hr.twin.2.2.2.2.2
          rw [← hfam]
          refine hF y (List.mem_append_left _ hy) ?_
          have h12 := hb 12 (by omega)
          have h13 := hb 13 (by omega)
          rw [seen_bit' y (by omega), seen_bit' x (by omega)] at h12 h13
          unfold UsesBitmask at *
          rw [h12, h13]; exact hu
        · have h1 := hperm.length_eq
          have h2 := pairs_length hp
          rw [List.length_map] at h2
          have h3 : (view w.cx).rules.length = w.cx.routes.ents.length := by
            show (w.cx.routes.ents.map seen).length = _
            rw [List.length_map]
          rw [List.length_append] at hL
          omega
    obtain ⟨w1, s, hc, hG1, hres, hv, hp1⟩ := reinsert hM hI hW hG hk (hR r (List.mem_cons_self ..)) hnext
    have happ : done ++ r :: rs = done ++ [r] ++ rs := by simp
    have hR1 : ∀ r' ∈ rs, Ready (view w1.cx) r' := by
      intro r' hr'
      obtain ⟨a, b, c, d, e, f, g⟩ := hR r' (List.mem_cons_of_mem _ hr')
      rw [hv]
      exact ⟨a, b, c, d, e, f, g⟩
    obtain ⟨w', back', hper, hG', hv', hp', hperm'⟩ := ih (done ++ [r]) (back ++ [s]) w1 hG1 hR1 (by rw [← happ]; exact hF) (by rw [← happ]; exact hL)
      (by rw [← happ]; exact hpw) (by rw [List.map_append]; exact hp.append (.cons hres .nil))
      (hp1.trans ((List.Perm.cons s hperm).trans (List.perm_append_comm (l₁ := [s]) (l₂ := back))))
    refine ⟨w', back', .cons hc hper, hG', ?_, ?_, hperm'⟩
    · rw [hv', hv]
    · rw [happ]; exact hp'

/-- Lists sorted by key, one element for each of the other with the same key: the same order. -/
theorem same_order {R : Route → Route → Prop} (hR : ∀ x y, R x y → exactLex x y = .eq) : ∀ (l p m : List Route), Pairs R l p → m.Perm p →
    l.Pairwise (fun a b => exactLex a b = .lt) → m.Pairwise (fun a b => exactLex a b = .lt) → Pairs R l m := by
  intro l p m h
  induction h generalizing m with
  | nil => intro hm _ _; rw [List.perm_nil.mp hm]; exact .nil
  | @cons a b as bs hab hrest ih =>
    intro hm hl hs
    rw [List.pairwise_cons] at hl
    have hlt : ∀ y ∈ bs, exactLex b y = .lt := by
      intro y hy
      obtain ⟨x, hx, hxy⟩ : ∃ x ∈ as, R x y := by
        clear ih hm hl
        induction hrest with
        | nil => cases hy
        | cons h _ ih =>
          rcases List.mem_cons.mp hy with rfl | hy
          · exact ⟨_, List.mem_cons_self .., h⟩
          · obtain ⟨x, hx, hr⟩ := ih hy
            exact ⟨x, List.mem_cons_of_mem _ hx, hr⟩
      have h1 := hl.1 x hx
      have h2 := hR _ _ hab
      have h3 := hR _ _ hxy
      rw [← Std.TransCmp.congr_left h2, ← Std.TransCmp.congr_right h3]; exact h1
    cases m with
    | nil => exact absurd hm.length_eq (by simp)
    | cons y ys =>
      rw [List.pairwise_cons] at hs
      have hyb : y = b := by
        have hy : y ∈ b :: bs := hm.subset (List.mem_cons_self ..)
        rcases List.mem_cons.mp hy with h | h
        · exact h
        · exfalso
          have hb : b ∈ y :: ys := hm.symm.subset (List.mem_cons_self ..)
          have h1 := hlt y h
          rcases List.mem_cons.mp hb with h' | h'
          · subst h'
            rw [Std.ReflCmp.compare_self (cmp := exactLex)] at h1; cases h1
          · have h2 := hs.1 b h'
            have h3 : exactLex y b = (exactLex b y).swap := Std.OrientedCmp.eq_swap
            rw [h1] at h3
            rw [h3] at h2; cases h2
      subst hyb
      exact .cons hab (ih ys (List.Perm.cons_inv hm) hl.2 hs.2)

theorem map_perm {α β : Type} (f : α → β) : ∀ (b : List β) (l : List α), (l.map f).Perm b → ∃ p, l.Perm p ∧ p.map f = b
  | [], l, h => ⟨[], by have := List.perm_nil.mp h; rw [List.map_eq_nil_iff] at this; rw [this], rfl⟩
  | y :: b, l, h => by
    obtain ⟨x, hx, hxy⟩ := List.mem_map.mp (h.symm.subset (List.mem_cons_self ..))
    obtain ⟨s, t, rfl⟩ := List.append_of_mem hx
    have h1 : (s ++ x :: t).Perm (x :: (s ++ t)) := List.perm_middle
    have h2 : ((s ++ t).map f).Perm b := by
      have := (h1.map f).symm.trans h
      rw [List.map_cons, hxy] at this
      exact List.Perm.cons_inv this
    obtain ⟨p, hp, hb⟩ := map_perm f b (s ++ t) h2
    exact ⟨x :: p, h1.trans (List.Perm.cons x hp), by rw [List.map_cons, hxy, hb]⟩

theorem pairs_unmap {α β : Type} {R : β → β → Prop} {f : α → β} : ∀ (l p : List α), Pairs R (l.map f) (p.map f) →
    Pairs (fun x y => R (f x) (f y) ∧ x ∈ l ∧ y ∈ p) l p := by
  have key : ∀ (L P l p : List α), (∀ x ∈ l, x ∈ L) → (∀ x ∈ p, x ∈ P) → Pairs R (l.map f) (p.map f) →
      Pairs (fun x y => R (f x) (f y) ∧ x ∈ L ∧ y ∈ P) l p := by
    intro L P l
    induction l with
    | nil =>
      intro p _ _ h
      cases p with
      | nil => exact .nil
      | cons y p => cases h
    | cons x l ih =>
      intro p hl hp h
      cases p with
      | nil => cases h
      | cons y p =>
        cases h with
        | cons h1 h2 =>
          exact .cons ⟨h1, hl x (List.mem_cons_self ..), hp y (List.mem_cons_self ..)⟩
            (ih p (fun z hz => hl z (List.mem_cons_of_mem _ hz)) (fun z hz => hp z (List.mem_cons_of_mem _ hz)) h2)
  exact fun l p h => key l p l p (fun _ h => h) (fun _ h => h) h

theorem pairs_map {α β : Type} {R : β → β → Prop} {S : α → α → Prop} {f : α → β} (h : ∀ x y, S x y → R (f x) (f y)) {l p : List α}
    (hp : Pairs S l p) : Pairs R (l.map f) (p.map f) := by
  induction hp with
  | nil => exact .nil
  | cons h1 _ ih => exact .cons (h _ _ h1) ih

/-- The rules that have come back are in the order of the table they come from. -/
theorem back_in_order {oldA oldB : List Nat} {a b : Cx} (ha : Good issued oldA a) (hb : Good issued oldB b) (hv : (view b).events = (view a).events) {back : List Seen}
    (hp : Pairs Restored (view a).rules back) (hperm : (view b).rules.Perm back) : Pairs Restored (view a).rules (view b).rules := by
  obtain ⟨p, hpp, rfl⟩ := map_perm seen back b.routes.ents hperm
  have hev : ∀ e ∈ b.events, e ∈ a.events := by
    intro e he
    have h1 : (view b).events e.label = some e := at_of_mem hb.events he
    rw [hv] at h1
    exact (at_some h1).1
  have h1 := pairs_unmap a.routes.ents p hp
  refine pairs_map (S := fun x y => Restored (seen x) (seen y) ∧ x ∈ a.routes.ents ∧ y ∈ p) (fun x y h => h.1) (l := a.routes.ents) (p := b.routes.ents) ?_
  have sorted : ∀ {old : List Nat} {c : Cx}, Good issued old c → c.routes.ents.Pairwise (fun x y => exactLex x y = .lt) := by
    intro _ c hc
    have hs := hc.table.core.sorted
    exact hs.sorted.imp_of_mem (fun {x y} hx hy h => by rw [← routeKeyCmp_eq x y (hs.wf x hx) (hs.wf y hy)]; exact h)
  refine same_order ?_ _ p _ h1 hpp (sorted ha) (sorted hb)
  rintro x y ⟨h, hx, hy⟩
  have hy' : y ∈ b.routes.ents := hpp.symm.subset hy
  have hxw := ha.table.core.sorted.wf x hx
  have hyw := hb.table.core.sorted.wf y hy'
  rw [← routeKeyCmp_eq x y hxw hyw]
  exact (twin_iff ha (ha.linked x hx) (fun e he => hev e (hb.linked y hy' e he)) hxw hyw).mp h.twin

end WS.Rs
