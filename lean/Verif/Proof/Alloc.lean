import Verif.Spec.Alloc
/-
Invariant of the allocator histories.
-/
namespace WS.Alloc

/-! ### rounding up -/

theorem and_not_mask {w : Nat} (x m : BitVec w) : (x &&& ~~~m) + (x &&& m) = x := by
  rw [BitVec.add_eq_or_of_and_eq_zero]
  · ext i hi
    simp only [BitVec.getElem_or, BitVec.getElem_and, BitVec.getElem_not]
    cases x[i] <;> cases m[i] <;> rfl
  · ext i hi
    simp only [BitVec.getElem_and, BitVec.getElem_not, BitVec.getElem_zero]
    cases x[i] <;> cases m[i] <;> rfl

theorem mask_toNat {w k : Nat} (hk : k < w) (x : BitVec w) : (x &&& (BitVec.ofNat w (2 ^ k) - 1#w)).toNat = x.toNat % 2 ^ k := by
  have h1 : (BitVec.ofNat w (2 ^ k) - 1#w).toNat = 2 ^ k - 1 := by
    have hp : 2 ^ k < 2 ^ w := Nat.pow_lt_pow_right (by decide) hk
    have h0 : 0 < 2 ^ k := Nat.two_pow_pos k
    have hw : 1 < 2 ^ w := Nat.one_lt_two_pow (by omega)
    rw [BitVec.toNat_sub, BitVec.toNat_ofNat, BitVec.toNat_ofNat, Nat.mod_eq_of_lt hp, Nat.mod_eq_of_lt hw]
    rw [show 2 ^ w - 1 + 2 ^ k = 2 ^ w + (2 ^ k - 1) by omega, Nat.add_mod_left, Nat.mod_eq_of_lt (by omega)]
  rw [BitVec.toNat_and, h1, Nat.and_two_pow_sub_one_eq_mod]

theorem align_toNat {w k : Nat} (hk : k < w) (x : BitVec w) : (x &&& ~~~(BitVec.ofNat w (2 ^ k) - 1#w)).toNat = x.toNat - x.toNat % 2 ^ k := by
  have h := and_not_mask x (BitVec.ofNat w (2 ^ k) - 1#w)
  have hd : (x &&& ~~~(BitVec.ofNat w (2 ^ k) - 1#w)) &&& (x &&& (BitVec.ofNat w (2 ^ k) - 1#w)) = 0#w := by
    ext i hi
    simp only [BitVec.getElem_and, BitVec.getElem_not, BitVec.getElem_zero]
    cases x[i] <;> cases (BitVec.ofNat w (2 ^ k) - 1#w)[i] <;> rfl
  have h2 := congrArg BitVec.toNat h
  rw [BitVec.toNat_add_of_and_eq_zero hd, mask_toNat hk] at h2
  omega

theorem alignPtr_eq {w k p : Nat} (hk : k < w) (hp : p + 1 + 2 ^ k < 2 ^ w) :
    alignPtr w p (2 ^ k) = (p + 1 + 2 ^ k) - (p + 1 + 2 ^ k) % 2 ^ k := by
  have h0 : 0 < 2 ^ k := Nat.two_pow_pos k
  unfold alignPtr
  rw [align_toNat hk]
  have hx : (BitVec.ofNat w p + 2#w + (BitVec.ofNat w (2 ^ k) - 1#w)).toNat = p + 1 + 2 ^ k := by
    have hpk : 2 ^ k < 2 ^ w := Nat.pow_lt_pow_right (by decide) hk
    have hw : 1 < 2 ^ w := Nat.one_lt_two_pow (by omega)
    have h1 : (BitVec.ofNat w (2 ^ k) - 1#w).toNat = 2 ^ k - 1 := by
      rw [BitVec.toNat_sub, BitVec.toNat_ofNat, BitVec.toNat_ofNat, Nat.mod_eq_of_lt hpk, Nat.mod_eq_of_lt hw]
      rw [show 2 ^ w - 1 + 2 ^ k = 2 ^ w + (2 ^ k - 1) by omega, Nat.add_mod_left, Nat.mod_eq_of_lt (by omega)]
    have h2 : (2#w).toNat = 2 := by
      rw [BitVec.toNat_ofNat, Nat.mod_eq_of_lt (by omega)]
    rw [BitVec.toNat_add, BitVec.toNat_add, h1, h2, BitVec.toNat_ofNat, Nat.mod_eq_of_lt (by omega : p < 2 ^ w),
      Nat.mod_eq_of_lt (by omega : p + 2 < 2 ^ w), Nat.mod_eq_of_lt (by omega)]
    omega
  rw [hx]

theorem alignPtr_bounds {w k p : Nat} (hk : k < w) (hp : p + 1 + 2 ^ k < 2 ^ w) :
    alignPtr w p (2 ^ k) % 2 ^ k = 0 ∧ p + 2 ≤ alignPtr w p (2 ^ k) ∧ alignPtr w p (2 ^ k) ≤ p + 1 + 2 ^ k := by
  rw [alignPtr_eq hk hp]
  have h0 : 0 < 2 ^ k := Nat.two_pow_pos k
  have := Nat.mod_lt (p + 1 + 2 ^ k) h0
  refine ⟨?_, by omega, by omega⟩
  have h := Nat.div_add_mod (p + 1 + 2 ^ k) (2 ^ k)
  rw [show p + 1 + 2 ^ k - (p + 1 + 2 ^ k) % 2 ^ k = 2 ^ k * ((p + 1 + 2 ^ k) / 2 ^ k) by omega]
  exact Nat.mul_mod_right ..

theorem get16_put16 (mem : Nat → BitVec 8) (a v : Nat) (h : v < 2 ^ 16) : get16 (put16 mem a v) a = v := by
  unfold get16 put16
  simp only [if_true, if_neg (show ¬(a + 1 = a) by omega), BitVec.toNat_ofNat]
  omega

/-! ### the invariant -/

/-- An area in its block. -/
structure Fit (w : Nat) (mem : Nat → BitVec 8) (x : Area) (p cap : Nat) : Prop where
  nz : p ≠ 0
  pos : 0 < cap
  top : p + cap ≤ 2 ^ w
  plain : x.aligned = false → x.ptr = p ∧ x.size ≤ cap ∧ x.align = 1
  algn : x.aligned = true → p + 2 ≤ x.ptr ∧ x.ptr + x.size ≤ p + cap ∧ x.ptr % x.align = 0 ∧ get16 mem (x.ptr - 2) = x.ptr - p ∧ 0 < x.size

abbrev Cell := Area × Nat × Nat

structure Inv (w : Nat) (s : St) (m : List Cell) : Prop where
  areas : s.areas = m.map (·.1)
  live : s.h.live.Perm (m.map (·.2))
  apart : m.Pairwise fun a b => Apart a.2.1 a.2.2 b.2.1 b.2.2
  fit : ∀ c ∈ m, Fit w s.h.mem c.1 c.2.1 c.2.2

theorem Fit.frame {w mem mem' x p cap} (h : Fit w mem x p cap) (hm : ∀ a, p ≤ a → a < p + cap → mem' a = mem a) : Fit w mem' x p cap := by
  refine ⟨h.nz, h.pos, h.top, h.plain, fun ha => ?_⟩
  obtain ⟨h1, h2, h3, h4, h5⟩ := h.algn ha
  refine ⟨h1, h2, h3, ?_, h5⟩
  unfold get16 at *
  rw [hm _ (by omega) (by omega), hm _ (by omega) (by omega)]
  exact h4

theorem Fit.inside {w mem x p cap} (h : Fit w mem x p cap) : p ≤ x.ptr ∧ x.ptr + x.size ≤ p + cap := by
  cases ha : x.aligned
  · have := h.plain ha; omega
  · have := h.algn ha; omega

theorem pairwise_mem {α : Type} {R : α → α → Prop} (hsym : ∀ a b, R a b → R b a) : ∀ {l : List α}, l.Pairwise R → ∀ {a b}, a ∈ l → b ∈ l → a ≠ b → R a b := by
  intro l hl
  induction hl with
  | nil => intro a b ha; cases ha
  | cons h1 _ ih =>
    intro a b ha hb hne
    rcases List.mem_cons.1 ha with ea | ha
    · rcases List.mem_cons.1 hb with eb | hb
      · exact absurd (ea.trans eb.symm) hne
      · exact ea ▸ h1 _ hb
    · rcases List.mem_cons.1 hb with eb | hb
      · exact hsym _ _ (eb ▸ h1 _ ha)
      · exact ih ha hb hne

theorem Inv.apart' {w s m} (h : Inv w s m) {c d : Cell} (hc : c ∈ m) (hd : d ∈ m) (hne : c ≠ d) : Apart c.2.1 c.2.2 d.2.1 d.2.2 :=
  pairwise_mem (R := fun a b => Apart a.2.1 a.2.2 b.2.1 b.2.2) (fun _ _ h => by unfold Apart at *; omega) h.apart hc hd hne

theorem Inv.same_base {w s m} (h : Inv w s m) : ∀ {c d : Cell}, c ∈ m → d ∈ m → c.2.1 = d.2.1 → c = d := by
  intro c d hc hd he
  by_cases hcd : c = d
  · exact hcd
  · have h1 := h.apart' hc hd hcd
    have h2 := (h.fit c hc).pos
    have h3 := (h.fit d hd).pos
    unfold Apart at h1; omega

theorem Inv.same_area {w s m} (h : Inv w s m) {c d : Cell} (hc : c ∈ m) (hd : d ∈ m) (he : c.1 = d.1) : c = d := by
  apply h.same_base hc hd
  have fc := h.fit c hc
  have fd := h.fit d hd
  cases ha : c.1.aligned
  · rw [← (fc.plain ha).1, ← (fd.plain (he ▸ ha)).1, he]
  · have h1 := fc.algn ha
    have h2 := fd.algn (he ▸ ha)
    rw [he] at h1
    apply Classical.byContradiction
    intro hne
    have hcd : c ≠ d := fun e => hne (by rw [e])
    have := h.apart' hc hd hcd
    unfold Apart at this
    omega

theorem Inv.nodup {w s m} (h : Inv w s m) : s.areas.Nodup := by
  rw [h.areas]
  show List.Pairwise (· ≠ ·) _
  rw [List.pairwise_map]
  refine List.Pairwise.imp_of_mem ?_ h.apart
  intro a b ha hb hab heq
  have := h.same_area ha hb heq
  subst this
  have := (h.fit a ha).pos
  unfold Apart at hab; omega

theorem Inv.live_nodup {w s m} (h : Inv w s m) : s.h.live.Nodup := by
  refine (List.Perm.nodup_iff h.live).2 ?_
  show List.Pairwise (· ≠ ·) _
  rw [List.pairwise_map]
  refine List.Pairwise.imp_of_mem ?_ h.apart
  intro a b ha hb hab heq
  have := (h.fit a ha).pos
  rw [← heq] at hab
  unfold Apart at hab; omega

/-- Removing a block. -/
theorem Inv.remove {w s m} (h : Inv w s m) {c : Cell} (hc : c ∈ m) (mem : Nat → BitVec 8) (hm : ∀ d ∈ m, d ≠ c → ∀ a, d.2.1 ≤ a → a < d.2.1 + d.2.2 → mem a = s.h.mem a) :
    Inv w ⟨⟨mem, s.h.live.filter (fun b => b.1 != c.2.1)⟩, s.areas.erase c.1⟩ (m.filter (fun d => d.2.1 != c.2.1)) := by
  refine ⟨?_, ?_, h.apart.filter _, ?_⟩
  · show s.areas.erase c.1 = _
    rw [h.nodup.erase_eq_filter, h.areas, List.filter_map]
    congr 1
    apply List.filter_congr
    intro d hd
    show (d.1 != c.1) = (d.2.1 != c.2.1)
    by_cases e : d = c
    · subst e; simp
    · have h1 : d.1 ≠ c.1 := fun g => e (h.same_area hd hc g)
      have h2 : d.2.1 ≠ c.2.1 := fun g => e (h.same_base hd hc g)
      rw [bne_iff_ne.2 h1, bne_iff_ne.2 h2]
  · have := h.live.filter (fun b => b.1 != c.2.1)
    rw [List.filter_map] at this
    exact this
  · intro d hd
    obtain ⟨hd, he⟩ := List.mem_filter.1 hd
    have hne : d ≠ c := fun e => by rw [e] at he; simp at he
    exact (h.fit d hd).frame (hm d hd hne)

/-- Adding a block. -/
theorem Inv.add {w s m} (h : Inv w s m) {x : Area} {p cap : Nat} {mem : Nat → BitVec 8} (hm : ∀ d ∈ m, ∀ a, d.2.1 ≤ a → a < d.2.1 + d.2.2 → mem a = s.h.mem a)
    (hp : ∀ b ∈ s.h.live, Apart p cap b.1 b.2) (hf : Fit w mem x p cap) :
    Inv w ⟨⟨mem, (p, cap) :: s.h.live⟩, x :: s.areas⟩ ((x, p, cap) :: m) := by
  refine ⟨by rw [h.areas]; rfl, h.live.cons _, List.pairwise_cons.2 ⟨?_, h.apart⟩, ?_⟩
  · intro d hd
    exact hp d.2 (h.live.mem_iff.2 (List.mem_map_of_mem hd))
  · intro d hd
    rcases List.mem_cons.1 hd with rfl | hd
    · exact hf
    · exact (h.fit d hd).frame (hm d hd)

theorem Inv.cell {w s m} (h : Inv w s m) {x : Area} (hx : x ∈ s.areas) : ∃ c ∈ m, c.1 = x := by
  rw [h.areas] at hx
  obtain ⟨c, hc, rfl⟩ := List.mem_map.1 hx
  exact ⟨c, hc, rfl⟩

theorem free_eq {w s m} (h : Inv w s m) {c : Cell} (hc : c ∈ m) : free s.h c.2.1 = some { s.h with live := s.h.live.filter (fun b => b.1 != c.2.1) } := by
  unfold free
  rw [if_neg (h.fit c hc).nz, if_pos]
  rw [List.any_eq_true]
  exact ⟨c.2, h.live.mem_iff.2 (List.mem_map_of_mem hc), by simp⟩

theorem freeAligned_eq {w s m} (h : Inv w s m) {c : Cell} (hc : c ∈ m) (ha : c.1.aligned = true) :
    freeAligned w s.h c.1.ptr = some { s.h with live := s.h.live.filter (fun b => b.1 != c.2.1) } := by
  unfold freeAligned
  obtain ⟨h1, h2, h3, h4, h5⟩ := (h.fit c hc).algn ha
  have ht := (h.fit c hc).top
  rw [h4, show c.1.ptr + 2 ^ w - (c.1.ptr - c.2.1) = 2 ^ w + c.2.1 by omega, Nat.add_mod_left, Nat.mod_eq_of_lt (by have := (h.fit c hc).pos; omega)]
  exact free_eq h hc

theorem find_eq {w s m} (h : Inv w s m) {c : Cell} (hc : c ∈ m) : s.h.live.find? (fun b => b.1 == c.2.1) = some c.2 := by
  cases hf : s.h.live.find? (fun b => b.1 == c.2.1) with
  | none =>
    have := List.find?_eq_none.1 hf c.2 (h.live.mem_iff.2 (List.mem_map_of_mem hc))
    simp at this
  | some b =>
    have h1 := List.find?_some hf
    have h2 := List.mem_of_find?_eq_some hf
    obtain ⟨d, hd, rfl⟩ := List.mem_map.1 (h.live.mem_iff.1 h2)
    rw [h.same_base hd hc (by simpa using h1)]

/-- What `realloc` does to an area in its block. -/
theorem realloc_eq {w s m} (h : Inv w s m) {c : Cell} (hc : c ∈ m) (ha : c.1.aligned = false) (ans : Answer) {n : Nat} (hn : 0 < n)
    (H : Honest w s.h ans) :
    realloc s.h ans c.1.ptr n =
      if c.2.2 % 2 ^ 32 ≥ n then some (some c.2.1, s.h)
      else match ans n with
        | none => some (none, s.h)
        | some (q, cap) => some (some q, ⟨copy s.h.mem q c.2.1 (c.2.2 % 2 ^ 32), (q, cap) :: s.h.live.filter (fun b => b.1 != c.2.1)⟩) := by
  have hp := ((h.fit c hc).plain ha).1
  unfold realloc
  rw [if_neg (by omega), if_neg (by rw [hp]; exact (h.fit c hc).nz), hp, find_eq h hc]
  dsimp only
  split
  · rfl
  · unfold malloc
    cases hq : ans n with
    | none => rfl
    | some a =>
      obtain ⟨q, cap⟩ := a
      dsimp only
      obtain ⟨h1, h2, h3, h4, h5, h6⟩ := H.ok _ _ _ hq
      have hne : q ≠ c.2.1 := by
        intro e
        have := h6 c.2 (h.live.mem_iff.2 (List.mem_map_of_mem hc))
        have := (h.fit c hc).pos
        unfold Apart at *; omega
      unfold free
      rw [if_neg (h.fit c hc).nz, if_pos]
      · show some (some q, (⟨_, List.filter _ _⟩ : Heap)) = _
        rw [List.filter_cons_of_pos (by simpa using hne)]
      · rw [List.any_eq_true]
        exact ⟨c.2, List.mem_cons_of_mem _ (h.live.mem_iff.2 (List.mem_map_of_mem hc)), by simp⟩

theorem memalign_eq {w : Nat} {h : Heap} {ans : Answer} {a n p : Nat} {h' : Heap} (he : memalign w h ans a n = (some p, h')) (hp : Proper w a n) :
    ∃ q cap, ans (n + a + 1) = some (q, cap) ∧ p = alignPtr w q a ∧ 0 < n ∧
      h' = ⟨put16 h.mem (p - 2) ((p - q) % 2 ^ 16), (q, cap) :: h.live⟩ := by
  unfold memalign at he
  have hr := hp.fits
  by_cases hz : a ≠ 0 ∧ n ≠ 0
  · rw [if_pos hz] at he
    dsimp only at he
    rw [show n + (2 + (a - 1)) = n + a + 1 by omega, Nat.mod_eq_of_lt hr] at he
    unfold malloc at he
    cases hq : ans (n + a + 1) with
    | none => rw [hq] at he; cases he
    | some b =>
      obtain ⟨q, cap⟩ := b
      rw [hq] at he
      simp only [Prod.mk.injEq, Option.some.injEq] at he
      obtain ⟨rfl, rfl⟩ := he
      exact ⟨q, cap, rfl, rfl, by omega, rfl⟩
  · rw [if_neg hz] at he; cases he

theorem memalign_none {w : Nat} {h : Heap} {ans : Answer} {a n : Nat} {h' : Heap} (he : memalign w h ans a n = (none, h')) : h' = h := by
  unfold memalign malloc at he
  split at he
  · dsimp only at he
    split at he
    · next e => split at e <;> cases e; cases he; rfl
    · cases he
  · cases he; rfl

theorem malloc_some {h : Heap} {ans : Answer} {n p : Nat} {h' : Heap} (he : malloc h ans n = (some p, h')) :
    ∃ cap, ans n = some (p, cap) ∧ h' = ⟨h.mem, (p, cap) :: h.live⟩ := by
  unfold malloc at he
  split at he
  · cases he
  · next p cap e => cases he; exact ⟨cap, e, rfl⟩

theorem malloc_none {h : Heap} {ans : Answer} {n : Nat} {h' : Heap} (he : malloc h ans n = (none, h')) : h' = h := by
  unfold malloc at he
  split at he
  · cases he; rfl
  · cases he

theorem Inv.live_cell {w s m} (h : Inv w s m) {d : Cell} (hd : d ∈ m) : d.2 ∈ s.h.live := h.live.mem_iff.2 (List.mem_map_of_mem hd)

/-- One step: the invariant goes on, and what stays keeps its contents, unless the step is a write of the client. -/
theorem step_inv {w s s' m} (h : Inv w s m) (hs : Step w s s') :
    (∃ m', Inv w s' m') ∧
    ((∀ y ∈ s.areas, y ∈ s'.areas → ∀ i, i < y.size → s'.h.mem (y.ptr + i) = s.h.mem (y.ptr + i)) ∨
      ∃ x ∈ s.areas, ∃ i v, i < x.size ∧ s'.areas = s.areas ∧ s'.h.mem = (fun a => if a = x.ptr + i then v else s.h.mem a)) := by
  -- outside a block
  have off : ∀ {d : Cell}, d ∈ m → ∀ {p cap : Nat}, Apart p cap d.2.1 d.2.2 → ∀ a, d.2.1 ≤ a → a < d.2.1 + d.2.2 → ¬ (p ≤ a ∧ a < p + cap) := by
    intro d hd p cap hap a h1 h2 h3; unfold Apart at hap; omega
  cases hs with
  | @malloc ans n p h' H he =>
    obtain ⟨cap, hq, rfl⟩ := malloc_some he
    obtain ⟨h1, h2, h3, h4, h5, h6⟩ := H.ok _ _ _ hq
    refine ⟨⟨_, h.add (fun _ _ _ _ _ => rfl) h6 ⟨h1, h4, h5, fun _ => ⟨rfl, h3, rfl⟩, fun e => by cases e⟩⟩, Or.inl fun _ _ _ _ _ => rfl⟩
  | mallocFails H he =>
    obtain rfl := malloc_none he
    exact ⟨⟨m, h⟩, Or.inl fun _ _ _ _ _ => rfl⟩
  | @memalign ans a n p h' H hp he =>
    obtain ⟨q, cap, hq, hpq, hn, rfl⟩ := memalign_eq he hp
    obtain ⟨h1, h2, h3, h4, h5, h6⟩ := H.ok _ _ _ hq
    obtain ⟨k, hk⟩ := hp.pow
    have hfits := hp.fits
    have hsm := hp.small
    have hkw : k < w := by
      rcases Nat.lt_or_ge k w with g | g
      · exact g
      · have := Nat.pow_le_pow_right (n := 2) (by decide) g; rw [← hk] at this; omega
    have hb := alignPtr_bounds (w := w) (k := k) (p := q) hkw (by rw [← hk]; omega)
    rw [← hk, ← hpq] at hb
    obtain ⟨b1, b2, b3⟩ := hb
    have hmod : (p - q) % 2 ^ 16 = p - q := Nat.mod_eq_of_lt (by omega)
    have hmem : ∀ d ∈ m, ∀ x, d.2.1 ≤ x → x < d.2.1 + d.2.2 → put16 s.h.mem (p - 2) ((p - q) % 2 ^ 16) x = s.h.mem x := by
      intro d hd x hx1 hx2
      have := off hd (h6 d.2 (h.live_cell hd)) x hx1 hx2
      unfold put16
      rw [if_neg (by omega), if_neg (by omega)]
    refine ⟨⟨_, h.add hmem h6 ⟨h1, h4, h5, fun e => (by cases e), fun _ => ⟨b2, ?_, b1, ?_, hn⟩⟩⟩, Or.inl ?_⟩
    · show p + n ≤ q + cap; omega
    · show get16 _ (p - 2) = p - q
      rw [get16_put16 _ _ _ (by omega), hmod]
    · intro y hy _ i hi
      obtain ⟨c, hc, rfl⟩ := h.cell hy
      have := (h.fit c hc).inside
      exact hmem c hc _ (by omega) (by omega)
  | memalignFails H hp he =>
    obtain rfl := memalign_none he
    exact ⟨⟨m, h⟩, Or.inl fun _ _ _ _ _ => rfl⟩
  | @free x h' hx ha he =>
    obtain ⟨c, hc, rfl⟩ := h.cell hx
    rw [((h.fit c hc).plain ha).1, free_eq h hc] at he
    cases he
    exact ⟨⟨_, h.remove hc _ fun _ _ _ _ _ _ => rfl⟩, Or.inl fun _ _ _ _ _ => rfl⟩
  | @freeAligned x h' hx ha he =>
    obtain ⟨c, hc, rfl⟩ := h.cell hx
    rw [freeAligned_eq h hc ha] at he
    cases he
    exact ⟨⟨_, h.remove hc _ fun _ _ _ _ _ _ => rfl⟩, Or.inl fun _ _ _ _ _ => rfl⟩
  | @realloc ans x n p h' H hx ha hn he =>
    obtain ⟨c, hc, rfl⟩ := h.cell hx
    rw [realloc_eq h hc ha ans hn H] at he
    split at he
    · next hge =>
      simp only [Option.some.injEq, Prod.mk.injEq] at he
      obtain ⟨rfl, rfl⟩ := he
      have hle : c.2.2 % 2 ^ 32 ≤ c.2.2 := Nat.mod_le ..
      refine ⟨?_, Or.inl fun _ _ _ _ _ => rfl⟩
      have hr := h.remove hc s.h.mem fun _ _ _ _ _ _ => rfl
      have hf := h.fit c hc
      -- the block is the same, the area has a new size: rebuild by removal and addition
      have key : Inv w ⟨⟨s.h.mem, c.2 :: s.h.live.filter (fun b => b.1 != c.2.1)⟩, ⟨c.2.1, n, 1, false⟩ :: s.areas.erase c.1⟩
          ((⟨c.2.1, n, 1, false⟩, c.2) :: m.filter (fun d => d.2.1 != c.2.1)) := by
        refine hr.add (fun _ _ _ _ _ => rfl) ?_ ⟨hf.nz, hf.pos, hf.top, fun _ => ⟨rfl, ?_, rfl⟩, fun e => by cases e⟩
        · intro b hb
          obtain ⟨hb, hne⟩ := List.mem_filter.1 hb
          obtain ⟨d, hd, rfl⟩ := List.mem_map.1 (h.live.mem_iff.1 hb)
          have : c ≠ d := fun e => by rw [e] at hne; simp at hne
          exact h.apart' hc hd this
        · show n ≤ c.2.2; omega
      refine ⟨_, key.areas, ?_, key.apart, key.fit⟩
      refine List.Perm.trans ?_ key.live
      have hnd : s.h.live.Nodup := h.live_nodup
      have := List.perm_cons_erase (h.live_cell hc)
      rw [hnd.erase_eq_filter] at this
      refine this.trans (List.Perm.of_eq ?_)
      show _ = c.2 :: _
      congr 1
      apply List.filter_congr
      intro b hb
      obtain ⟨d, hd, rfl⟩ := List.mem_map.1 (h.live.mem_iff.1 hb)
      by_cases e : d = c
      · subst e; simp
      · have h2 : d.2.1 ≠ c.2.1 := fun g => e (h.same_base hd hc g)
        rw [bne_iff_ne.2 h2, bne_iff_ne.2 (fun g => h2 (by rw [g]))]
    · next hlt =>
      split at he
      · simp at he
      · next q cap hq =>
        simp only [Option.some.injEq, Prod.mk.injEq] at he
        obtain ⟨rfl, rfl⟩ := he
        obtain ⟨h1, h2, h3, h4, h5, h6⟩ := H.ok _ _ _ hq
        have hmem : ∀ d ∈ m, ∀ a, d.2.1 ≤ a → a < d.2.1 + d.2.2 → copy s.h.mem q c.2.1 (c.2.2 % 2 ^ 32) a = s.h.mem a := by
          intro d hd a ha1 ha2
          have := off hd (h6 d.2 (h.live_cell hd)) a ha1 ha2
          unfold copy
          rw [if_neg (by omega)]
        have hr := h.remove hc (copy s.h.mem q c.2.1 (c.2.2 % 2 ^ 32)) fun d hd _ => hmem d hd
        refine ⟨⟨_, hr.add (fun _ _ _ _ _ => rfl) ?_ ⟨h1, h4, h5, fun _ => ⟨rfl, h3, rfl⟩, fun e => by cases e⟩⟩, Or.inl ?_⟩
        · intro b hb
          exact h6 b (List.mem_filter.1 hb).1
        · intro y hy _ i hi
          obtain ⟨d, hd, rfl⟩ := h.cell hy
          have := (h.fit d hd).inside
          exact hmem d hd _ (by omega) (by omega)
  | @reallocFails ans x n h' H hx ha hn he =>
    obtain ⟨c, hc, rfl⟩ := h.cell hx
    rw [realloc_eq h hc ha ans hn H] at he
    split at he
    · simp at he
    · split at he
      · simp only [Option.some.injEq, Prod.mk.injEq, true_and] at he
        rw [← he]
        exact ⟨⟨m, h⟩, Or.inl fun _ _ _ _ _ => rfl⟩
      · simp at he
  | @write x i v hx hi =>
    refine ⟨⟨m, h.areas, h.live, h.apart, ?_⟩, Or.inr ⟨x, hx, i, v, hi, rfl, rfl⟩⟩
    intro d hd
    obtain ⟨c, hc, rfl⟩ := h.cell hx
    have hf := h.fit d hd
    have hi' := (h.fit c hc).inside
    by_cases e : d = c
    · subst e
      refine ⟨hf.nz, hf.pos, hf.top, hf.plain, fun ha => ?_⟩
      obtain ⟨g1, g2, g3, g4, g5⟩ := hf.algn ha
      refine ⟨g1, g2, g3, ?_, g5⟩
      rw [← g4]
      unfold get16
      dsimp only
      rw [if_neg (by omega), if_neg (by omega)]
    · refine hf.frame ?_
      intro a ha1 ha2
      have := h.apart' hd hc e
      unfold Apart at this
      show (if a = _ then v else s.h.mem a) = s.h.mem a
      rw [if_neg (by omega)]

theorem reach_inv {w s} (h : Reach w s) : ∃ m, Inv w s m := by
  induction h with
  | init => exact ⟨[], rfl, .nil, .nil, fun _ h => by cases h⟩
  | step _ hs ih =>
    obtain ⟨m, hm⟩ := ih
    exact (step_inv hm hs).1

end WS.Alloc
