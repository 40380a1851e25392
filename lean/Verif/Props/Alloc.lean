import Verif.Proof.Alloc
/-
C74: the built-in allocators.
-/
namespace WS.Props
open WS WS.Alloc

/-- C74: in every history of calls the areas the client owns are in the address space, not NULL, aligned as asked, and no two of them
have a byte in common. -/
theorem C74_areas (w : Nat) (s : St) (h : Reach w s) :
    (∀ x ∈ s.areas, x.ptr ≠ 0 ∧ x.ptr + x.size ≤ 2 ^ w ∧ x.ptr % x.align = 0) ∧
    s.areas.Pairwise (fun x y => Apart x.ptr x.size y.ptr y.size) := by
  obtain ⟨m, hm⟩ := reach_inv h
  constructor
  · intro x hx
    obtain ⟨c, hc, rfl⟩ := hm.cell hx
    have hf := hm.fit c hc
    have hi := hf.inside
    have := hf.nz
    have := hf.top
    refine ⟨by omega, by omega, ?_⟩
    cases ha : c.1.aligned
    · rw [(hf.plain ha).2.2]; exact Nat.mod_one _
    · exact (hf.algn ha).2.2.1
  · rw [hm.areas, List.pairwise_map]
    refine List.Pairwise.imp_of_mem ?_ hm.apart
    intro a b ha hb hab
    have h1 := (hm.fit a ha).inside
    have h2 := (hm.fit b hb).inside
    unfold Apart at *; omega

/-- C74: whatever the client owns it can give back, and that gives the platform exactly one block back. -/
theorem C74_give_back (w : Nat) (s : St) (h : Reach w s) (x : Area) (hx : x ∈ s.areas) :
    ∃ h', (if x.aligned then freeAligned w s.h x.ptr else Alloc.free s.h x.ptr) = some h' ∧ h'.live.length + 1 = s.h.live.length ∧ h'.mem = s.h.mem := by
  obtain ⟨m, hm⟩ := reach_inv h
  obtain ⟨c, hc, rfl⟩ := hm.cell hx
  refine ⟨{ s.h with live := s.h.live.filter (fun b => b.1 != c.2.1) }, ?_, ?_, rfl⟩
  · cases ha : c.1.aligned
    · rw [if_neg (by decide), ((hm.fit c hc).plain ha).1]; exact free_eq hm hc
    · rw [if_pos rfl]; exact freeAligned_eq hm hc ha
  · have hr := hm.remove hc s.h.mem fun _ _ _ _ _ _ => rfl
    have h1 := hr.live.length_eq
    have h2 := hm.live.length_eq
    have h3 : (s.areas.erase c.1).length = (List.map (·.1) (m.filter (fun d => d.2.1 != c.2.1))).length := congrArg List.length hr.areas
    rw [List.length_erase_of_mem hx, hm.areas] at h3
    have h4 := List.length_pos_of_mem hc
    simp only [List.length_map] at h1 h2 h3
    show (s.h.live.filter _).length + 1 = _
    rw [show (s.h.live.filter (fun b => b.1 != c.2.1)).length = _ from h1]
    omega

/-- C74: the platform's blocks are as many as the client's areas: nothing leaks. -/
theorem C74_no_leak (w : Nat) (s : St) (h : Reach w s) : s.h.live.length = s.areas.length := by
  obtain ⟨m, hm⟩ := reach_inv h
  rw [hm.live.length_eq, hm.areas, List.length_map, List.length_map]

/-- C74: no call changes the contents of an area the client keeps; a write changes one byte of one area. -/
theorem C74_contents (w : Nat) (s s' : St) (h : Reach w s) (hs : Alloc.Step w s s') :
    (∀ y ∈ s.areas, y ∈ s'.areas → ∀ i, i < y.size → s'.h.mem (y.ptr + i) = s.h.mem (y.ptr + i)) ∨
    ∃ x ∈ s.areas, ∃ i v, i < x.size ∧ s'.areas = s.areas ∧
      ∀ y ∈ s.areas, ∀ j, j < y.size → s'.h.mem (y.ptr + j) = if y = x ∧ j = i then v else s.h.mem (y.ptr + j) := by
  obtain ⟨m, hm⟩ := reach_inv h
  rcases (step_inv hm hs).2 with g | ⟨x, hx, i, v, hi, ha, hmem⟩
  · exact Or.inl g
  · refine Or.inr ⟨x, hx, i, v, hi, ha, ?_⟩
    intro y hy j hj
    rw [hmem]
    show (if y.ptr + j = x.ptr + i then v else s.h.mem (y.ptr + j)) = _
    by_cases e : y = x
    · subst e
      by_cases e2 : j = i
      · rw [if_pos (by omega), if_pos ⟨rfl, e2⟩]
      · rw [if_neg (by omega), if_neg (by rintro ⟨-, g⟩; exact e2 g)]
    · rw [if_neg, if_neg (by rintro ⟨g, -⟩; exact e g)]
      obtain ⟨c, hc, rfl⟩ := hm.cell hx
      obtain ⟨d, hd, rfl⟩ := hm.cell hy
      have h1 := (hm.fit c hc).inside
      have h2 := (hm.fit d hd).inside
      have h3 := hm.apart' hd hc (fun g => e (by rw [g]))
      unfold Apart at h3; omega

/-- C74: `realloc` keeps the contents up to the smaller of the two sizes.  Partial: the blocks have fewer than 2³² bytes (always so with a
32-bit `size_t`); see `C74_finding_realloc_truncates`. -/
theorem C74_realloc_contents_partial (w : Nat) (s : St) (h : Reach w s) (ans : Answer) (H : Honest w s.h ans) (x : Area) (hx : x ∈ s.areas)
    (ha : x.aligned = false) (n : Nat) (hn : 0 < n) (p : Nat) (h' : Heap) (he : realloc s.h ans x.ptr n = some (some p, h'))
    (hsmall : ∀ b ∈ s.h.live, b.2 < 2 ^ 32) :
    ∀ i, i < x.size → i < n → h'.mem (p + i) = s.h.mem (x.ptr + i) := by
  obtain ⟨m, hm⟩ := reach_inv h
  obtain ⟨c, hc, rfl⟩ := hm.cell hx
  have hp := (hm.fit c hc).plain ha
  rw [realloc_eq hm hc ha ans hn H, Nat.mod_eq_of_lt (hsmall c.2 (hm.live_cell hc))] at he
  intro i hi1 hi2
  split at he
  · simp only [Option.some.injEq, Prod.mk.injEq] at he
    obtain ⟨rfl, rfl⟩ := he
    rw [hp.1]
  · split at he
    · simp at he
    · simp only [Option.some.injEq, Prod.mk.injEq] at he
      obtain ⟨rfl, rfl⟩ := he
      show copy _ _ _ _ _ = _
      unfold copy
      rw [if_pos (by omega), hp.1]
      congr 1; omega

/-- C74: on a 32-bit platform without conditions. -/
theorem C74_realloc_contents_32 (s : St) (h : Reach 32 s) (ans : Answer) (H : Honest 32 s.h ans) (x : Area) (hx : x ∈ s.areas)
    (ha : x.aligned = false) (n : Nat) (hn : 0 < n) (p : Nat) (h' : Heap) (he : realloc s.h ans x.ptr n = some (some p, h')) :
    ∀ i, i < x.size → i < n → h'.mem (p + i) = s.h.mem (x.ptr + i) := by
  refine C74_realloc_contents_partial 32 s h ans H x hx ha n hn p h' he ?_
  obtain ⟨m, hm⟩ := reach_inv h
  intro b hb
  obtain ⟨d, hd, rfl⟩ := List.mem_map.1 (hm.live.mem_iff.1 hb)
  have := (hm.fit d hd).top
  have := (hm.fit d hd).nz
  omega

/-- C74: `realloc` never does anything undefined, and when it fails everything is as it was. -/
theorem C74_realloc_total (w : Nat) (s : St) (h : Reach w s) (ans : Answer) (H : Honest w s.h ans) (x : Area) (hx : x ∈ s.areas)
    (ha : x.aligned = false) (n : Nat) (hn : 0 < n) :
    ∃ r h', realloc s.h ans x.ptr n = some (r, h') ∧ (r = none → h' = s.h) := by
  obtain ⟨m, hm⟩ := reach_inv h
  obtain ⟨c, hc, rfl⟩ := hm.cell hx
  rw [realloc_eq hm hc ha ans hn H]
  split
  · exact ⟨_, _, rfl, fun e => by cases e⟩
  · split
    · exact ⟨_, _, rfl, fun _ => rfl⟩
    · exact ⟨_, _, rfl, fun e => by cases e⟩

/-- C74: `realloc` to nothing frees, `realloc` of NULL allocates. -/
theorem C74_realloc_edges (h : Heap) (ans : Answer) (p n : Nat) :
    realloc h ans p 0 = (Alloc.free h p).map (fun h => (none, h)) ∧ (0 < n → realloc h ans 0 n = some (Alloc.malloc h ans n)) := by
  refine ⟨by unfold realloc; rw [if_pos rfl], fun hn => ?_⟩
  unfold realloc
  rw [if_neg (by omega), if_pos rfl]

/-- C74: for a proper alignment and size, `memalign` succeeds exactly when the platform has the memory. -/
theorem C74_memalign_succeeds (w : Nat) (h : Heap) (ans : Answer) (a n : Nat) (hp : Proper w a n) (hn : 0 < n) :
    (memalign w h ans a n).1.isSome = (ans (n + a + 1)).isSome := by
  obtain ⟨k, hk⟩ := hp.pow
  have := Nat.two_pow_pos k
  have hf := hp.fits
  unfold memalign
  rw [if_pos ⟨by omega, by omega⟩]
  dsimp only
  rw [show n + (2 + (a - 1)) = n + a + 1 by omega, Nat.mod_eq_of_lt hf]
  unfold malloc
  cases hq : ans (n + a + 1) with
  | none => rfl
  | some b => rfl

/-- C74, finding: the sum of size and header is not checked.  A request for 2³²−5 bytes aligned to 8 is answered with an address in a
block of 4 bytes. -/
theorem C74_finding_memalign_overflow : ∃ ans : Answer, Honest 32 {} ans ∧
    ∃ h, memalign 32 {} ans 8 (2 ^ 32 - 5) = (some 1032, h) ∧ h.live = [(1024, 4)] := by
  refine ⟨fun n => if n ≤ 4 then some (1024, 4) else none, ⟨?_⟩, _, rfl, rfl⟩
  intro n p cap h
  split at h
  · next g => cases h; exact ⟨by decide, by decide, g, by decide, by decide, fun b hb => by cases hb⟩
  · cases h

/-- C74, finding: an alignment that is not a power of two is accepted: asked for 12, the address here is 1028, no multiple of 12. -/
theorem C74_finding_memalign_not_power : ∃ ans : Answer, Honest 32 {} ans ∧ ∃ h, memalign 32 {} ans 12 10 = (some 1028, h) := by
  refine ⟨fun n => if n ≤ 64 then some (1024, 64) else none, ⟨?_⟩, _, rfl⟩
  intro n p cap h
  split at h
  · next g => cases h; exact ⟨by decide, by decide, g, by decide, by decide, fun b hb => by cases hb⟩
  · cases h

/-- C74, finding: the offset in front of the area has 16 bits.  An area aligned to 2¹⁷ bytes may not be given back: what is freed is no
block. -/
theorem C74_finding_memalign_offset : ∃ ans : Answer, Honest 32 {} ans ∧
    ∃ h, memalign 32 {} ans (2 ^ 17) 16 = (some (2 ^ 18), h) ∧ freeAligned 32 h (2 ^ 18) = none := by
  refine ⟨fun n => if n ≤ 2 ^ 18 then some (2 ^ 17, 2 ^ 18) else none, ⟨?_⟩, _, rfl, by decide +kernel⟩
  intro n p cap h
  split at h
  · next g => cases h; exact ⟨by decide, by decide, g, by decide, by decide, fun b hb => by cases hb⟩
  · cases h

/-- C74, finding: `realloc` keeps the size of the old block in 32 bits.  With a 64-bit `size_t`, a block of 2³²+8 bytes made larger keeps 8
bytes of its contents. -/
theorem C74_finding_realloc_truncates : ∃ (h : Heap) (ans : Answer), h.live = [(4096, 2 ^ 32 + 8)] ∧ Honest 64 h ans ∧
    ∃ q h', realloc h ans 4096 (2 ^ 32 + 9) = some (some q, h') ∧ h'.mem (q + 8) ≠ h.mem (4096 + 8) := by
  refine ⟨⟨fun a => if a = 4104 then 7 else 0, [(4096, 2 ^ 32 + 8)]⟩, fun n => if n ≤ 2 ^ 33 then some (2 ^ 40, 2 ^ 33) else none, rfl, ⟨?_⟩, 2 ^ 40, _, rfl, ?_⟩
  · intro n p cap h
    split at h
    · next g =>
      cases h
      exact ⟨by decide, by decide, g, by decide, by decide, fun b hb => by rw [List.mem_singleton.1 hb]; unfold Apart; omega⟩
    · cases h
  · decide +kernel

/-! A history that uses every call. -/

def allocAns (p cap : Nat) : Answer := fun n => if n ≤ cap then some (p, cap) else none

theorem alloc_honest {w : Nat} {h : Heap} {p cap : Nat} (h1 : p ≠ 0) (h2 : p % 2 = 0) (h3 : 0 < cap) (h4 : p + cap ≤ 2 ^ w)
    (h5 : ∀ b ∈ h.live, Apart p cap b.1 b.2) : Honest w h (allocAns p cap) := by
  refine ⟨fun n q c he => ?_⟩
  unfold allocAns at he
  split at he
  · next g => cases he; exact ⟨h1, h2, g, h3, h4, h5⟩
  · cases he

/-- An aligned area and a plain one, the latter written and made larger. -/
example : ∃ s, Reach 32 s ∧ s.areas = [⟨4096, 100, 1, false⟩, ⟨1056, 40, 32, true⟩] ∧ s.h.mem 4099 = 9 := by
  have s1 : Reach 32 ⟨⟨put16 (fun _ => 0) 1054 32, [(1024, 128)]⟩, [⟨1056, 40, 32, true⟩]⟩ :=
    .step .init (.memalign (ans := allocAns 1024 128) (a := 32) (n := 40) (alloc_honest (by decide) (by decide) (by decide) (by decide) (fun _ h => by cases h))
      ⟨⟨5, rfl⟩, by decide, by decide⟩ rfl)
  have s2 := Reach.step s1 (.malloc (ans := allocAns 2048 16) (n := 10) (alloc_honest (by decide) (by decide) (by decide) (by decide)
    (fun b h => by rw [List.mem_singleton.1 h]; unfold Apart; omega)) rfl)
  have s3 := Reach.step s2 (.write (x := ⟨2048, 10, 1, false⟩) (i := 3) (v := 9) (List.mem_cons_self ..) (by decide))
  have s4 := Reach.step s3 (.realloc (ans := allocAns 4096 128) (x := ⟨2048, 10, 1, false⟩) (n := 100) (alloc_honest (by decide) (by decide) (by decide) (by decide)
    (fun b h => by
      rcases List.mem_cons.1 h with rfl | h
      · unfold Apart; omega
      · rw [List.mem_singleton.1 h]; unfold Apart; omega)) (List.mem_cons_self ..) rfl (by decide) rfl)
  exact ⟨_, s4, rfl, by decide +kernel⟩

end WS.Props
