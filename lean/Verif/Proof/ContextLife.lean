import Verif.Spec.ContextLife
import Verif.Props.RefCount
/-
Lemmas for C82.
-/
namespace WS.CL
open WS.RC WS.Spec WS.Spec.CL WS.Props

theorem pending_congr {h h' : Heap} (n : Nat) (hr : ∀ y, y < n → (h'.objs y).refs = (h.objs y).refs) (k : Nat)
    (hd : h'.dropping.length + k = h.dropping.length) : pending h' n + k = pending h n := by
  induction n with
  | zero => simpa [pending] using hd
  | succ n ih =>
    simp only [pending]
    rw [hr n (by omega)]
    have := ih (fun y hy => hr y (by omega))
    omega

/-- The references of one object become pending drops. -/
theorem pending_move {h h' : Heap} (n x : Nat) (hx : x < n) (hr : ∀ y, y ≠ x → (h'.objs y).refs = (h.objs y).refs)
    (hx0 : (h'.objs x).refs = []) (hd : h'.dropping.length + 1 = (h.objs x).refs.length + h.dropping.length) :
    pending h' n + 1 = pending h n := by
  induction n with
  | zero => omega
  | succ n ih =>
    simp only [pending]
    by_cases hxn : x = n
    · subst hxn
      rw [hx0]
      have : ∀ m, m ≤ x → pending h' m + 1 = (h.objs x).refs.length + pending h m := by
        intro m
        induction m with
        | zero => intro _; simpa [pending] using hd
        | succ m ihm =>
          intro hm
          simp only [pending]
          rw [hr m (by omega)]
          have := ihm (by omega)
          omega
      have := this x (Nat.le_refl _)
      simp only [List.length_nil]
      omega
    · rw [hr n (fun h => hxn h.symm)]
      have := ih (by omega)
      omega

/-- One pending drop. -/
theorem dec_props {h : Heap} (hr : Reach h) {x : Nat} (hx : x ∈ h.dropping) :
    Reach (decrement h x).1 ∧ (decrement h x).1.next = h.next ∧ (decrement h x).1.handles = h.handles ∧
    (∀ y, ((decrement h x).1.objs y).inTable = (h.objs y).inTable) ∧
    (∀ y, ((decrement h x).1.objs y).live = true → ((decrement h x).1.objs y).refs = (h.objs y).refs) ∧
    pending (decrement h x).1 h.next + 1 = pending h h.next := by
  have hi := reach_inv hr
  have hpos := hi.enabled_pos (.decrement x) hx
  have hlt := hi.lt_next hpos
  have hlen : (h.dropping.erase x).length + 1 = h.dropping.length := by
    rw [List.length_erase_of_mem hx]
    have := List.length_pos_of_mem hx
    omega
  refine ⟨Reach.step h (.decrement x) hr hx, ?_⟩
  unfold decrement
  simp only
  rw [if_neg (by omega)]
  split
  · refine ⟨rfl, rfl, ?_, ?_, ?_⟩
    · intro y; simp only [Heap.setObj]; split
      · next e => rw [e]
      · rfl
    · intro y _; simp only [Heap.setObj]; split
      · next e => rw [e]
      · rfl
    · apply pending_congr
      · intro y _; simp only [Heap.setObj]; split
        · next e => rw [e]
        · rfl
      · exact hlen
  · refine ⟨rfl, rfl, ?_, ?_, ?_⟩
    · intro y; simp only [Heap.setObj]; split
      · next e => rw [e]
      · rfl
    · intro y hl; simp only [Heap.setObj] at hl ⊢; split at hl
      · cases hl
      · next e => rw [if_neg e]
    · apply pending_move _ x hlt
      · intro y hy; simp only [Heap.setObj]; rw [if_neg hy]
      · simp [Heap.setObj]
      · simp only [Heap.setObj, List.length_append]; omega

theorem drain_props (n : Nat) : ∀ (h : Heap), Reach h → pending h h.next ≤ n →
    Reach (drain n h) ∧ (drain n h).next = h.next ∧ (drain n h).handles = h.handles ∧
    (∀ y, ((drain n h).objs y).inTable = (h.objs y).inTable) ∧
    (∀ y, ((drain n h).objs y).live = true → (h.objs y).live = true ∧ ((drain n h).objs y).refs = (h.objs y).refs) ∧
    (drain n h).dropping = [] := by
  have zero : ∀ (h : Heap) m, pending h m = 0 → h.dropping = [] := by
    intro h m
    induction m with
    | zero => intro hp; exact List.length_eq_zero_iff.1 hp
    | succ m ih => intro hp; simp only [pending] at hp; exact ih (by omega)
  induction n with
  | zero =>
    intro h hr hp
    exact ⟨hr, rfl, rfl, fun _ => rfl, fun _ hl => ⟨hl, rfl⟩, zero h h.next (by omega)⟩
  | succ n ih =>
    intro h hr hp
    unfold drain
    cases hd : h.dropping with
    | nil => exact ⟨hr, rfl, rfl, fun _ => rfl, fun _ hl => ⟨hl, rfl⟩, hd⟩
    | cons x xs =>
      dsimp only
      have hx : x ∈ h.dropping := by rw [hd]; simp
      obtain ⟨r1, r2, r3, r4, r5, r6⟩ := dec_props hr hx
      obtain ⟨i1, i2, i3, i4, i5, i6⟩ := ih _ r1 (by rw [r2]; omega)
      refine ⟨i1, i2.trans r2, i3.trans r3, fun y => (i4 y).trans (r4 y), ?_, i6⟩
      intro y hl
      obtain ⟨a, b⟩ := i5 y hl
      refine ⟨?_, b.trans (r5 y a)⟩
      -- a decrement brings nothing to life
      unfold decrement at a
      simp only at a
      split at a
      · exact a
      · split at a
        · simp only [Heap.setObj] at a
          split at a
          · next e => rw [e]; exact a
          · exact a
        · simp only [Heap.setObj] at a
          split at a
          · cases a
          · exact a

/-- What a stretch of giving up references does: nothing new comes to life, references of what lives stay. -/
structure Frees (h h' : Heap) : Prop where
  reach : Reach h'
  quiet : h'.dropping = []
  lives : ∀ y, (h'.objs y).live = true → (h.objs y).live = true ∧ (h'.objs y).refs = (h.objs y).refs

theorem Frees.trans {a b c : Heap} (h1 : Frees a b) (h2 : Frees b c) : Frees a c :=
  ⟨h2.reach, h2.quiet, fun y hl => ⟨(h1.lives y (h2.lives y hl).1).1, (h2.lives y hl).2.trans (h1.lives y (h2.lives y hl).1).2⟩⟩

theorem freeEnt_props {h : Heap} (hr : Reach h) {x : Nat} (hx : (h.objs x).inTable = true) :
    Frees h (freeEnt h x) ∧ (freeEnt h x).handles = h.handles ∧
    (∀ y, ((freeEnt h x).objs y).inTable = ((h.objs y).inTable && !(y == x))) := by
  have h1 : Reach (RC.step h (.removeTable x)).1 := Reach.step h (.removeTable x) hr hx
  obtain ⟨i1, i2, i3, i4, i5, i6⟩ := drain_props _ _ h1 (Nat.le_refl _)
  unfold freeEnt
  dsimp only
  refine ⟨⟨i1, i6, ?_⟩, ?_, ?_⟩
  · intro y hl
    obtain ⟨a, b⟩ := i5 y hl
    rw [b]
    simp only [RC.step, Heap.setObj] at a ⊢
    split at a
    · next e => subst e; exact ⟨a, by rw [if_pos rfl]⟩
    · next e => exact ⟨a, by rw [if_neg e]⟩
  · rw [i3]; rfl
  · intro y
    rw [i4]
    simp only [RC.step, Heap.setObj]
    split
    · next e => simp [e]
    · next e => simp [e]

theorem freeEnts_props (xs : List Nat) : ∀ (h : Heap), Reach h → h.dropping = [] → xs.Nodup → (∀ x ∈ xs, (h.objs x).inTable = true) →
    Frees h (freeEnts h xs) ∧ (freeEnts h xs).handles = h.handles ∧
    (∀ y, ((freeEnts h xs).objs y).inTable = ((h.objs y).inTable && !(xs.contains y))) := by
  induction xs with
  | nil => intro h hr hq _ _; exact ⟨⟨hr, hq, fun y hl => ⟨hl, rfl⟩⟩, rfl, fun y => by simp [freeEnts]⟩
  | cons x xs ih =>
    intro h hr hq hn hx
    obtain ⟨f1, f2, f3⟩ := freeEnt_props hr (hx x (by simp))
    obtain ⟨g1, g2, g3⟩ := ih _ f1.reach f1.quiet (List.nodup_cons.1 hn).2 (by
      intro y hy
      rw [f3, hx y (by simp [hy])]
      have : y ≠ x := by rintro rfl; exact (List.nodup_cons.1 hn).1 hy
      simp [this])
    have he : freeEnts h (x :: xs) = freeEnts (freeEnt h x) xs := rfl
    rw [he]
    refine ⟨f1.trans g1, g2.trans f2, ?_⟩
    intro y
    rw [g3, f3]
    by_cases h1 : y = x <;> by_cases h2 : xs.contains y <;> simp_all

theorem giveUp_props {h : Heap} (hr : Reach h) (hq : h.dropping = []) (e : Option Nat) (he : ∀ x, e.toList.count x ≤ h.handles x) :
    Frees h (giveUp h e) ∧ (∀ x, (giveUp h e).handles x = h.handles x - e.toList.count x) ∧
    (∀ y, ((giveUp h e).objs y).inTable = (h.objs y).inTable) := by
  cases e with
  | none => exact ⟨⟨hr, hq, fun y hl => ⟨hl, rfl⟩⟩, fun x => by simp [giveUp], fun y => rfl⟩
  | some x =>
    have hx : 0 < h.handles x := by have := he x; simp at this; omega
    have h1 : Reach (RC.step h (.giveUp x)).1 := Reach.step h (.giveUp x) hr hx
    obtain ⟨i1, i2, i3, i4, i5, i6⟩ := drain_props _ _ h1 (Nat.le_refl _)
    unfold giveUp
    dsimp only
    refine ⟨⟨i1, i6, fun y hl => i5 y hl⟩, ?_, fun y => i4 y⟩
    intro y
    rw [i3]
    simp only [RC.step, Heap.setHandles]
    by_cases hy : y = x
    · subst hy; simp
    · rw [if_neg hy]
      have : List.count y (Option.toList (some x)) = 0 := by simp [Ne.symm hy]
      omega

/-- What is left after every table was emptied and the rule table gave up its references. -/
theorem shutdown_heap {w : World} (hs : Settled w) {h6 : Heap}
    (h : h6 = giveUp (giveUp (freeEnts (freeEnts (freeEnts (freeEnts (freeEnts w.heap w.routes) w.actions) w.events) w.values) w.families) w.fallthrough) w.default) :
    Frees w.heap h6 ∧ (∀ x, h6.handles x = w.heap.handles x - (own w).count x) ∧ (∀ y, (h6.objs y).inTable = false) := by
  have hall : freeEnts (freeEnts (freeEnts (freeEnts (freeEnts w.heap w.routes) w.actions) w.events) w.values) w.families
      = freeEnts w.heap (entries w) := by
    unfold freeEnts entries
    simp only [List.foldl_append]
  rw [hall] at h
  obtain ⟨f1, f2, f3⟩ := freeEnts_props (entries w) w.heap hs.reach hs.quiet hs.nodup (fun x hx => (hs.marked x).2 hx)
  have hcount : ∀ x, (own w).count x = w.fallthrough.toList.count x + w.default.toList.count x := by
    intro x; unfold own; rw [List.count_append]
  obtain ⟨g1, g2, g3⟩ := giveUp_props f1.reach f1.quiet w.fallthrough (by
    intro x; rw [f2]; have := hs.owned x; rw [hcount] at this; omega)
  obtain ⟨k1, k2, k3⟩ := giveUp_props g1.reach g1.quiet w.default (by
    intro x; rw [g2, f2]; have := hs.owned x; rw [hcount] at this; omega)
  rw [h]
  refine ⟨(f1.trans g1).trans k1, ?_, ?_⟩
  · intro x; rw [k2, g2, f2, hcount]; omega
  · intro y
    rw [k3, g3, f3]
    by_cases hy : (w.heap.objs y).inTable = true
    · have := (hs.marked y).1 hy
      simp [this]
    · simp at hy; simp [hy]

/-- An object that refers to itself is not freed by a decrement. -/
theorem self_dec {h : Heap} (hr : Reach h) {x k : Nat} (hk : k ∈ h.dropping) (hx : x ∈ (h.objs x).refs) :
    x ∈ ((RC.decrement h k).1.objs x).refs := by
  have hi := reach_inv hr
  unfold RC.decrement
  dsimp only
  split
  · exact hx
  · split
    · simp only [Heap.setObj]
      split
      · next e => subst e; exact hx
      · exact hx
    · next h0 h1 =>
      simp only [Heap.setObj]
      split
      · next e =>
        subst e
        exfalso
        have h2 := hi.count x
        have h3 := (hi.refs_lt hx).2
        have h4 := List.count_pos_iff.2 hk
        unfold total at h2
        omega
      · exact hx

theorem self_drain {x : Nat} (n : Nat) : ∀ (h : Heap), Reach h → x ∈ (h.objs x).refs → x ∈ ((drain n h).objs x).refs := by
  induction n with
  | zero => intro h _ hx; exact hx
  | succ n ih =>
    intro h hr hx
    unfold drain
    cases hd : h.dropping with
    | nil => exact hx
    | cons k ks =>
      dsimp only
      have hk : k ∈ h.dropping := by rw [hd]; simp
      exact ih _ (dec_props hr hk).1 (self_dec hr hk hx)

theorem self_freeEnts {x : Nat} (xs : List Nat) : ∀ (h : Heap), Reach h → xs.Nodup → (∀ y ∈ xs, (h.objs y).inTable = true) →
    x ∈ (h.objs x).refs → x ∈ ((freeEnts h xs).objs x).refs := by
  induction xs with
  | nil => intro h _ _ _ hx; exact hx
  | cons k xs ih =>
    intro h hr hn hk hx
    obtain ⟨f1, f2, f3⟩ := freeEnt_props hr (hk k (by simp))
    have he : freeEnts h (k :: xs) = freeEnts (freeEnt h k) xs := rfl
    rw [he]
    refine ih _ f1.reach (List.nodup_cons.1 hn).2 ?_ ?_
    · intro y hy
      rw [f3, hk y (by simp [hy])]
      have : y ≠ k := by rintro rfl; exact (List.nodup_cons.1 hn).1 hy
      simp [this]
    · unfold freeEnt
      refine self_drain _ _ (Reach.step h (.removeTable k) hr (hk k (by simp))) ?_
      simp only [RC.step, Heap.setObj]
      split
      · next e => subst e; exact hx
      · exact hx

theorem self_giveUp {x : Nat} {h : Heap} (hr : Reach h) (e : Option Nat) (he : ∀ y, e.toList.count y ≤ h.handles y)
    (hx : x ∈ (h.objs x).refs) : x ∈ ((giveUp h e).objs x).refs := by
  cases e with
  | none => exact hx
  | some k =>
    have hk : 0 < h.handles k := by have := he k; simp at this; omega
    unfold giveUp
    exact self_drain _ _ (Reach.step h (.giveUp k) hr hk) hx

theorem self_shutdown {w : World} (hs : Settled w) {x : Nat} (hx : x ∈ (w.heap.objs x).refs) {h6 : Heap}
    (h : h6 = giveUp (giveUp (freeEnts (freeEnts (freeEnts (freeEnts (freeEnts w.heap w.routes) w.actions) w.events) w.values) w.families) w.fallthrough) w.default) :
    x ∈ (h6.objs x).refs := by
  have hall : freeEnts (freeEnts (freeEnts (freeEnts (freeEnts w.heap w.routes) w.actions) w.events) w.values) w.families
      = freeEnts w.heap (entries w) := by
    unfold freeEnts entries
    simp only [List.foldl_append]
  rw [hall] at h
  obtain ⟨f1, f2, f3⟩ := freeEnts_props (entries w) w.heap hs.reach hs.quiet hs.nodup (fun x hx => (hs.marked x).2 hx)
  have hcount : ∀ x, (own w).count x = w.fallthrough.toList.count x + w.default.toList.count x := by
    intro x; unfold own; rw [List.count_append]
  have a1 : ∀ x, w.fallthrough.toList.count x ≤ (freeEnts w.heap (entries w)).handles x := by
    intro x; rw [f2]; have := hs.owned x; rw [hcount] at this; omega
  obtain ⟨g1, g2, g3⟩ := giveUp_props f1.reach f1.quiet w.fallthrough a1
  rw [h]
  refine self_giveUp g1.reach _ ?_ (self_giveUp f1.reach _ a1 ?_)
  · intro x; rw [g2, f2]; have := hs.owned x; rw [hcount] at this; omega
  · exact self_freeEnts _ _ hs.reach hs.nodup (fun x hx => (hs.marked x).2 hx) hx

end WS.CL
