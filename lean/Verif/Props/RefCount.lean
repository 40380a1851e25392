import Verif.Proof.RefCount
import Verif.Spec.RefCount
/-
Property C29: reference counting never frees an object that is still referenced.  `Reach h` ranges
over every finite interleaving of atomic effects by any number of threads.
-/
namespace WS.Props
open WS WS.RC WS.Spec

/-- C29: at every point of every history, an object that has been allocated is still allocated exactly
as long as somebody refers to it. -/
theorem C29_live_iff_referenced (h : Heap) (hr : Reach h) (x : Nat) :
    (h.objs x).live = true ↔ Referenced h x := by
  have hi := reach_inv hr
  rw [hi.live, hi.count, total, Referenced]
  constructor
  · intro hp
    by_cases h1 : (h.objs x).inTable = true
    · exact Or.inl h1
    · rw [if_neg h1] at hp
      by_cases h2 : 0 < h.handles x
      · exact Or.inr (Or.inl h2)
      · by_cases h3 : 0 < heldUpto h.objs x h.next
        · obtain ⟨y, _, hy⟩ := heldUpto_exists _ _ _ h3
          refine Or.inr (Or.inr (Or.inl ⟨y, ?_, hy⟩))
          cases hl : (h.objs y).live with
          | true => rfl
          | false => rw [hi.refsLive y hl] at hy; cases hy
        · exact Or.inr (Or.inr (Or.inr (List.count_pos_iff.1 (by omega))))
  · rintro (h1 | h1 | ⟨y, hl, hy⟩ | h1)
    · rw [if_pos h1]; omega
    · omega
    · have := (hi.refs_lt hy).2; omega
    · have := List.count_pos_iff.2 h1; omega

/-- C29: no effect any caller is entitled to ever touches a freed object. -/
theorem C29_no_use_after_free (h : Heap) (hr : Reach h) (a : Act) (he : Enabled h a) :
    ∀ x ∈ touches a, (h.objs x).live = true := by
  have hi := reach_inv hr
  have hp := hi.enabled_pos a he
  intro x hx
  rw [hi.live]
  cases a <;> simp [touches] at hx
  all_goals first
    | (subst hx; exact hp)
    | (rcases hx with rfl | rfl
       · exact hp.1
       · exact hp.2)

/-- C29: an object is freed only by the decrement that takes its last reference, and always by
that one. -/
theorem C29_freed_exactly_at_last_drop (h : Heap) (hr : Reach h) (a : Act) (he : Enabled h a) (x : Nat)
    (hl : (h.objs x).live = true) :
    ((step h a).1.objs x).live = false ↔ (a = .decrement x ∧ (h.objs x).rc = 1) := by
  have hi := reach_inv hr
  have hpos := (hi.live x).1 hl
  cases a with
  | create =>
    have hx : x ≠ h.next := by have := hi.lt_next hpos; omega
    simp [step, Heap.setObj, Heap.setHandles, hx, hl]
  | insertTable k =>
    by_cases hx : x = k
    · subst hx; simp [step, Heap.setObj, Heap.setHandles, hl]
    · simp [step, Heap.setObj, Heap.setHandles, hx, hl]
  | acquire k =>
    simp only [step, acquire, refInc]
    by_cases hm : (h.objs k).rc = maxRef
    · simp [hm, hl]
    · by_cases hx : x = k
      · subst hx; simp [hm, Heap.setObj, Heap.setHandles, hl]
      · simp [hm, Heap.setObj, Heap.setHandles, hx, hl]
  | giveUp k => simp [step, Heap.setHandles, hl]
  | removeTable k =>
    by_cases hx : x = k
    · subst hx; simp [step, Heap.setObj, hl]
    · simp [step, Heap.setObj, hx, hl]
  | link k j =>
    by_cases hx : x = k
    · subst hx; simp [step, Heap.setObj, Heap.setHandles, hl]
    · simp [step, Heap.setObj, Heap.setHandles, hx, hl]
  | unlink k j =>
    by_cases hx : x = k
    · subst hx; simp [step, Heap.setObj, hl]
    · simp [step, Heap.setObj, hx, hl]
  | decrement k =>
    have hp : 0 < (h.objs k).rc := hi.enabled_pos (.decrement k) he
    simp only [step, decrement]
    rw [if_neg (by omega)]
    by_cases hz : (h.objs k).rc - 1 > 0
    · rw [if_pos hz]
      by_cases hx : x = k
      · subst hx
        simp [Heap.setObj, hl]; omega
      · have hx' : k ≠ x := fun h => hx h.symm
        simp [Heap.setObj, hx, hl, hx']
    · rw [if_neg hz]
      by_cases hx : x = k
      · subst hx; simp [Heap.setObj]; omega
      · have hx' : k ≠ x := fun h => hx h.symm
        simp [Heap.setObj, hx, hl, hx']

/-- C29: freed at most once: an object number once freed never comes back to life, so there is no
second transition from allocated to freed. -/
theorem C29_freed_once (h h' : Heap) (hr : Reach h) (hl : Later h h') (x : Nat) (hx : x < h.next)
    (hd : (h.objs x).live = false) : (h'.objs x).live = false := by
  suffices Reach h' ∧ x < h'.next ∧ (h'.objs x).live = false from this.2.2
  induction hl with
  | refl => exact ⟨hr, hx, hd⟩
  | step h' a _ he ih =>
    obtain ⟨i1, i2, i3⟩ := ih
    have hi := reach_inv i1
    have hp := hi.enabled_pos a he
    have hdead : ¬ 0 < (h'.objs x).rc := by rw [← hi.live, i3]; simp
    refine ⟨.step _ _ i1 he, ?_, ?_⟩
    · cases a <;> simp only [step, acquire, decrement, Heap.setObj, Heap.setHandles] <;> try (first | exact i2 | omega)
      · split <;> exact i2
      · split
        · exact i2
        · split <;> exact i2
    · cases a with
      | create =>
        have hx : x ≠ h'.next := by omega
        simp [step, Heap.setObj, Heap.setHandles, hx, i3]
      | insertTable k =>
        have hx : x ≠ k := by rintro rfl; exact hdead hp
        simp [step, Heap.setObj, Heap.setHandles, hx, i3]
      | acquire k =>
        have hx : x ≠ k := by rintro rfl; exact hdead hp
        simp only [step, acquire, refInc]
        by_cases hm : (h'.objs k).rc = maxRef
        · simp [hm, i3]
        · simp [hm, Heap.setObj, Heap.setHandles, hx, i3]
      | giveUp k => simp [step, Heap.setHandles, i3]
      | removeTable k =>
        have hx : x ≠ k := by rintro rfl; exact hdead hp
        simp [step, Heap.setObj, hx, i3]
      | link k j =>
        have hx : x ≠ k := by rintro rfl; exact hdead hp.1
        simp [step, Heap.setObj, Heap.setHandles, hx, i3]
      | unlink k j =>
        have hx : x ≠ k := by rintro rfl; exact hdead hp.1
        simp [step, Heap.setObj, hx, i3]
      | decrement k =>
        have hx : x ≠ k := by rintro rfl; exact hdead hp
        simp only [step, decrement]
        split
        · exact i3
        · split <;> simp [Heap.setObj, hx, i3]

/-- C29: counts stay within 32 bits and equal the number of references; a decrement never meets a
zero count (so `INTERNAL_CHECK_FATAL` is never reported), and an increment at the maximum is refused
with `OVERFLOW_AVERTED` and no effect. -/
theorem C29_counts_exact_and_bounded (h : Heap) (hr : Reach h) (x : Nat) :
    (h.objs x).rc ≤ 4294967295 ∧
    (h.objs x).rc = (if (h.objs x).inTable = true then 1 else 0) + h.handles x +
      heldUpto h.objs x h.next + h.dropping.count x ∧
    (x ∈ h.dropping → (decrement h x).2 = .ok ()) ∧
    ((h.objs x).rc = 4294967295 → acquire h x = (h, .error .overflowAverted)) := by
  have hi := reach_inv hr
  refine ⟨hi.max x, hi.count x, ?_, ?_⟩
  · intro hm
    have := hi.enabled_pos (.decrement x) hm
    have hp : 0 < (h.objs x).rc := this
    simp only [decrement]
    rw [if_neg (by omega)]
    split <;> rfl
  · intro hm
    have : (h.objs x).rc = maxRef := hm
    simp [acquire, refInc, this]

/-! ### a non-trivial reachable heap: an event (0), a rule (1) holding it, a caller holding the event -/

/-- create event, put it in its table; create rule; the rule takes a reference; the rule goes into
its table; a caller checks the event out; the event is deleted from its table. -/
def demoRefActs : List Act :=
  [.create, .insertTable 0, .create, .acquire 0, .link 1 0, .insertTable 1, .acquire 0, .removeTable 0, .decrement 0]

def runActs (h : Heap) (as : List Act) : Heap := as.foldl (fun h a => (step h a).1) h

def demoHeap : Heap := runActs {} demoRefActs

theorem demoHeap_reach : Reach demoHeap := by
  unfold demoHeap demoRefActs runActs
  simp only [List.foldl]
  repeat (refine Reach.step _ _ ?_ (by simp [Enabled, step, acquire, decrement, refInc, maxRef, Heap.setObj, Heap.setHandles]))
  exact Reach.init

theorem C29_demo : (demoHeap.objs 0).live = true ∧ (demoHeap.objs 0).rc = 2 ∧ (demoHeap.objs 0).inTable = false ∧
    (demoHeap.objs 1).rc = 1 := by decide

/-- C29 (finding): `wolfsentry_object_release` on a checked-out object that has meanwhile been deleted
from its table dereferences the NULL `parent_table`, although the caller legitimately holds a
reference. -/
theorem C29_release_after_delete_crashes :
    Reach demoHeap ∧ 0 < demoHeap.handles 0 ∧ (demoHeap.objs 0).live = true ∧ objectRelease demoHeap 0 = none :=
  ⟨demoHeap_reach, by decide, by decide, rfl⟩

/-- The same with the caller's reference given up: the rule holds the event's last reference. -/
def demoHeap2 : Heap := runActs demoHeap [.giveUp 0, .decrement 0]
theorem demoHeap2_reach : Reach demoHeap2 := by
  unfold demoHeap2 runActs
  simp only [List.foldl]
  refine .step _ _ (.step _ _ demoHeap_reach ?_) ?_
  · show 0 < demoHeap.handles 0; decide
  · show 0 ∈ (step demoHeap (.giveUp 0)).1.dropping; decide

/-- C29 (finding): dropping the last reference to a rule whose parent event has been deleted reads
the event's configuration after freeing it: `config` is computed before the event's drop and used
after it (src/routes.c:599, 611-613, 582-591). -/
theorem C29_route_drop_reads_freed_event :
    Reach demoHeap2 ∧ (demoHeap2.objs 1).refs = [0] ∧ (demoHeap2.objs 1).rc = 1 ∧ (demoHeap2.objs 0).live = true ∧
    routeDropReadsLive demoHeap2 1 0 = false :=
  ⟨demoHeap2_reach, by decide, by decide, by decide, by decide⟩

/-- C29: as long as anyone else refers to the parent event, the configuration is still there when it
is read. -/
theorem C29_route_drop_safe_when_event_shared (h : Heap) (r e : Nat) (hs : 2 ≤ (h.objs e).rc)
    (hl : (h.objs e).live = true) : routeDropReadsLive h r e = true := by
  unfold routeDropReadsLive
  split
  · rfl
  · simp only [decrement]
    rw [if_neg (by omega), if_pos (by omega)]
    simp [Heap.setObj, hl]

/-- C29 (finding): an object that refers to itself (an event that is its own aux event, see
`C42_self_loop_reachable`) is never freed, whatever is dropped: its own reference keeps it alive. -/
theorem C29_self_reference_leaks (h : Heap) (hr : Reach h) (x : Nat) (hs : x ∈ (h.objs x).refs) :
    (h.objs x).live = true :=
  (C29_live_iff_referenced h hr x).2 (Or.inr (Or.inr (Or.inl ⟨x, Classical.byContradiction (fun hl => by
    rw [(reach_inv hr).refsLive x (by simpa using hl)] at hs; cases hs), hs⟩)))

end WS.Props
