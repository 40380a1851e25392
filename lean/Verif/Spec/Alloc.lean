import Verif.Model.Alloc
/-
What the client of an allocator may rely on, and the histories of its calls.
-/
namespace WS.Alloc

/-- The byte ranges `[p, p+n)` and `[q, q+m)` have no byte in common. -/
def Apart (p n q m : Nat) : Prop := p + n ≤ q ∨ q + m ≤ p

/-- What is asked of the platform's allocator: an answer to a request for `n` bytes is an even address other than NULL, with at least `n`
usable bytes that lie in the address space and apart from every block already handed out. -/
structure Honest (w : Nat) (h : Heap) (ans : Answer) : Prop where
  ok : ∀ n p cap, ans n = some (p, cap) → p ≠ 0 ∧ p % 2 = 0 ∧ n ≤ cap ∧ 0 < cap ∧ p + cap ≤ 2 ^ w ∧ ∀ b ∈ h.live, Apart p cap b.1 b.2

/-- An area the client owns: got by `malloc` or `realloc`, or (`aligned`) by `memalign`. -/
structure Area where
  ptr : Nat
  size : Nat
  align : Nat := 1
  aligned : Bool := false
  deriving DecidableEq, Repr

/-- The memory and what the client owns. -/
structure St where
  h : Heap := {}
  areas : List Area := []

/-- The sizes and alignments for which `memalign` is right: the alignment is a power of two that fits the 16 bits of the offset in
front of the area, and the block with its header can be described. -/
structure Proper (w a n : Nat) : Prop where
  pow : ∃ k, a = 2 ^ k
  small : a ≤ 2 ^ 15
  fits : n + a + 1 < 2 ^ w

/-- One call by a client that keeps to the rules: it frees or resizes what it owns, each kind by its own call, and writes
only in its own areas. -/
inductive Step (w : Nat) : St → St → Prop where
  | malloc {s : St} {ans n p h} : Honest w s.h ans → malloc s.h ans n = (some p, h) → Step w s ⟨h, ⟨p, n, 1, false⟩ :: s.areas⟩
  | mallocFails {s : St} {ans n h} : Honest w s.h ans → malloc s.h ans n = (none, h) → Step w s ⟨h, s.areas⟩
  | memalign {s : St} {ans a n p h} : Honest w s.h ans → Proper w a n → memalign w s.h ans a n = (some p, h) →
      Step w s ⟨h, ⟨p, n, a, true⟩ :: s.areas⟩
  | memalignFails {s : St} {ans a n h} : Honest w s.h ans → Proper w a n → memalign w s.h ans a n = (none, h) → Step w s ⟨h, s.areas⟩
  | free {s : St} {x h} : x ∈ s.areas → x.aligned = false → free s.h x.ptr = some h → Step w s ⟨h, s.areas.erase x⟩
  | freeAligned {s : St} {x h} : x ∈ s.areas → x.aligned = true → freeAligned w s.h x.ptr = some h → Step w s ⟨h, s.areas.erase x⟩
  | realloc {s : St} {ans x n p h} : Honest w s.h ans → x ∈ s.areas → x.aligned = false → 0 < n →
      realloc s.h ans x.ptr n = some (some p, h) → Step w s ⟨h, ⟨p, n, 1, false⟩ :: s.areas.erase x⟩
  | reallocFails {s : St} {ans x n h} : Honest w s.h ans → x ∈ s.areas → x.aligned = false → 0 < n →
      realloc s.h ans x.ptr n = some (none, h) → Step w s ⟨h, s.areas⟩
  | write {s : St} {x i v} : x ∈ s.areas → i < x.size →
      Step w s ⟨{ s.h with mem := fun a => if a = x.ptr + i then v else s.h.mem a }, s.areas⟩

/-- The states a client can reach. -/
inductive Reach (w : Nat) : St → Prop where
  | init : Reach w {}
  | step {s s'} : Reach w s → Step w s s' → Reach w s'

end WS.Alloc
