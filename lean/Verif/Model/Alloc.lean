import Verif.Model.Basic
/-
The built-in allocators (src/wolfsentry_util.c:472-747): the FreeRTOS ones (472-600) and the others as built with
WOLFSENTRY_NO_POSIX_MEMALIGN (614-726).

Addresses are numbers below `2^w`, `w` the width of `size_t` and of pointers.  The allocator of the platform
(`pvPortMalloc`, `malloc`) is known only by its answers.  The debugging counter (WOLFSENTRY_MALLOC_DEBUG) is left out.
-/
namespace WS.Alloc

/-- The memory and the blocks the platform has handed out, each with the number of bytes that are usable. -/
structure Heap where
  mem : Nat → BitVec 8 := fun _ => 0
  live : List (Nat × Nat) := []

/-- What the platform answers to a request for `n` bytes: an address and the usable size, or NULL. -/
abbrev Answer := Nat → Option (Nat × Nat)

/-- `wolfsentry_builtin_malloc` (src/wolfsentry_util.c:478-493, 614-628). -/
def malloc (h : Heap) (ans : Answer) (n : Nat) : Option Nat × Heap :=
  match ans n with
  | none => (none, h)
  | some (p, cap) => (some p, { h with live := (p, cap) :: h.live })

/-- `wolfsentry_builtin_free` (src/wolfsentry_util.c:495-506, 630-641); NULL is address 0; freeing what is not a block is undefined
(`none`). -/
def free (h : Heap) (p : Nat) : Option Heap :=
  if p = 0 then some h
  else if h.live.any (fun b => b.1 == p) then some { h with live := h.live.filter (fun b => b.1 != p) }
  else none

/-- `memcpy(dst, src, n)` between two blocks. -/
def copy (mem : Nat → BitVec 8) (dst src n : Nat) : Nat → BitVec 8 :=
  fun a => if dst ≤ a ∧ a < dst + n then mem (src + (a - dst)) else mem a

/-- `wolfsentry_builtin_realloc` of FreeRTOS (src/wolfsentry_util.c:532-567).  The block header in front of `ptr` gives the size;
the size is kept in a `uint32_t` (555).  A pointer that is not to an allocated block gives NULL. -/
def realloc (h : Heap) (ans : Answer) (ptr size : Nat) : Option (Option Nat × Heap) :=
  if size = 0 then (free h ptr).map fun h => (none, h)
  else if ptr = 0 then some (malloc h ans size)
  else
    match h.live.find? (fun b => b.1 == ptr) with
    | none => some (none, h)
    | some (_, cap) =>
      let blockSize := cap % 2 ^ 32
      if blockSize ≥ size then some (some ptr, h)
      else
        match malloc h ans size with
        | (none, h) => some (none, h)
        | (some q, h) => (free { h with mem := copy h.mem q ptr blockSize } ptr).map fun h => (some q, h)

/-- Rounding up in `wolfsentry_builtin_memalign` (src/wolfsentry_util.c:584, 674), in machine arithmetic. -/
def alignPtr (w p a : Nat) : Nat :=
  (((BitVec.ofNat w p + 2#w) + (BitVec.ofNat w a - 1#w)) &&& ~~~(BitVec.ofNat w a - 1#w)).toNat

/-- A `uint16_t` stored at `a` (low byte first). -/
def put16 (mem : Nat → BitVec 8) (a v : Nat) : Nat → BitVec 8 :=
  fun x => if x = a then BitVec.ofNat 8 v else if x = a + 1 then BitVec.ofNat 8 (v / 256) else mem x

def get16 (mem : Nat → BitVec 8) (a : Nat) : Nat := (mem a).toNat + 256 * (mem (a + 1)).toNat

/-- `wolfsentry_builtin_memalign` (src/wolfsentry_util.c:569-589, 661-684). -/
def memalign (w : Nat) (h : Heap) (ans : Answer) (alignment size : Nat) : Option Nat × Heap :=
  if alignment ≠ 0 ∧ size ≠ 0 then
    let hdr := 2 + (alignment - 1)
    match malloc h ans ((size + hdr) % 2 ^ w) with
    | (none, h) => (none, h)
    | (some p, h) =>
      let ptr := alignPtr w p alignment
      (some ptr, { h with mem := put16 h.mem (ptr - 2) ((ptr - p) % 2 ^ 16) })
  else (none, h)

/-- `wolfsentry_builtin_free_aligned` (src/wolfsentry_util.c:591-605, 709-721). -/
def freeAligned (w : Nat) (h : Heap) (ptr : Nat) : Option Heap := free h ((ptr + 2 ^ w - get16 h.mem (ptr - 2)) % 2 ^ w)

end WS.Alloc
