import Mathlib.Data.Int.Basic

set_option autoImplicit false

/-!
Model of `modm::BlockAllocator<uint16_t, BLOCK_SIZE>`
(src/modm/driver/storage/block_allocator.hpp and block_allocator_impl.hpp).

The heap is addressed in words of `T = uint16_t`, counted from `start`.  (The line
`end = (uint16_t *)(…)`, block_allocator_impl.hpp:72, compiles for `T = uint16_t` only.)
A word is read through the signed type `int16_t` everywhere, so the model stores it as an
integer in `[-32768, 32767]`.  Any access outside `[start, end)` gives `none`, and so does a loop
that makes no progress.  `std::size_t` has 32 bits, as on Cortex-M.
-/

namespace Modm.BlockAllocator

/-- The value of a 16 bit word read as `int16_t`. -/
def signed (v : Int) : Int := (v + 32768) % 65536 - 32768

/-- The heap: `slots` blocks of `BLOCK_SIZE` words, `end = start + slots * BLOCK_SIZE`, and
`freeHint` as an offset from `start`.  block_allocator.hpp:81-83. -/
structure Heap where
  block : Nat
  slots : Nat
  mem : Nat → Int
  hint : Nat

def Heap.fin (h : Heap) : Nat := h.slots * h.block

/-- `*p` -/
def Heap.load (h : Heap) (p : Nat) : Option Int :=
  if p < h.fin then some (h.mem p) else none

/-- `*p = v` -/
def Heap.store (h : Heap) (p : Nat) (v : Int) : Option Heap :=
  if p < h.fin then
    some { h with mem := fun i => if i = p then signed v else h.mem i }
  else none

/-- `alignPointer`, block_allocator_impl.hpp:210-225, for `MODM_ALIGNMENT` 8 and for 4 or less. -/
def alignPointer (eight : Bool) (ptr : Nat) : Nat :=
  if eight then ptr + [6, 5, 4, 3, 2, 1, 0, 7].getD (ptr % 8) 0
  else ptr + [2, 1, 0, 3].getD (ptr % 4) 0

/-- The number of blocks that `initialize` finds room for, block_allocator_impl.hpp:64-70
(byte addresses; the subtraction is assumed not to underflow). -/
def slotCount (block start heapEnd : Nat) : Nat := (heapEnd - start - 2) / (block * 2)

/-- `initialize`, block_allocator_impl.hpp:60-78: one free run of all the blocks.  `raw` is
whatever the memory held before. -/
def init (block slots : Nat) (raw : Nat → Int) : Option Heap :=
  let h : Heap := ⟨block, slots, fun i => signed (raw i), 0⟩
  (h.store 0 (-slots)).bind fun h =>
  h.store (h.fin - 1) (-slots)

/-- The slots needed for a request, block_allocator_impl.hpp:89-92, in 32 bit arithmetic. -/
def needed (block size : Nat) : Nat :=
  (((size + 4) % 2 ^ 32 + (block * 2 - 1)) % 2 ^ 32) / (block * 2)

/-- The markers written by `allocate`, block_allocator_impl.hpp:107-120. -/
def carve (h : Heap) (p free need : Nat) : Option Heap :=
  (h.store p need).bind fun h =>
  (h.store (p + need * h.block - 1) need).bind fun h =>
  if need < free then
    (h.store (p + need * h.block) (-((free : Int) - need))).bind fun h =>
    h.store (p + free * h.block - 1) (-((free : Int) - need))
  else some h

/-- The loop of `allocate`, block_allocator_impl.hpp:94-128.  The result is the heap and the word
index of the payload, or `0` for the null pointer (index 0 is the first marker and is never a
payload).  `slots` is negated in 16 bits at line 102; a run whose marker is `-32768` would step
backwards, which is outside the model. -/
def search (need : Nat) : Nat → Heap → Nat → Option (Heap × Nat)
  | 0, _, _ => none
  | fuel + 1, h, p =>
    (h.load p).bind fun s =>
    if s < 0 then
      let k := (-s).toNat
      if need ≤ k then (carve h p k need).map fun h => (h, p + 1)
      else if k = 32768 then none
      else if p + k * h.block < h.fin then search need fuel h (p + k * h.block)
      else some (h, 0)
    else if s = 0 then none
    else if p + s.toNat * h.block < h.fin then search need fuel h (p + s.toNat * h.block)
    else some (h, 0)

/-- `allocate`, block_allocator_impl.hpp:85-129. -/
def allocate (h : Heap) (size : Nat) : Option (Heap × Nat) :=
  search (needed h.block size) (h.slots + 1) h h.hint

/-- The blocks above, block_allocator_impl.hpp:147-152: the number of free blocks that follow. -/
def above (h : Heap) (q : Nat) : Option Nat :=
  if q < h.fin then (h.load q).map fun s => if s < 0 then (-s).toNat else 0
  else some 0

/-- The blocks below, block_allocator_impl.hpp:155-161: the number of free blocks before. -/
def below (h : Heap) (p : Nat) : Option Nat :=
  if 1 ≤ p then (h.load (p - 1)).map fun s => if s < 0 then (-s).toNat else 0
  else some 0

/-- `free`, block_allocator_impl.hpp:132-182. -/
def free (h : Heap) (ptr : Nat) : Option Heap :=
  if ptr = 0 then some h
  else
    let p := ptr - 1
    (h.load p).bind fun s =>
    if s < 0 then none
    else
      (above h (p + s.toNat * h.block)).bind fun up =>
      (below h p).bind fun down =>
      let total := s.toNat + up + down
      if p < down * h.block then none
      else
        let p := p - down * h.block
        (h.store p (-(total : Int))).bind fun h =>
        (h.store (p + total * h.block - 1) (-(total : Int))).map fun h =>
        { h with hint := if p < h.hint then p else h.hint }

/-- The loop of `getAvailableSize`, block_allocator_impl.hpp:185-207, in bytes. -/
def available : Nat → Heap → Nat → Option Nat
  | 0, _, _ => none
  | fuel + 1, h, p =>
    (h.load p).bind fun s =>
    if s = 0 then none
    else
      let k := s.natAbs
      let here := if s < 0 then k * h.block * 2 else 0
      if p + k * h.block < h.fin then (available fuel h (p + k * h.block)).map fun r => here + r
      else some here

/-- `getAvailableSize` -/
def getAvailableSize (h : Heap) : Option Nat := available (h.slots + 1) h 0

end Modm.BlockAllocator
