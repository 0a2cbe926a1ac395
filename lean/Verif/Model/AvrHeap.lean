import Mathlib.Data.Int.Basic

set_option autoImplicit false

/-!
# `malloc` and `free` on AVR

Model of `/repo/src/modm/platform/heap/avr/ram.cpp.in`.

Addresses are bytes counted from `heapStart` (after its increment at line 63). The memory is
flat: loads and stores beyond the heap are possible and are part of the model. A byte is read
through `int8_t` everywhere, so it is stored as an integer in `[-128, 127]`. A walk that goes
below `heapStart`, or that does not end, gives `none`. `modm_assert_continue_fail_debug` is taken
to continue, so that the function returns 0.
-/

namespace Model.AvrHeap

/-- A value stored in a byte and read as `int8_t`. -/
def int8 (v : Int) : Int := (v + 128) % 256 - 128

/-- `BLOCK_SIZE`, `MAX_BLOCK_PARTS`, `heapEnd`, the dummy byte below `heapStart`, the memory,
`currentHeapEnd` and `freeHint`, ram.cpp.in:22-56. -/
structure Heap where
  block : Nat
  parts : Nat
  limit : Nat
  dummy : Int
  mem : Nat → Int
  cur : Nat
  hint : Nat

/-- `*p = v` -/
def put (m : Nat → Int) (p : Nat) (v : Int) : Nat → Int := fun i => if i = p then int8 v else m i

/-- `initializeMemory`, ram.cpp.in:60-72; `raw` is what the memory holds after the reset. -/
def init (block parts limit : Nat) (raw : Nat → Int) : Heap :=
  ⟨block, parts, limit, 0, put (put raw 0 (-(parts : Int))) (parts * block - 1) (-(parts : Int)), parts * block, 0⟩

/-- `neededSlots`, ram.cpp.in:87-91; a block is a power of two, so the mask is the remainder. -/
def neededSlots (block size : Nat) : Nat := ((size + 2) / block + if (size + 2) % block ≠ 0 then 1 else 0) % 256

inductive Found
  | slot (p k : Nat)
  | last (p : Nat)

/-- The loop of `allocateMemory`, ram.cpp.in:93-123: the run that is taken, or where the loop ended. -/
def search (h : Heap) (need : Nat) : Nat → Nat → Option Found
  | 0, _ => none
  | fuel + 1, p =>
    let s := h.mem p
    let k := if s < 0 then int8 (-s) else s
    if s < 0 ∧ (need : Int) ≤ k then some (.slot p k.toNat)
    else
      let q := (p : Int) + k * h.block
      if q < 0 then none
      else if q.toNat < h.cur then search h need fuel q.toNat
      else some (.last q.toNat)

/-- The markers, ram.cpp.in:104-117. -/
def carve (h : Heap) (p k need : Nat) : Heap :=
  let m := put (put h.mem p need) (p + need * h.block - 1) need
  { h with mem := if need < k then put (put m (p + need * h.block) (-((k : Int) - need))) (p + k * h.block - 1) (-((k : Int) - need)) else m }

/-- More memory from the heap, ram.cpp.in:125-155. -/
def extend (h : Heap) (p need : Nat) : Option (Heap × Nat) :=
  let s := h.mem (p - 1)
  let q : Int := if s < 0 then p + s * h.block else p
  if q < 0 then none
  else if (need : Int) ≤ Int.tdiv ((h.limit : Int) - q) h.block then
    let q := q.toNat
    some ({ h with mem := put (put h.mem q need) (q + need * h.block - 1) need, cur := q + need * h.block }, q + 1)
  else some (h, 0)

/-- `allocateMemory`, ram.cpp.in:79-156; the pointer, or 0. -/
def allocate (h : Heap) (size : Nat) : Option (Heap × Nat) :=
  if 0 < size ∧ size ≤ h.parts * h.block then
    match search h (neededSlots h.block size) (h.cur + 1) h.hint with
    | none => none
    | some (.slot p k) => some (carve h p k (neededSlots h.block size), p + 1)
    | some (.last p) => extend h p (neededSlots h.block size)
  else some (h, 0)

/-- Free runs above and below, ram.cpp.in:172-183. -/
def runAbove (h : Heap) (q : Nat) : Nat := if h.mem q < 0 then (-(h.mem q)).toNat else 0
def runBelow (h : Heap) (p : Nat) : Nat :=
  let s := if p = 0 then h.dummy else h.mem (p - 1)
  if s < 0 then (-s).toNat else 0

/-- The markers of the free run of `n` slots at `p`, ram.cpp.in:186-199. -/
def mark (h : Heap) (p n : Nat) : Nat → Int :=
  if h.parts < n then
    put (put (put (put h.mem p (-(h.parts : Int))) (p + h.parts * h.block - 1) (-(h.parts : Int)))
      (p + h.parts * h.block) (-((n : Int) - h.parts))) (p + n * h.block - 1) (-((n : Int) - h.parts))
  else put (put h.mem p (-(n : Int))) (p + n * h.block - 1) (-(n : Int))

/-- `freeMemory`, ram.cpp.in:160-204. A run that is free already is outside of the model. -/
def free (h : Heap) (ptr : Nat) : Option Heap :=
  if ptr = 0 then some h
  else
    let p := ptr - 1
    let s := h.mem p
    if s < 0 then none
    else
      let down := runBelow h p
      let n := s.toNat + runAbove h (p + s.toNat * h.block) + down
      if p < down * h.block then none
      else
        let p := p - down * h.block
        some { h with mem := mark h p n, hint := if p < h.hint then p else h.hint }

end Model.AvrHeap
