import Verif.Model.BlockAllocator

set_option autoImplicit false

/-!
What a user of the block allocator relies on: the allocations they hold, and what they wrote
into them.
-/

namespace Spec.BlockAllocator

open Modm.BlockAllocator (Heap)

/-- One allocation held by the user: the pointer returned (a word index), the size asked for in
bytes, and the words written through the pointer so far. -/
structure Alloc where
  ptr : Nat
  size : Nat
  data : Nat → Option Int

/-- The words that hold `size` bytes. -/
def words (size : Nat) : Nat := (size + 1) / 2

/-- The blocks that a request of `size` bytes takes: two marker words and the payload, rounded
up to whole blocks. -/
def blocks (block size : Nat) : Nat := (size + 4 + (block * 2 - 1)) / (block * 2)

inductive Op where
  | allocate (size : Nat)
  | free (ptr : Nat)
  /-- the user stores the 16 bit value `v` at word `off` of the allocation at `ptr` -/
  | write (ptr off : Nat) (v : Int)

structure World where
  heap : Heap
  live : List Alloc

/-- The user keeps to the interface: no request close to `SIZE_MAX`, only held pointers are freed
or written through, and only inside of the size asked for. -/
def Allowed (w : World) : Op → Prop
  | .allocate size => size + 4 + (w.heap.block * 2 - 1) < 2 ^ 32
  | .free ptr => ptr = 0 ∨ ∃ a ∈ w.live, a.ptr = ptr
  | .write ptr off v =>
    (∃ a ∈ w.live, a.ptr = ptr ∧ off < words a.size) ∧ -32768 ≤ v ∧ v < 32768

/-- The book keeping of a write. -/
def record (ptr off : Nat) (v : Int) (a : Alloc) : Alloc :=
  if a.ptr = ptr then { a with data := fun i => if i = off then some v else a.data i } else a

/-- One operation; `none` when the library reads or writes outside of its heap, or hangs. -/
def step (w : World) : Op → Option World
  | .allocate size =>
    (Modm.BlockAllocator.allocate w.heap size).map fun r =>
      if r.2 = 0 then ⟨r.1, w.live⟩ else ⟨r.1, ⟨r.2, size, fun _ => none⟩ :: w.live⟩
  | .free ptr =>
    (Modm.BlockAllocator.free w.heap ptr).map fun h =>
      ⟨h, w.live.filter fun a => a.ptr ≠ ptr⟩
  | .write ptr off v =>
    (w.heap.store (ptr + off) v).map fun h => ⟨h, w.live.map (record ptr off v)⟩

/-- Everything that can happen on a heap of `slots` blocks of `block` words. -/
inductive Reach (block slots : Nat) : World → Prop
  | init (raw : Nat → Int) (h : Heap) (e : Modm.BlockAllocator.init block slots raw = some h) :
      Reach block slots ⟨h, []⟩
  | step (w w' : World) (op : Op) (r : Reach block slots w) (a : Allowed w op)
      (e : step w op = some w') : Reach block slots w'

end Spec.BlockAllocator
