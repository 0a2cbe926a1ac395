import Verif.Model.Tlsf

set_option autoImplicit false

/-!
# Use of the TLSF allocator

What a program sees: pointers, the sizes that it asked for, and the words that it has written.
The memory is counted in words of four bytes, as in `Model.Tlsf`.
-/

namespace Spec.Tlsf

open Model.Tlsf

/-- Memory that the program holds: the pointer, the size in bytes, and what the program relies on
finding there. -/
structure Alloc where
  ptr : Nat
  size : Nat
  data : Nat → Nat

/-- The words that hold `size` bytes. -/
def words (size : Nat) : Nat := (size + 3) / 4

structure World where
  heap : Heap
  live : List Alloc

inductive Op where
  | malloc (size : Nat)
  | free (ptr : Nat)
  | realloc (ptr size : Nat)
  /-- the program stores `v` into the word `k` of the memory at `ptr` -/
  | write (ptr k v : Nat)

def World.get (w : World) (ptr : Nat) : Option Alloc := w.live.find? fun a => a.ptr == ptr

def World.drop (w : World) (ptr : Nat) : List Alloc := w.live.filter fun a => a.ptr != ptr

/-- A use that the allocator documents: pointers are those that it handed out and that were not
given back; `realloc` and `malloc` of at least one byte, less than the largest block; stores stay
inside. `mappingSearch` must not be past the last list (see `C279_malloc_counterexample`). -/
def Allowed (c : Cfg) (w : World) : Op → Prop
  | .malloc size => (mappingSearch c (adjust c size)).1 < c.flCount
  | .free ptr => (w.get ptr).isSome
  | .realloc ptr size => (w.get ptr).isSome ∧ 0 < size ∧ size < 2 ^ c.flMax ∧ (mappingSearch c (adjust c size)).1 < c.flCount
  | .write ptr k _ => ∃ a, w.get ptr = some a ∧ k < words a.size

/-- The call, and what the program knows after it: new memory holds anything; memory that was
moved holds what it held, as far as it is long enough. -/
def step (c : Cfg) (w : World) : Op → Option World
  | .malloc size =>
    match malloc c w.heap size with
    | none => none
    | some (h, none) => some ⟨h, w.live⟩
    | some (h, some p) => some ⟨h, ⟨p, size, fun k => h.mem (p + k)⟩ :: w.live⟩
  | .free ptr => (free c w.heap ptr).map fun h => ⟨h, w.drop ptr⟩
  | .realloc ptr size =>
    match w.get ptr with
    | none => none
    | some a =>
      match realloc c w.heap ptr size with
      | none => none
      | some (h, none) => some ⟨h, w.live⟩
      | some (h, some p) => some ⟨h, ⟨p, size, fun k => if k < words a.size then a.data k else h.mem (p + k)⟩ :: w.drop ptr⟩
  | .write ptr k v =>
    some ⟨w.heap.put (ptr + k) v, w.live.map fun a => if a.ptr = ptr then ⟨a.ptr, a.size, Function.update a.data k v⟩ else a⟩

/-- All states after `tlsf_create_with_pool` and any allowed calls. -/
inductive Reach (c : Cfg) (raw : Nat → Nat) (pool n : Nat) : World → Prop
  | start (h : Heap) : create c raw pool n = some (some h) → Reach c raw pool n ⟨h, []⟩
  | step (w w' : World) (o : Op) : Reach c raw pool n w → Allowed c w o → step c w o = some w' → Reach c raw pool n w'

/-- The size that a free block must have to be found. -/
def roundUp (c : Cfg) (size : Nat) : Nat :=
  if 2 ^ (c.slLog2 + 2) ≤ size then size + (2 ^ (Nat.log2 size - c.slLog2) - 1) else size

end Spec.Tlsf
