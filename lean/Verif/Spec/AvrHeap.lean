import Verif.Model.AvrHeap

set_option autoImplicit false

/-!
What a user of `malloc` and `free` relies on: the memory they hold, and what they wrote into it.
-/

namespace Spec.AvrHeap

open Model.AvrHeap (Heap)

/-- One piece of memory held: the pointer, the size asked for and the bytes written so far. -/
structure Alloc where
  ptr : Nat
  size : Nat
  data : Nat → Option Int

inductive Op where
  | malloc (size : Nat)
  | free (ptr : Nat)
  /-- the user stores the byte `v` at `ptr[off]` -/
  | write (ptr off : Nat) (v : Int)

structure World where
  heap : Heap
  live : List Alloc

/-- Only pointers that are held are freed or written through, within the size asked for. -/
def Allowed (w : World) : Op → Prop
  | .malloc _ => True
  | .free ptr => ptr = 0 ∨ ∃ a ∈ w.live, a.ptr = ptr
  | .write ptr off v => (∃ a ∈ w.live, a.ptr = ptr ∧ off < a.size) ∧ -128 ≤ v ∧ v < 128

def record (ptr off : Nat) (v : Int) (a : Alloc) : Alloc :=
  if a.ptr = ptr then { a with data := fun i => if i = off then some v else a.data i } else a

def step (w : World) : Op → Option World
  | .malloc size =>
    (Model.AvrHeap.allocate w.heap size).map fun r =>
      if r.2 = 0 then ⟨r.1, w.live⟩ else ⟨r.1, ⟨r.2, size, fun _ => none⟩ :: w.live⟩
  | .free ptr => (Model.AvrHeap.free w.heap ptr).map fun h => ⟨h, w.live.filter fun a => a.ptr ≠ ptr⟩
  | .write ptr off v => some ⟨{ w.heap with mem := fun i => if i = ptr + off then v else w.heap.mem i }, w.live.map (record ptr off v)⟩

/-- Everything that can happen after the reset. -/
inductive Reach (block parts limit : Nat) (raw : Nat → Int) : World → Prop
  | init : Reach block parts limit raw ⟨Model.AvrHeap.init block parts limit raw, []⟩
  | step (w w' : World) (op : Op) (r : Reach block parts limit raw w) (a : Allowed w op) (e : step w op = some w') : Reach block parts limit raw w'

end Spec.AvrHeap
