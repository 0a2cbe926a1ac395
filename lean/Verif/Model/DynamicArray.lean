import Mathlib.Logic.Function.Basic
/-
Model of `modm::DynamicArray<T>` (src/modm/container/dynamic_array_impl.hpp).

Memory is a set of buffers, a buffer a list of cells, a cell either raw (`none`) or a constructed object. `none` results are
undefined behaviour or a leak: access outside a buffer, to a raw cell or to a freed buffer, constructing over a live object,
freeing a buffer that still holds live objects, double free. `std::size_t` has `W` bits and an object occupies `k` bytes.
`operator new` is assumed to succeed and to return a fresh non-null address `a`, also for zero bytes.
-/
set_option autoImplicit false
namespace Modm.DynamicArray
variable {T : Type}

abbrev Mem (T : Type) := Nat → Option (List (Option T))

/-- the members of the class (dynamic_array.hpp:392-394) -/
structure Arr where
  size : Nat
  capacity : Nat
  values : Nat

/-- several arrays over one heap -/
structure State (T : Type) where
  mem : Mem T
  arr : Nat → Option Arr

section
variable (W k : Nat)

/-- a value of type `std::size_t` -/
def wrap (n : Nat) : Nat := n % 2 ^ W

/-- `allocate(n)` (allocator.hpp:105-111): room for `n * sizeof(T)` bytes, computed in `std::size_t` -/
def alloc (a n : Nat) (m : Mem T) : Mem T := Function.update m a (some (List.replicate (wrap W (n * k) / k) none))

/-- `deallocate` (allocator.hpp:113-120) -/
def dealloc (b : Nat) (m : Mem T) : Option (Mem T) :=
  if b = 0 then some m
  else (m b).bind fun cells => if cells.all Option.isNone then some (Function.update m b none) else none

/-- `construct` (allocator.hpp:42-47) -/
def construct (b i : Nat) (v : T) (m : Mem T) : Option (Mem T) :=
  (m b).bind fun cells => match cells[i]? with
    | some none => some (Function.update m b (some (cells.set i (some v))))
    | _ => none

/-- `destroy` (allocator.hpp:57-61) -/
def destroy (b i : Nat) (m : Mem T) : Option (Mem T) :=
  (m b).bind fun cells => match cells[i]? with
    | some (some _) => some (Function.update m b (some (cells.set i none)))
    | _ => none

/-- reading `values[i]` -/
def peek (m : Mem T) (b i : Nat) : Option T := (m b).bind fun cells => (cells[i]?).join

/-- assignment to the object `values[i]` -/
def put (b i : Nat) (v : T) (m : Mem T) : Option (Mem T) :=
  (m b).bind fun cells => match cells[i]? with
    | some (some _) => some (Function.update m b (some (cells.set i (some v))))
    | _ => none

/-- `for (i = 0; i < n; ++i) body` -/
def loop (n : Nat) (body : Nat → Mem T → Option (Mem T)) (m : Mem T) : Option (Mem T) := (List.range n).foldlM (fun m i => body i m) m

/-- a reference parameter: an object outside the heap, or element `i` of the buffer `b` -/
inductive Ref (T : Type)
  | val (v : T)
  | cell (b i : Nat)

def Ref.read (m : Mem T) : Ref T → Option T
  | .val v => some v
  | .cell b i => peek m b i

/-- default constructor (lines 21-26) -/
def create (i : Nat) (s : State T) : Option (State T) := some ⟨s.mem, Function.update s.arr i (some ⟨0, 0, 0⟩)⟩

/-- `DynamicArray(n)` (lines 28-33) -/
def createCap (i n a : Nat) (s : State T) : Option (State T) := some ⟨alloc W k a n s.mem, Function.update s.arr i (some ⟨0, n, a⟩)⟩

/-- `DynamicArray(n, value)` (lines 35-43) -/
def createRep (i n : Nat) (v : T) (a : Nat) (s : State T) : Option (State T) :=
  (loop n (fun j => construct a j v) (alloc W k a n s.mem)).map fun m => ⟨m, Function.update s.arr i (some ⟨n, n, a⟩)⟩

/-- the loop in lines 50-54 -/
def fillList (a : Nat) : Nat → List T → Mem T → Option (Mem T)
  | _, [], m => some m
  | ii, v :: vs, m => (construct a ii v m).bind (fillList a (ii + 1) vs)

/-- `DynamicArray(init)` (lines 45-55) -/
def createList (i : Nat) (init : List T) (a : Nat) (s : State T) : Option (State T) :=
  (fillList a 0 init (alloc W k a init.length s.mem)).map fun m =>
    ⟨m, Function.update s.arr i (some ⟨init.length, init.length, a⟩)⟩

/-- copy constructor (lines 57-66): `i` is the new array -/
def copy (i j a : Nat) (s : State T) : Option (State T) :=
  (s.arr j).bind fun o =>
    (loop o.size (fun x m => (peek m o.values x).bind fun v => construct a x v m) (alloc W k a o.capacity s.mem)).map fun m =>
      ⟨m, Function.update s.arr i (some ⟨o.size, o.capacity, a⟩)⟩

/-- destructor (lines 68-75) -/
def destructor (i : Nat) (s : State T) : Option (State T) :=
  (s.arr i).bind fun t => (loop t.size (fun x => destroy t.values x) s.mem).bind fun m => (dealloc t.values m).map fun m =>
    ⟨m, Function.update s.arr i none⟩

/-- `operator =` (lines 77-95), `i` and `j` may be the same object -/
def assign (i j a : Nat) (s : State T) : Option (State T) :=
  (s.arr i).bind fun t => (loop t.size (fun x => destroy t.values x) s.mem).bind fun m => (dealloc t.values m).bind fun m =>
    (s.arr j).bind fun o =>
      let arr := Function.update s.arr i (some ⟨o.size, o.capacity, a⟩)
      (arr j).bind fun o' =>
        (loop o.size (fun x m => (peek m o'.values x).bind fun v => construct a x v m) (alloc W k a o.capacity m)).map fun m => ⟨m, arr⟩

/-- `relocate` (lines 168-182) -/
def relocate (i n a : Nat) (s : State T) : Option (State T) :=
  (s.arr i).bind fun t =>
    (loop t.size (fun x m => (peek m t.values x).bind fun v => (construct a x v m).bind (destroy t.values x)) (alloc W k a n s.mem)).bind
      fun m => (dealloc t.values m).map fun m => ⟨m, Function.update s.arr i (some ⟨t.size, n, a⟩)⟩

/-- `reserve` (lines 98-109) -/
def reserve (i n a : Nat) (s : State T) : Option (State T) :=
  (s.arr i).bind fun t =>
    if n ≤ t.capacity - t.size then some s else relocate W k i (wrap W (t.size + n)) a s

/-- `clear` (lines 112-124) -/
def clear (i : Nat) (s : State T) : Option (State T) :=
  (s.arr i).bind fun t => (loop t.size (fun x => destroy t.values x) s.mem).bind fun m => (dealloc t.values m).map fun m =>
    ⟨m, Function.update s.arr i (some ⟨0, 0, 0⟩)⟩

/-- `removeAll` (lines 127-135) -/
def removeAll (i : Nat) (s : State T) : Option (State T) :=
  (s.arr i).bind fun t => (loop t.size (fun x => destroy t.values x) s.mem).map fun m =>
    ⟨m, Function.update s.arr i (some ⟨0, t.capacity, t.values⟩)⟩

/-- the new capacity in lines 145-148 -/
def grown (size : Nat) : Nat :=
  let n := wrap W (size + wrap W (size + 1) / 2)
  if n = 0 then 1 else n

/-- lines 152-153 -/
def pushBack (i : Nat) (r : Ref T) (s : State T) : Option (State T) :=
  (s.arr i).bind fun t => (r.read s.mem).bind fun v => (construct t.values t.size v s.mem).map fun m =>
    ⟨m, Function.update s.arr i (some ⟨wrap W (t.size + 1), t.capacity, t.values⟩)⟩

/-- `append` (lines 138-154); `r` is read when the new element is constructed -/
def append (i : Nat) (r : Ref T) (a : Nat) (s : State T) : Option (State T) :=
  (s.arr i).bind fun t =>
    if t.capacity = t.size then (relocate W k i (grown W t.size) a s).bind (pushBack W i r) else pushBack W i r s

/-- `removeBack` (lines 157-165) -/
def removeBack (i : Nat) (s : State T) : Option (State T) :=
  (s.arr i).bind fun t =>
    let size := wrap W (t.size + 2 ^ W - 1)
    (destroy t.values size s.mem).map fun m => ⟨m, Function.update s.arr i (some ⟨size, t.capacity, t.values⟩)⟩

/-- `array[index] = v` (dynamic_array.hpp:184-188) -/
def setAt (i index : Nat) (v : T) (s : State T) : Option (State T) :=
  (s.arr i).bind fun t => (put t.values index v s.mem).map fun m => ⟨m, s.arr⟩

end

/-- `operator []` (dynamic_array.hpp:184-200) -/
def at' (s : State T) (i index : Nat) : Option T := (s.arr i).bind fun t => peek s.mem t.values index

/-- `find` (lines 199-214 and 230-245): the index of the returned iterator, `fuel` bounds the loop -/
def find [DecidableEq T] (s : State T) (i : Nat) (v : T) : Nat → Nat → Option Nat
  | 0, _ => none
  | fuel + 1, index => (s.arr i).bind fun t =>
      if index = t.size then some index
      else (at' s i index).bind fun x => if x = v then some index else find s i v fuel (index + 1)

/-- one call of the public interface; `a` is the address the allocator would return -/
inductive Call (T : Type)
  | create (i : Nat)
  | createCap (i n a : Nat)
  | createRep (i n : Nat) (v : T) (a : Nat)
  | createList (i : Nat) (init : List T) (a : Nat)
  | copy (i j a : Nat)
  | destructor (i : Nat)
  | assign (i j a : Nat)
  | reserve (i n a : Nat)
  | clear (i : Nat)
  | removeAll (i : Nat)
  | append (i : Nat) (v : T) (a : Nat)
  | removeBack (i : Nat)
  | setAt (i index : Nat) (v : T)

def call (W k : Nat) (s : State T) : Call T → Option (State T)
  | .create i => create i s
  | .createCap i n a => createCap W k i n a s
  | .createRep i n v a => createRep W k i n v a s
  | .createList i vs a => createList W k i vs a s
  | .copy i j a => copy W k i j a s
  | .destructor i => destructor i s
  | .assign i j a => assign W k i j a s
  | .reserve i n a => reserve W k i n a s
  | .clear i => clear i s
  | .removeAll i => removeAll i s
  | .append i v a => append W k i (.val v) a s
  | .removeBack i => removeBack W i s
  | .setAt i x v => setAt i x v s

end Modm.DynamicArray
