import Mathlib.Logic.Function.Basic
/-
Model of `modm::SmartPointer` (src/modm/container/smart_pointer.cpp, .hpp): handles to buffers with an 8 bit reference counter in
byte 0 and the payload behind it. `none` is undefined behaviour: access to a freed buffer, double free, use of a handle that does
not exist. `new` is assumed to succeed and to return a fresh address.
-/
set_option autoImplicit false
namespace Modm.SmartPointer
variable {P : Type}

/-- a buffer: `ptr[0]` and the payload from `ptr[4]` on -/
structure Buffer (P : Type) where
  count : Nat
  payload : P

structure State (P : Type) where
  heap : Nat → Option (Buffer P)
  ptr : Nat → Option Nat

def State.init : State P := ⟨fun _ => none, fun _ => none⟩

/-- `ptr[0]++` -/
def inc (a : Nat) (heap : Nat → Option (Buffer P)) : Option (Nat → Option (Buffer P)) :=
  (heap a).map fun b => Function.update heap a (some ⟨(b.count + 1) % 256, b.payload⟩)

/-- `--ptr[0]` -/
def lowered (b : Buffer P) : Nat := (b.count + 255) % 256

/-- `if (--ptr[0] == 0) delete[] ptr;` (lines 45-47 and 60-62) -/
def dec (a : Nat) (heap : Nat → Option (Buffer P)) : Option (Nat → Option (Buffer P)) :=
  (heap a).map fun b => Function.update heap a (if lowered b = 0 then none else some ⟨lowered b, b.payload⟩)

/-- the constructors that allocate (smart_pointer.cpp:20-26, 36-41, smart_pointer.hpp:56-63): handle `h`, buffer at `a` -/
def create (h a : Nat) (p : P) (s : State P) : Option (State P) :=
  some ⟨Function.update s.heap a (some ⟨1, p⟩), Function.update s.ptr h (some a)⟩

/-- copy constructor (lines 28-32): the new handle `h` copies `g` -/
def copy (h g : Nat) (s : State P) : Option (State P) :=
  (s.ptr g).bind fun a => (inc a s.heap).map fun heap => ⟨heap, Function.update s.ptr h (some a)⟩

/-- destructor (lines 43-48) -/
def destroy (h : Nat) (s : State P) : Option (State P) :=
  (s.ptr h).bind fun a => (dec a s.heap).map fun heap => ⟨heap, Function.update s.ptr h none⟩

/-- `operator =` (lines 57-68) -/
def assign (h g : Nat) (s : State P) : Option (State P) :=
  (s.ptr h).bind fun a => (dec a s.heap).bind fun heap => (s.ptr g).bind fun b =>
    (inc b heap).map fun heap => ⟨heap, Function.update s.ptr h (some b)⟩

/-- writing through `getPointer()` (smart_pointer.hpp:75-79) -/
def write (h : Nat) (p : P) (s : State P) : Option (State P) :=
  (s.ptr h).bind fun a => (s.heap a).map fun b => ⟨Function.update s.heap a (some ⟨b.count, p⟩), s.ptr⟩

/-- `get` (smart_pointer.hpp:94-99) -/
def read (h : Nat) (s : State P) : Option P := (s.ptr h).bind fun a => (s.heap a).map (·.payload)

inductive Call (P : Type)
  | create (h a : Nat) (p : P)
  | copy (h g : Nat)
  | destroy (h : Nat)
  | assign (h g : Nat)
  | write (h : Nat) (p : P)

def call (s : State P) : Call P → Option (State P)
  | .create h a p => create h a p s
  | .copy h g => copy h g s
  | .destroy h => destroy h s
  | .assign h g => assign h g s
  | .write h p => write h p s

end Modm.SmartPointer
