import Mathlib.Logic.Function.Basic
/-
Models of `modm::LinkedList<T>` (src/modm/container/linked_list_impl.hpp) and `modm::DoublyLinkedList<T>`
(src/modm/container/doubly_linked_list_impl.hpp).

The heap maps addresses to live nodes; address 0 is the null pointer. `none` is undefined behaviour: dereferencing or freeing an
address that holds no live node, or a loop that does not end within `fuel` steps. The address returned by the allocator and the
contents of the fresh memory (`garbage`) are parameters. Allocation is assumed to succeed (the code does not check it).
`destroy` and `deallocate`, always called together, are one step.
-/
set_option autoImplicit false
namespace Modm.LinkedList

/-- `Node` (linked_list.hpp:99-103) -/
structure Node (T : Type) where
  value : T
  next : Nat

abbrev Heap (N : Type) := Nat → Option N

variable {N T : Type}

/-- write access to a live node -/
def poke (h : Heap N) (a : Nat) (f : N → N) : Option (Heap N) := (h a).map fun n => Function.update h a (some (f n))

/-- `destroy` and `deallocate` -/
def free (h : Heap N) (a : Nat) : Option (Heap N) := (h a).map fun _ => Function.update h a none

/-- `LinkedList` (linked_list.hpp:111-114) -/
structure State (T : Type) where
  heap : Heap (Node T)
  front : Nat
  back : Nat

/-- constructor (linked_list_impl.hpp:22-26) -/
def State.init : State T := ⟨fun _ => none, 0, 0⟩

/-- lines 65-66: allocate at `a` and copy the value; `next` is whatever was in memory -/
def create (h : Heap (Node T)) (garbage : Nat → Nat) (a : Nat) (v : T) : Heap (Node T) := Function.update h a (some ⟨v, garbage a⟩)

/-- `prepend` (lines 60-78) -/
def prepend (garbage : Nat → Nat) (a : Nat) (v : T) (s : State T) : Option (State T) :=
  (poke (create s.heap garbage a v) a fun n => { n with next := s.front }).map fun h =>
    ⟨h, a, if s.back = 0 then a else s.back⟩

/-- `append` (lines 80-101) -/
def append (garbage : Nat → Nat) (a : Nat) (v : T) (s : State T) : Option (State T) :=
  (poke (create s.heap garbage a v) a fun n => { n with next := 0 }).bind fun h =>
    if s.front = 0 then some ⟨h, a, a⟩
    else (poke h s.back fun n => { n with next := a }).map fun h => ⟨h, s.front, a⟩

/-- `insert` (lines 103-124): `pos` is the node of the iterator -/
def insert (garbage : Nat → Nat) (pos a : Nat) (v : T) (s : State T) : Option (State T) :=
  if pos = 0 then append garbage a v s
  else (create s.heap garbage a v pos).bind fun p =>
    (poke (create s.heap garbage a v) a fun n => { n with next := p.next }).bind fun h =>
      (poke h pos fun n => { n with next := a }).map fun h => ⟨h, s.front, if s.back = pos then a else s.back⟩

/-- `removeFront` (lines 127-146) -/
def removeFront (s : State T) : Option (State T) :=
  (s.heap s.front).bind fun n => (free s.heap s.front).map fun h =>
    if n.next = 0 then ⟨h, 0, 0⟩ else ⟨h, n.next, s.back⟩

/-- `removeAll` (lines 178-185) -/
def removeAll : Nat → State T → Option (State T)
  | 0, _ => none
  | fuel + 1, s => if s.front = 0 then some s else (removeFront s).bind (removeAll fuel)

/-- the loop in lines 202-218 from `node`; new state and returned iterator -/
def removeLoop (iter : Nat) : Nat → Nat → State T → Option (State T × Nat)
  | 0, _, _ => none
  | fuel + 1, node, s => (s.heap node).bind fun n =>
      if n.next = 0 then some (s, iter)
      else if n.next = iter then
        (s.heap iter).bind fun i => (poke s.heap node fun m => { m with next := i.next }).bind fun h => (free h iter).bind fun h =>
          (h node).map fun m => (⟨h, s.front, if iter = s.back then node else s.back⟩, m.next)
      else removeLoop iter fuel n.next s

/-- `remove` (lines 188-221) -/
def remove (fuel : Nat) (iter : Nat) (s : State T) : Option (State T × Nat) :=
  if s.front = 0 then some (s, s.front)
  else if iter = s.front then (removeFront s).map fun s' => (s', s'.front)
  else removeLoop iter fuel s.front s

/-- the destructor (lines 28-39): the heap afterwards -/
def destructor : Nat → State T → Option (State T)
  | 0, _ => none
  | fuel + 1, s => if s.front = 0 then some s
      else (s.heap s.front).bind fun n => (free s.heap s.front).bind fun h => destructor fuel ⟨h, n.next, s.back⟩

/-- the values seen by `for (it = begin(); it != end(); ++it) *it` (linked_list_iterator_impl.hpp:61-110, 140-176) -/
def iterate (h : Heap (Node T)) : Nat → Nat → Option (List T)
  | 0, _ => none
  | fuel + 1, node => if node = 0 then some []
      else (h node).bind fun n => (iterate h fuel n.next).map (n.value :: ·)

/-- `getSize` (lines 48-57): the same loop, counting -/
def getSize (h : Heap (Node T)) : Nat → Nat → Nat → Option Nat
  | 0, _, _ => none
  | fuel + 1, node, count => if node = 0 then some count
      else (h node).bind fun n => getSize h fuel n.next (count + 1)

/-- one call of the public interface; `garbage` is what the allocator leaves in fresh memory -/
inductive Call (T : Type)
  | prepend (garbage : Nat → Nat) (a : Nat) (v : T)
  | append (garbage : Nat → Nat) (a : Nat) (v : T)
  | insert (garbage : Nat → Nat) (pos a : Nat) (v : T)
  | removeFront
  | removeAll
  | remove (it : Nat)

def call (fuel : Nat) (s : State T) : Call T → Option (State T)
  | .prepend g a v => prepend g a v s
  | .append g a v => append g a v s
  | .insert g p a v => insert g p a v s
  | .removeFront => removeFront s
  | .removeAll => removeAll fuel s
  | .remove it => (remove fuel it s).map (·.1)

def calls (fuel : Nat) (s : State T) : List (Call T) → Option (State T)
  | [] => some s
  | c :: cs => (call fuel s c).bind fun s' => calls fuel s' cs

/-- `isEmpty` (lines 41-46) -/
def isEmpty (s : State T) : Bool := s.front = 0
/-- `getFront` (lines 149-161) -/
def getFront (s : State T) : Option T := (s.heap s.front).map (·.value)
/-- `getBack` (lines 163-175) -/
def getBack (s : State T) : Option T := (s.heap s.back).map (·.value)

end Modm.LinkedList

namespace Modm.DoublyLinkedList
open Modm.LinkedList (Heap poke free)

/-- `Node` (doubly_linked_list.hpp:82-88) -/
structure Node (T : Type) where
  value : T
  previous : Nat
  next : Nat

variable {T : Type}

/-- `DoublyLinkedList` (doubly_linked_list.hpp:96-99) -/
structure State (T : Type) where
  heap : Heap (Node T)
  front : Nat
  back : Nat

/-- constructor (doubly_linked_list_impl.hpp:22-26) -/
def State.init : State T := ⟨fun _ => none, 0, 0⟩

/-- lines 65-66 -/
def create (h : Heap (Node T)) (garbage : Nat → Nat × Nat) (a : Nat) (v : T) : Heap (Node T) :=
  Function.update h a (some ⟨v, (garbage a).1, (garbage a).2⟩)

/-- `prepend` (lines 60-83) -/
def prepend (garbage : Nat → Nat × Nat) (a : Nat) (v : T) (s : State T) : Option (State T) :=
  (poke (create s.heap garbage a v) a fun n => { n with next := s.front, previous := 0 }).bind fun h =>
    if s.front = 0 then some ⟨h, a, a⟩
    else (poke h s.front fun n => { n with previous := a }).map fun h => ⟨h, a, s.back⟩

/-- `append` (lines 85-106) -/
def append (garbage : Nat → Nat × Nat) (a : Nat) (v : T) (s : State T) : Option (State T) :=
  (poke (create s.heap garbage a v) a fun n => { n with next := 0, previous := s.back }).bind fun h =>
    if s.back = 0 then some ⟨h, a, a⟩
    else (poke h s.back fun n => { n with next := a }).map fun h => ⟨h, s.front, a⟩

/-- `removeFront` (lines 109-130) -/
def removeFront (s : State T) : Option (State T) :=
  (s.heap s.front).bind fun n =>
    if n.next = 0 then (free s.heap s.front).map fun h => ⟨h, 0, 0⟩
    else (poke s.heap n.next fun m => { m with previous := 0 }).bind fun h => (free h s.front).map fun h => ⟨h, n.next, s.back⟩

/-- `removeBack` (lines 132-153) -/
def removeBack (s : State T) : Option (State T) :=
  (s.heap s.back).bind fun n =>
    if n.previous = 0 then (free s.heap s.back).map fun h => ⟨h, 0, 0⟩
    else (poke s.heap n.previous fun m => { m with next := 0 }).bind fun h => (free h s.back).map fun h => ⟨h, s.front, n.previous⟩

/-- `erase` (lines 199-224): new state and returned iterator -/
def erase (position : Nat) (s : State T) : Option (State T × Nat) :=
  (s.heap position).bind fun p =>
    if p.previous = 0 then (removeFront s).map fun s' => (s', s'.front)
    else if p.next = 0 then (removeBack s).map fun s' => (s', 0)
    else (poke s.heap p.previous fun m => { m with next := p.next }).bind fun h =>
      (poke h p.next fun m => { m with previous := p.previous }).bind fun h =>
        (free h position).map fun h => (⟨h, s.front, s.back⟩, p.next)

/-- the destructor (lines 28-39) -/
def destructor : Nat → State T → Option (State T)
  | 0, _ => none
  | fuel + 1, s => if s.front = 0 then some s
      else (s.heap s.front).bind fun n => (free s.heap s.front).bind fun h => destructor fuel ⟨h, n.next, s.back⟩

/-- forward iteration (doubly_linked_list_iterator_impl.hpp: `operator ++`, `operator *`) -/
def iterate (h : Heap (Node T)) : Nat → Nat → Option (List T)
  | 0, _ => none
  | fuel + 1, node => if node = 0 then some []
      else (h node).bind fun n => (iterate h fuel n.next).map (n.value :: ·)

/-- walking the `previous` pointers (`operator --`) -/
def iterateBack (h : Heap (Node T)) : Nat → Nat → Option (List T)
  | 0, _ => none
  | fuel + 1, node => if node = 0 then some []
      else (h node).bind fun n => (iterateBack h fuel n.previous).map (n.value :: ·)

/-- `getSize` (lines 48-57) -/
def getSize (h : Heap (Node T)) : Nat → Nat → Nat → Option Nat
  | 0, _, _ => none
  | fuel + 1, node, count => if node = 0 then some count
      else (h node).bind fun n => getSize h fuel n.next (count + 1)

/-- one call of the public interface; `garbage` is what the allocator leaves in fresh memory -/
inductive Call (T : Type)
  | prepend (garbage : Nat → Nat × Nat) (a : Nat) (v : T)
  | append (garbage : Nat → Nat × Nat) (a : Nat) (v : T)
  | removeFront
  | removeBack
  | erase (it : Nat)

def call (s : State T) : Call T → Option (State T)
  | .prepend g a v => prepend g a v s
  | .append g a v => append g a v s
  | .removeFront => removeFront s
  | .removeBack => removeBack s
  | .erase it => (erase it s).map (·.1)

def calls (s : State T) : List (Call T) → Option (State T)
  | [] => some s
  | c :: cs => (call s c).bind fun s' => calls s' cs

/-- `isEmpty` (lines 41-46) -/
def isEmpty (s : State T) : Bool := s.front = 0
/-- `getFront` (lines 156-161) -/
def getFront (s : State T) : Option T := (s.heap s.front).map (·.value)
/-- `getBack` (lines 163-168) -/
def getBack (s : State T) : Option T := (s.heap s.back).map (·.value)

end Modm.DoublyLinkedList
