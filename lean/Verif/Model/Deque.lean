/-
Model of `modm::BoundedDeque<T, N>` (src/modm/container/deque.hpp:55-236 and deque_impl.hpp:18-401) and of
the adaptors `BoundedQueue` (queue.hpp) and `BoundedStack` (stack.hpp).

Conventions: `none` is undefined behaviour (access outside `buffer[N]`). Stores to the members are truncated
to the narrowest width the index type can have; intermediate sums are exact (`int`/`size_t`).
-/
set_option autoImplicit false
namespace Modm.Deque

/-- Number of values of `Index`/`Size`: `uint_fast16_t` when `N >= 255`, else `uint_fast8_t`
(deque.hpp:60-64). The fast types are modelled at their minimum width. -/
def idxMod (N : Nat) : Nat := if N ≥ 255 then 65536 else 256

/-- Members `head`, `tail`, `size`, `buffer[N]` (deque.hpp:230-235). -/
structure D (α : Type) where
  head : Nat
  tail : Nat
  size : Nat
  buf  : List α
deriving Repr, DecidableEq

variable {α : Type}

/-- Constructor (deque_impl.hpp:20-24); the buffer content is unspecified, hence a parameter. -/
def init (N : Nat) (b : List α) : D α := { head := 0, tail := if N == 1 then 0 else 1, size := 0, buf := b }

/-- `isEmpty` (deque_impl.hpp:30-33). -/
def isEmpty (d : D α) : Bool := d.size == 0
/-- `isFull` (deque_impl.hpp:37-40). -/
def isFull (N : Nat) (d : D α) : Bool := d.size == N
/-- `getSize` (deque_impl.hpp:44-47). -/
def getSize (d : D α) : Nat := d.size

/-- `clear` (deque_impl.hpp:60-65). -/
def clear (N : Nat) (d : D α) : D α := { d with head := 0, tail := if N == 1 then 0 else 1, size := 0 }

/-- `getFront` (deque_impl.hpp:71-82). -/
def getFront (d : D α) : Option α := d.buf[d.tail]?
/-- `getBack` (deque_impl.hpp:87-98). -/
def getBack (d : D α) : Option α := d.buf[d.head]?

/-- `get(n)` / `operator[]` (deque_impl.hpp:113-121). -/
def get (N : Nat) (d : D α) (n : Nat) : Option α :=
  if d.tail + n > N - 1 then d.buf[d.tail + n - N]? else d.buf[d.tail + n]?

/-- `rget(n)` (deque_impl.hpp:151-159). -/
def rget (N : Nat) (d : D α) (n : Nat) : Option α :=
  if d.head < n then d.buf[N - (n - d.head)]? else d.buf[d.head - n]?

/-- `if (i >= N-1) i = 0; else i++;` (deque_impl.hpp:172-177, 189-194, 200-205, 281-286). -/
def inc (N i : Nat) : Nat := if i ≥ N - 1 then 0 else (i + 1) % idxMod N

/-- `if (i == 0) i = N-1; else i--;` (deque_impl.hpp:217-222, 236-241, 253-258, 264-269). -/
def dec (N i : Nat) : Nat := if i == 0 then (N - 1) % idxMod N else i - 1

/-- `buffer[i] = value` -/
def store (d : D α) (i : Nat) (x : α) : Option (D α) :=
  if i < d.buf.length then some { d with buf := d.buf.set i x } else none

/-- `append` (deque_impl.hpp:166-182). -/
def append (N : Nat) (d : D α) (x : α) : Option (D α × Bool) :=
  if isFull N d then some (d, false)
  else do
    let d1 := { d with head := inc N d.head }
    let d2 ← store d1 d1.head x
    some ({ d2 with size := (d2.size + 1) % idxMod N }, true)

/-- `appendOverwrite` (deque_impl.hpp:186-209). -/
def appendOverwrite (N : Nat) (d : D α) (x : α) : Option (D α) :=
  let d1 := if isFull N d then { d with tail := inc N d.tail } else { d with size := (d.size + 1) % idxMod N }
  let d2 := { d1 with head := inc N d1.head }
  store d2 d2.head x

/-- `removeBack` (deque_impl.hpp:215-224). -/
def removeBack (N : Nat) (d : D α) : D α :=
  { d with head := dec N d.head, size := (d.size + idxMod N - 1) % idxMod N }

/-- `prepend` (deque_impl.hpp:230-246). -/
def prepend (N : Nat) (d : D α) (x : α) : Option (D α × Bool) :=
  if isFull N d then some (d, false)
  else do
    let d1 := { d with tail := dec N d.tail }
    let d2 ← store d1 d1.tail x
    some ({ d2 with size := (d2.size + 1) % idxMod N }, true)

/-- `prependOverwrite` (deque_impl.hpp:250-273). -/
def prependOverwrite (N : Nat) (d : D α) (x : α) : Option (D α) :=
  let d1 := if isFull N d then { d with head := dec N d.head } else { d with size := (d.size + 1) % idxMod N }
  let d2 := { d1 with tail := dec N d1.tail }
  store d2 d2.tail x

/-- `removeFront` (deque_impl.hpp:279-289). -/
def removeFront (N : Nat) (d : D α) : D α :=
  { d with tail := inc N d.tail, size := (d.size + idxMod N - 1) % idxMod N }

/-- `const_iterator` (deque.hpp:180-219): `index` and `count` (the parent is passed explicitly). -/
structure It where
  index : Nat
  count : Nat
deriving Repr, DecidableEq

/-- `begin()` (deque_impl.hpp:391-394). -/
def begin (d : D α) : It := { index := d.tail, count := 0 }
/-- `end()` (deque_impl.hpp:398-401). -/
def end' (N : Nat) : It := { index := N, count := 0 }

/-- `operator ++` (deque_impl.hpp:325-338). -/
def It.incr (N : Nat) (d : D α) (i : It) : It :=
  let c := (i.count + 1) % idxMod N
  if c ≥ d.size then { index := N, count := c }
  else
    let j := (i.index + 1) % idxMod N
    { index := if j ≥ N then 0 else j, count := c }

/-- `operator --` (deque_impl.hpp:342-357). -/
def It.decr (N : Nat) (i : It) : It :=
  if i.count == 0 then { i with index := N }
  else { count := i.count - 1, index := if i.index == 0 then (N - 1) % idxMod N else i.index - 1 }

/-- the iterator `begin()` after `k` applications of `++` -/
def advance (N : Nat) (d : D α) : Nat → It
  | 0 => begin d
  | k + 1 => (advance N d k).incr N d

/-- `operator !=` (deque_impl.hpp:368-371): compares the index only. -/
def It.ne (a b : It) : Bool := a.index != b.index

/-- The loop `for (it = begin(); it != end(); ++it) visit(*it);` started at `it`, with `fuel` iterations
allowed. Result: `none` for an out-of-bounds `*it`, `some none` when the fuel runs out, `some (some l)` when
the loop ends after visiting `l`. -/
def loop (N : Nat) (d : D α) : Nat → It → Option (Option (List α))
  | 0, it => if it.ne (end' N) then some none else some (some [])
  | fuel + 1, it =>
    if it.ne (end' N) then do
      let x ← d.buf[it.index]?
      let r ← loop N d fuel (it.incr N d)
      some (r.map (x :: ·))
    else some (some [])

/-- Calls and results. -/
inductive Op (α : Type) where
  | append (x : α) | prepend (x : α) | appendOverwrite (x : α) | prependOverwrite (x : α)
  | removeFront | removeBack | clear
  | getFront | getBack | get (n : Nat) | rget (n : Nat) | isEmpty | isFull | getSize
deriving Repr, DecidableEq

inductive Out (α : Type) where
  | unit | bool (b : Bool) | num (n : Nat) | val (x : α)
deriving Repr, DecidableEq

def step (N : Nat) (d : D α) : Op α → Option (D α × Out α)
  | .append x => (append N d x).map fun (d, b) => (d, .bool b)
  | .prepend x => (prepend N d x).map fun (d, b) => (d, .bool b)
  | .appendOverwrite x => (appendOverwrite N d x).map fun d => (d, .unit)
  | .prependOverwrite x => (prependOverwrite N d x).map fun d => (d, .unit)
  | .removeFront => some (removeFront N d, .unit)
  | .removeBack => some (removeBack N d, .unit)
  | .clear => some (clear N d, .unit)
  | .getFront => (getFront d).map fun v => (d, .val v)
  | .getBack => (getBack d).map fun v => (d, .val v)
  | .get n => (get N d n).map fun v => (d, .val v)
  | .rget n => (rget N d n).map fun v => (d, .val v)
  | .isEmpty => some (d, .bool (isEmpty d))
  | .isFull => some (d, .bool (isFull N d))
  | .getSize => some (d, .num (getSize d))

def run (N : Nat) (d : D α) : List (Op α) → Option (D α × List (Out α))
  | [] => some (d, [])
  | o :: os => do
    let (d', r) ← step N d o
    let (d'', rs) ← run N d' os
    pure (d'', r :: rs)

/-- `BoundedQueue` calls in terms of the container (queue.hpp:44-99): `push` is `append`, `get` is
`getFront`, `pop` is `removeFront`. -/
inductive AOp (α : Type) where
  | push (x : α) | pop | get | isEmpty | isFull | getSize
deriving Repr, DecidableEq

def queueOp : AOp α → Op α
  | .push x => .append x
  | .pop => .removeFront
  | .get => .getFront
  | .isEmpty => .isEmpty
  | .isFull => .isFull
  | .getSize => .getSize

/-- `BoundedStack` calls (stack.hpp:43-88): `push` is `prepend`, `get` is `getFront`, `pop` is
`removeFront`. -/
def stackOp : AOp α → Op α
  | .push x => .prepend x
  | .pop => .removeFront
  | .get => .getFront
  | .isEmpty => .isEmpty
  | .isFull => .isFull
  | .getSize => .getSize

end Modm.Deque
