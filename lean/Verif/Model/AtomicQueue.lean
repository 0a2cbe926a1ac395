/-
Model of `modm::atomic::Queue<T, N>`
(src/modm/architecture/driver/atomic/queue.hpp:36-101 and queue_impl.hpp:19-123).

Conventions: `none` is undefined behaviour (access outside `buffer[N+1]`).
-/
namespace Modm.AtomicQueue

/-- Number of values of `Index`: `uint16_t` when `N >= 254`, else `uint8_t` (queue.hpp:41). -/
def idxMod (N : Nat) : Nat := if N ≥ 254 then 65536 else 256

/-- The three members `head`, `tail`, `buffer[N+1]` (queue.hpp:97-100). -/
structure Q (α : Type) where
  head : Nat
  tail : Nat
  buf  : List α
deriving Repr, DecidableEq

variable {α : Type}

/-- Constructor (queue_impl.hpp:20-26); the buffer is left uninitialised, so its content is a parameter. -/
def init (b : List α) : Q α := { head := 0, tail := 0, buf := b }

/-- `Index tmp = idx + 1; if (tmp >= N+1) tmp = 0;`, used in `isFull` (queue_impl.hpp:32-35),
`push` (100-103) and `pop` (118-121). The addition is done in `int` and truncated to `Index`. -/
def next (N i : Nat) : Nat :=
  let t := (i + 1) % idxMod N
  if t ≥ N + 1 then 0 else t

/-- `isFull` (queue_impl.hpp:30-38). -/
def isFull (N : Nat) (q : Q α) : Bool := next N q.head == q.tail

/-- `isEmpty` (queue_impl.hpp:50-53). -/
def isEmpty (q : Q α) : Bool := q.head == q.tail

/-- `getSize` (queue_impl.hpp:73-87); the subtraction in the else-branch is done in `size_t` and
truncated to `Index`, i.e. it is taken modulo `idxMod N`. -/
def getSize (N : Nat) (q : Q α) : Nat :=
  if q.head ≥ q.tail then (q.head - q.tail) % idxMod N
  else (N + 1 + idxMod N - q.tail + q.head) % idxMod N

/-- `isNearlyFull` (queue_impl.hpp:42-46), only instantiable for `N > 3`. -/
def isNearlyFull (N : Nat) (q : Q α) : Bool := getSize N q > N - 3

/-- `isNearlyEmpty` (queue_impl.hpp:57-61), only instantiable for `N > 3`. -/
def isNearlyEmpty (N : Nat) (q : Q α) : Bool := getSize N q < 3

/-- `get` (queue_impl.hpp:91-94). -/
def get (q : Q α) : Option α := q.buf[q.tail]?

/-- `push` (queue_impl.hpp:98-112). -/
def push (N : Nat) (q : Q α) (x : α) : Option (Q α × Bool) :=
  let tmphead := next N q.head
  if tmphead == q.tail then some (q, false)
  else if q.head < q.buf.length then
    some ({ q with buf := q.buf.set q.head x, head := tmphead }, true)
  else none

/-- `pop` (queue_impl.hpp:116-123). No emptiness check. -/
def pop (N : Nat) (q : Q α) : Q α := { q with tail := next N q.tail }

/-- Calls of the public interface. -/
inductive Op (α : Type) where
  | push (x : α)
  | pop
  | get
  | isEmpty
  | isFull
  | getSize
  | isNearlyFull
  | isNearlyEmpty
deriving Repr, DecidableEq

/-- Observable results. -/
inductive Out (α : Type) where
  | unit
  | bool (b : Bool)
  | num (n : Nat)
  | val (x : α)
deriving Repr, DecidableEq

/-- One public call on the model. -/
def step (N : Nat) (q : Q α) : Op α → Option (Q α × Out α)
  | .push x => (push N q x).map fun r => (r.1, .bool r.2)
  | .pop => some (pop N q, .unit)
  | .get => (get q).map fun v => (q, .val v)
  | .isEmpty => some (q, .bool (isEmpty q))
  | .isFull => some (q, .bool (isFull N q))
  | .getSize => some (q, .num (getSize N q))
  | .isNearlyFull => some (q, .bool (isNearlyFull N q))
  | .isNearlyEmpty => some (q, .bool (isNearlyEmpty N q))

/-- A sequence of calls; `none` as soon as one call has undefined behaviour. -/
def run (N : Nat) (q : Q α) : List (Op α) → Option (Q α × List (Out α))
  | [] => some (q, [])
  | o :: os => do
    let (q', r) ← step N q o
    let (q'', rs) ← run N q' os
    pure (q'', r :: rs)

end Modm.AtomicQueue
