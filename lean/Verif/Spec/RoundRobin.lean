/-
Round-robin scheduling as a queue, independent of how it is programmed.
-/
set_option autoImplicit false
namespace Spec.RoundRobin

/-- the scheduled fibers in the order in which they run next; when `running`, the first one is running now -/
structure Queue where
  fibers : List Nat
  running : Bool
  deriving DecidableEq

def empty : Queue := ⟨[], false⟩

/-- a new fiber runs after all the others -/
def add (q : Queue) (t : Nat) : Queue := if t ∈ q.fibers then q else { q with fibers := q.fibers ++ [t] }

/-- the running fiber moves behind all the others -/
def yield (q : Queue) : Queue :=
  match q.running, q.fibers with
  | true, c :: l => { q with fibers := l ++ [c] }
  | _, _ => q

/-- the running fiber ends -/
def finish (q : Queue) : Queue := ⟨q.fibers.tail, !q.fibers.tail.isEmpty⟩

/-- the main program starts the fibers -/
def start (q : Queue) : Queue := { q with running := !q.fibers.isEmpty }

/-- who runs now -/
def now (q : Queue) : Option Nat := if q.running then q.fibers.head? else none

end Spec.RoundRobin
