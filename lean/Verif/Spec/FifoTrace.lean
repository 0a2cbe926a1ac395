import Verif.Model.AtomicQueueConc
/- Independent specification of an event trace of a bounded FIFO channel. -/
namespace Spec.FifoTrace
open Modm.AtomicQueue.Conc (Ev)
variable {α : Type}

/-- `Accepts N l held tr`: starting with undelivered elements `l` (the first of which is currently held by
the consumer iff `held`), the trace `tr` is one of a FIFO channel with `N` places: pushes happen only
below capacity, refusals only at capacity, each element is taken once, in order, before it is freed. -/
def Accepts (N : Nat) : List α → Bool → List (Ev α) → Prop
  | _, _, [] => True
  | l, held, .pushed x :: tr => l.length < N ∧ Accepts N (l ++ [x]) held tr
  | l, held, .refused _ :: tr => l.length = N ∧ Accepts N l held tr
  | [], _, .took _ :: _ => False
  | v :: l, held, .took w :: tr => held = false ∧ w = v ∧ Accepts N (v :: l) true tr
  | [], _, .freed :: _ => False
  | _ :: l, held, .freed :: tr => held = true ∧ Accepts N l false tr

/-- values put in / taken out along a trace -/
def pushes : List (Ev α) → List α
  | [] => []
  | .pushed x :: t => x :: pushes t
  | _ :: t => pushes t

def takes : List (Ev α) → List α
  | [] => []
  | .took x :: t => x :: takes t
  | _ :: t => takes t

end Spec.FifoTrace
