import Verif.Model.AtomicQueue
/-
Independent specification: a bounded first-in first-out queue as a plain list (oldest first).
Only the call/result alphabets are shared with the model.
-/
namespace Spec.Fifo
open Modm.AtomicQueue (Op Out)

variable {α : Type}

/-- One call on the abstract queue of capacity `N`; `none` when the caller breaks the documented
contract (taking from an empty queue). -/
def step (N : Nat) (l : List α) : Op α → Option (List α × Out α)
  | .push x => if l.length < N then some (l ++ [x], .bool true) else some (l, .bool false)
  | .pop => match l with
    | [] => none
    | _ :: t => some (t, .unit)
  | .get => match l with
    | [] => none
    | h :: t => some (h :: t, .val h)
  | .isEmpty => some (l, .bool (l.length == 0))
  | .isFull => some (l, .bool (l.length == N))
  | .getSize => some (l, .num l.length)
  -- fewer than three more elements fit
  | .isNearlyFull => if 3 < N then some (l, .bool (decide (N < l.length + 3))) else none
  -- fewer than three elements stored
  | .isNearlyEmpty => if 3 < N then some (l, .bool (decide (l.length < 3))) else none

def run (N : Nat) (l : List α) : List (Op α) → Option (List α × List (Out α))
  | [] => some (l, [])
  | o :: os =>
    match step N l o with
    | none => none
    | some (l', r) =>
      match run N l' os with
      | none => none
      | some (l'', rs) => some (l'', r :: rs)

end Spec.Fifo
