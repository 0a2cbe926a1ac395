import Verif.Lemmas.AtomicQueue
/- Property C01. -/
namespace Props
open Modm.AtomicQueue

/-- C01: every legal call history on a fresh queue of any supported capacity has exactly the results
of a bounded FIFO and never leaves the buffer, whatever the uninitialised buffer contained. -/
theorem C01_queue_is_bounded_fifo {α : Type} (N : Nat) (hN : N ≤ 65535) (mem : List α)
    (hmem : mem.length = N + 1) (ops : List (Op α)) (l : List α) (rs : List (Out α))
    (hlegal : Spec.Fifo.run N [] ops = some (l, rs)) :
    ∃ q, run N (init mem) ops = some (q, rs) := by
  obtain ⟨q, h, _⟩ := run_refines ops (rep_init mem hN hmem) hlegal
  exact ⟨q, h⟩

/-- Non-vacuity: a legal history with a refused push, wrap-around and all queries. -/
example : Spec.Fifo.run 2 ([] : List Nat)
    [.push 1, .push 2, .push 3, .isFull, .get, .pop, .push 4, .getSize, .get, .pop, .get, .pop, .isEmpty] =
    some ([], [.bool true, .bool true, .bool false, .bool true, .val 1, .unit, .bool true, .num 2,
      .val 2, .unit, .val 4, .unit, .bool true]) := by decide

/-- Non-vacuity at the switch of the index type. -/
example : ∃ l rs, Spec.Fifo.run 254 ([] : List Nat) [.push 7, .isNearlyEmpty, .isNearlyFull, .pop] = some (l, rs) :=
  ⟨_, _, rfl⟩

end Props
