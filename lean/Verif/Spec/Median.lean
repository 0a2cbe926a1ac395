import Mathlib.Order.Defs.LinearOrder
/- Independent specification of a median and of a sample window. -/
set_option autoImplicit false
namespace Spec.Median
universe u
variable {T : Type u} [LinearOrder T]

/-- `m` is the median of `l`: an element such that more than half of the elements are at most `m` and more than
half are at least `m`. (Unique and existing for odd length, see `Props.C26_median_unique`.) -/
def IsMedian (l : List T) (m : T) : Prop :=
  m ∈ l ∧ l.length < 2 * l.countP (fun x => decide (x ≤ m)) ∧ l.length < 2 * l.countP (fun x => decide (m ≤ x))

/-- the last `n` entries of the infinite past `init, init, ..., h` -/
def window (n : Nat) (init : T) (h : List T) : List T :=
  (List.replicate n init ++ h).drop h.length

end Spec.Median
