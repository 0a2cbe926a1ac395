import Mathlib.Algebra.BigOperators.Group.Finset.Basic
import Mathlib.Algebra.BigOperators.Intervals
set_option autoImplicit false

/-!
# What a readout is to give

The conversions of a readout are numbered; `v k` is what the `k`-th gives.
-/

namespace Spec.AdcSampler

open Finset

/-- The mean of the `n` conversions `first`, `first + step`, …, rounded down. -/
def mean (v : Nat → Nat) (first step n : Nat) : Nat := (∑ r ∈ range n, v (first + r * step)) / n

/-- The channels of the first `n` conversions: the map from its beginning, over and over. -/
def channels (map : Nat → Nat) (c n : Nat) : List Nat := (List.range n).map (fun k => map (k % c))

/-- How many conversions a readout takes. -/
def conversions (c over : Nat) : Nat := if over > 1 then over * c + 1 else c

/-- The first conversion which counts for an element. -/
def first (c over i : Nat) : Nat := if over > 1 ∧ i = 0 then c else i

end Spec.AdcSampler
