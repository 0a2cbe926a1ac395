import Verif.Model.Filter
/-
Model of `modm::range` (src/modm/math/algorithm/range.hpp:27-135) for integer `T` and of the range-based `for` loop
over it.
-/
set_option autoImplicit false
namespace Modm.Range
open Modm.Saturated (Ty)
open Modm.Filter (store)

/-- `detail::Range<T>` (range.hpp:88-90) -/
structure R where
  start : Int
  stop : Int
  step : Int
deriving Repr, DecidableEq

/-- `validate` (range.hpp:73-86) -/
def validate (start stop step : Int) : Bool :=
  decide (step ≠ 0) && !((decide (start > stop) && decide (step > 0)) || (decide (start < stop) && decide (step < 0)))

/-- constructor (range.hpp:31-35) -/
def mk (start stop step : Int) : R :=
  ⟨start, if validate start stop step then stop else start, if validate start stop step then step else 1⟩

/-- `range(stop)`, `range(start, stop)`, `range(start, stop, step)` (range.hpp:97-135) -/
def range1 (stop : Int) : R := mk 0 stop 1
def range2 (start stop : Int) : R := mk start stop 1
def range3 (start stop step : Int) : R := mk start stop step

/-- `it != end()` for an iterator with current value `v` (range.hpp:56-61); the boundary is `start` (67-68) -/
def ne (r : R) (v : Int) : Bool :=
  if r.step > 0 then decide (v < r.stop) && decide (v ≥ r.start)
  else decide (v > r.stop) && decide (v ≤ r.start)

/-- `for (auto it = r.begin(); it != r.end(); ++it)`: values visited from `v` within `fuel` steps. `none`: not finished
after `fuel` steps, or undefined behaviour in `value_ += step_` (range.hpp:47). -/
def loop (t : Ty) (r : R) : Nat → Int → Option (List Int)
  | 0, _ => none
  | fuel + 1, v =>
    if ne r v then do
      let v' ← store t (v + r.step)
      let l ← loop t r fuel v'
      some (v :: l)
    else some []

/-- the loop finishes and visits exactly `l` -/
def Visits (t : Ty) (r : R) (l : List Int) : Prop := ∃ fuel, loop t r fuel r.start = some l

end Modm.Range
