import Mathlib.Data.Rat.Lemmas
import Mathlib.Algebra.Order.Ring.Rat

/-!
`modm::SCurveController`.

Models `/repo/src/modm/math/filter/s_curve_controller_impl.hpp` with rational numbers instead of `float`; the square
root is a function.  A member that was never written, and a division by zero, is `none`.
-/

set_option autoImplicit false

namespace Model.SCurve

/-- s_curve_controller_impl.hpp:26-34: `Parameter`. -/
structure Parameter where
  targetArea : ℚ
  increment : ℚ
  decreaseFactor : ℚ
  kp : ℚ
  speedMaximum : ℚ
  speedMinimum : ℚ
  speedTarget : ℚ

structure St where
  output : ℚ
  targetReached : Bool
  parameter : Parameter
  additionalDistanceToStop : Option ℚ

/-- s_curve_controller_impl.hpp:49-53: the constructor; `additionalDistanceToStop` is not initialised. -/
def construct (p : Parameter) : St := ⟨0, false, p, none⟩

/-- s_curve_controller_impl.hpp:43,76. -/
def distance (speed decreaseFactor : ℚ) : Option ℚ :=
  if decreaseFactor = 0 then none else some (speed * speed / decreaseFactor / 2)

/-- s_curve_controller_impl.hpp:38-44: `setParameter()`. -/
def setParameter (s : St) (p : Parameter) : St :=
  { s with parameter := p, additionalDistanceToStop := distance p.speedTarget p.decreaseFactor }

/-- s_curve_controller_impl.hpp:56-61: `setSpeedMaximum()`. -/
def setSpeedMaximum (s : St) (v : ℚ) : St := { s with parameter := { s.parameter with speedMaximum := v } }

/-- s_curve_controller_impl.hpp:64-69: `setSpeedMinimim()`. -/
def setSpeedMinimum (s : St) (v : ℚ) : St := { s with parameter := { s.parameter with speedMinimum := v } }

/-- s_curve_controller_impl.hpp:72-77: `setSpeedTarget()`. -/
def setSpeedTarget (s : St) (v : ℚ) : St :=
  { s with parameter := { s.parameter with speedTarget := v }, additionalDistanceToStop := distance v s.parameter.decreaseFactor }

/-- s_curve_controller_impl.hpp:88-132: `update()`. -/
def update (sqrt : ℚ → ℚ) (s : St) (error speed : ℚ) : Option St :=
  let p := s.parameter
  let invert := decide (error < 0)
  let current := if error < 0 then -speed else speed
  let error := if error < 0 then -error else error
  let outputIncrement := current + p.increment
  let targetReached := decide (error ≤ p.targetArea)
  match s.additionalDistanceToStop with
  | none => none
  | some extra =>
    let error := error + extra
    let outputDecrement := if error ≤ p.targetArea then error * p.kp else sqrt (error * p.decreaseFactor * 2)
    let output := if outputIncrement < outputDecrement then outputIncrement else outputDecrement
    let output := if output < p.speedMaximum then output else p.speedMaximum
    let output := if output < p.speedMinimum then p.speedMinimum else output
    let output := if invert then -output else output
    some { s with output := output, targetReached := targetReached }

end Model.SCurve
