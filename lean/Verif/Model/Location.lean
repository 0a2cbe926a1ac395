import Mathlib.Algebra.Order.Archimedean.Basic
import Mathlib.Algebra.Order.Group.Defs
import Mathlib.Data.Rat.Floor
import Mathlib.Algebra.Order.Floor.Ring

/-!
Angles and locations in the plane.

Models `/repo/src/modm/math/geometry/angle.cpp` and
`/repo/src/modm/math/geometry/location_2d_impl.hpp`.

Angles are elements of an ordered group `A`, `pi` is any element of it (in the code the float nearest to
the number); every result of an addition goes through `rnd`, which is `id` for exact arithmetic and
`rnd32` for single precision.  Cosine and sine are two arbitrary functions.
-/

set_option autoImplicit false

namespace Model.Location

section Angle
variable {A : Type} [AddCommGroup A] [LinearOrder A]

/-- angle.cpp:25-27: the loop for positive angles; `none` when it has not ended after `n` rounds. -/
def down (pi : A) (rnd : A → A) : Nat → A → Option A
  | 0, a => if pi < a then none else some a
  | n + 1, a => if pi < a then down pi rnd n (rnd (a - (pi + pi))) else some a

/-- angle.cpp:30-32: the loop for negative angles. -/
def up (pi : A) (rnd : A → A) : Nat → A → Option A
  | 0, a => if a < -pi then none else some a
  | n + 1, a => if a < -pi then up pi rnd n (rnd (a + (pi + pi))) else some a

/-- angle.cpp:20-36: `normalize()`.  `isPositive` (math/utils/misc.hpp:33-37) is the sign; the negative
zero is not modelled. -/
def normalize (pi : A) (rnd : A → A) (n : Nat) (a : A) : Option A :=
  if 0 ≤ a then down pi rnd n a else up pi rnd n a

/-- angle.cpp:39-51: `reverse()`. -/
def reverse (pi : A) (rnd : A → A) (a : A) : A :=
  if 0 ≤ a then rnd (a - pi) else rnd (a + pi)

/-- angle.cpp:54-66: `perpendicular()`, `half` is half of `pi`. -/
def perpendicular (half : A) (rnd : A → A) (n : Nat) (a : A) (cw : Bool) : Option A :=
  if cw then normalize (half + half) rnd n (rnd (a - half)) else normalize (half + half) rnd n (rnd (a + half))

end Angle

/-- The nearest integer, halves to the even one (IEEE 754). -/
def nearestEven (q : ℚ) : Int :=
  let f := ⌊q⌋
  if q - f < 1 / 2 then f
  else if q - f = 1 / 2 then (if f % 2 = 0 then f else f + 1)
  else f + 1

/-- Rounding to single precision of numbers of magnitude at least one and below the largest float
(smaller ones are left as they are, which is not what the hardware does). -/
def rnd32 (q : ℚ) : ℚ :=
  if |q| < 1 then q
  else
    let e := Nat.log2 ⌊|q|⌋.toNat
    let ulp : ℚ := (2 ^ e : Nat) / (2 ^ 23 : Nat)
    nearestEven (q / ulp) * ulp

/-- `std::numbers::pi_v<float>`: 0x40490fdb. -/
def piFloat : ℚ := 13176795 / 4194304

section Loc
variable {A K : Type} [AddCommGroup A] [LinearOrder A] [CommRing K]

/-- location_2d.hpp: position and orientation. -/
structure Loc (A K : Type) where
  x : K
  y : K
  phi : A
  deriving DecidableEq

/-- vector2_impl.hpp:195-206: `rotate()`, without the rounding for integers. -/
def rotate (cos sin : A → K) (phi : A) (x y : K) : K × K :=
  (cos phi * x - sin phi * y, sin phi * x + cos phi * y)

/-- location_2d_impl.hpp:96-103: `move(Location2D)`. -/
def move (cos sin : A → K) (pi : A) (n : Nat) (l d : Loc A K) : Option (Loc A K) :=
  let m := rotate cos sin l.phi d.x d.y
  (normalize pi id n (l.phi + d.phi)).map fun phi => ⟨l.x + m.1, l.y + m.2, phi⟩

/-- location_2d_impl.hpp:107-113: `move(Vector)`. -/
def moveVector (cos sin : A → K) (l : Loc A K) (x y : K) : Loc A K :=
  let m := rotate cos sin l.phi x y
  ⟨l.x + m.1, l.y + m.2, l.phi⟩

/-- location_2d_impl.hpp:117-124: `move(x, phi)`. -/
def moveStraight (cos sin : A → K) (pi : A) (n : Nat) (l : Loc A K) (x : K) (phi : A) : Option (Loc A K) :=
  (normalize pi id n (l.phi + phi)).map fun p => ⟨l.x + x * cos l.phi, l.y + x * sin l.phi, p⟩

/-- location_2d_impl.hpp:129-136: `translated()`. -/
def translated (cos sin : A → K) (l : Loc A K) (x y : K) : K × K :=
  let r := rotate cos sin l.phi x y
  (r.1 + l.x, r.2 + l.y)

end Loc

/-- `__FLT_EPSILON__`. -/
def epsilon : ℚ := 1 / 8388608

/-- location_2d_impl.hpp:147-153: `operator ==`. -/
def eqLoc (a b : Loc ℚ ℚ) : Bool :=
  decide (a.x = b.x ∧ a.y = b.y) && decide (|a.phi - b.phi| < epsilon)

/-- location_2d_impl.hpp:155-161: `operator !=`. -/
def neLoc (a b : Loc ℚ ℚ) : Bool :=
  !decide (a.x = b.x ∧ a.y = b.y) || decide (|a.phi - b.phi| > epsilon)

end Model.Location
