import Mathlib.Data.Int.Notation
import Mathlib.Data.Nat.Notation
import Mathlib.Data.Nat.Sqrt

set_option autoImplicit false

/-!
# Plane geometry with integer coordinates

Model of `src/modm/math/geometry/{vector2,line_segment_2d,polygon_2d,ray_2d,line_2d,circle_2d}`
for `T = int16_t` (the default of all these templates but `Vector`), so `WideType` is `int32_t`
(`geometric_traits.hpp:76-90`), on a target where `int` has 32 bits.

A value of type `int16_t` or `int32_t` is an integer.  Storing an `int` in an `int16_t` wraps
around; signed overflow of 32 bit arithmetic is undefined and gives `none`.

Coordinates computed with `float` (the intersection points themselves, angles, lengths other than
of `int16_t` vectors) are not modelled, only how many points a function appends and what it returns.
-/

namespace Modm.Geometry

/-- Conversion of an `int` to `int16_t`. -/
def i16 (n : ℤ) : ℤ := Int.bmod n 65536

/-- The result of an operation on `int32_t` operands. -/
def i32 (n : ℤ) : Option ℤ := if -2147483648 ≤ n ∧ n ≤ 2147483647 then some n else none

/-- `Vector<int16_t, 2>`. -/
@[ext] structure Vec where
  x : ℤ
  y : ℤ
deriving DecidableEq, Repr

/-! ## Vector -/

/-- `operator -`, `vector2_impl.hpp:408-413`. -/
def sub (a b : Vec) : Vec := ⟨i16 (a.x - b.x), i16 (a.y - b.y)⟩

/-- `operator +`, `vector2_impl.hpp:416-421`. -/
def add (a b : Vec) : Vec := ⟨i16 (a.x + b.x), i16 (a.y + b.y)⟩

/-- `toOrthogonalVector`, `vector2_impl.hpp:262-267`. -/
def orthogonal (a : Vec) : Vec := ⟨a.y, i16 (-a.x)⟩

/-- `Vector<int16_t, 2>::dot`, `vector2.cpp:49-59`; `math::mul` and `math::mac`,
`operator_impl.hpp:25-35`. -/
def dot (a b : Vec) : Option ℤ := do
  let p ← i32 (a.x * b.x)
  let q ← i32 (a.y * b.y)
  i32 (p + q)

/-- `cross`, `vector2_impl.hpp:245-251`. -/
def cross (a b : Vec) : Option ℤ := do
  let p ← i32 (a.x * b.y)
  let q ← i32 (a.y * b.x)
  i32 (p - q)

/-- `Vector<int16_t, 2>::getLengthSquared`, `vector2.cpp:37-47`. -/
def lengthSquared (a : Vec) : Option ℤ := dot a a

/-- The integer next to the square root: `round(std::sqrt(static_cast<double>(input)))`,
`pc/operator.cpp:17-22`.  A `double` is precise enough for every 32 bit input, and half an integer
is never the square root of an integer. -/
def sqrtRound (n : ℕ) : ℕ := if n - Nat.sqrt n * Nat.sqrt n ≤ Nat.sqrt n then Nat.sqrt n else Nat.sqrt n + 1

/-- `Vector<int16_t, 2>::getLength`, `vector2.cpp:25-35`: the square root is a `uint16_t`, the
result an `int16_t`. -/
def length (a : Vec) : Option ℤ := do
  let t ← lengthSquared a
  some (i16 (sqrtRound t.toNat))

/-- `getDistanceTo`, `vector2_impl.hpp:220-225`. -/
def distanceTo (a b : Vec) : Option ℤ := length (sub b a)

/-- `operator *`, `vector2_impl.hpp:424-429`: the dot product as a `T`. -/
def mulOp (a b : Vec) : Option ℤ := do
  let p ← i32 (a.x * b.x)
  let q ← i32 (a.y * b.y)
  let s ← i32 (p + q)
  some (i16 s)

/-- `operator ^`, `vector2_impl.hpp:432-437`: the cross product as a `T`. -/
def xorOp (a b : Vec) : Option ℤ := do
  let p ← i32 (a.x * b.y)
  let q ← i32 (a.y * b.x)
  let s ← i32 (p - q)
  some (i16 s)

/-- `operator ==`, `vector2_impl.hpp:325-328`. -/
def eq (a b : Vec) : Bool := b.x == a.x && b.y == a.y

/-- `operator !=`, `vector2_impl.hpp:332-335`. -/
def ne (a b : Vec) : Bool := b.x != a.x || b.y != a.y

/-- `operator <`, `vector2_impl.hpp:339-342`. -/
def lt (a b : Vec) : Bool := decide (a.x < b.x) || (a.x == b.x && decide (a.y < b.y))

/-- `operator <=`, `vector2_impl.hpp:346-349`. -/
def le (a b : Vec) : Bool := decide (a.x < b.x) || (a.x == b.x && decide (a.y ≤ b.y))

/-- `operator >`, `vector2_impl.hpp:352-357`. -/
def gt (a b : Vec) : Bool := decide (a.x > b.x) || (a.x == b.x && decide (a.y > b.y))

/-- `operator >=`, `vector2_impl.hpp:360-365`. -/
def ge (a b : Vec) : Bool := decide (a.x > b.x) || (a.x == b.x && decide (a.y ≥ b.y))

/-- `ccw`, `vector2_impl.hpp:278-311`.  The differences are computed as `int`.  `||` looks at its
second operand only if the first is false. -/
def ccw (a b c : Vec) : Option ℤ := do
  let dx1 := b.x - a.x
  let dy1 := b.y - a.y
  let dx2 := c.x - a.x
  let dy2 := c.y - a.y
  let d1 ← i32 (dx1 * dy2)
  let d2 ← i32 (dy1 * dx2)
  if d1 > d2 then some 1
  else if d1 < d2 then some (-1)
  else
    let px ← i32 (dx1 * dx2)
    if px < 0 then some (-1)
    else
      let py ← i32 (dy1 * dy2)
      if py < 0 then some (-1)
      else
        let l1x ← i32 (dx1 * dx1)
        let l1y ← i32 (dy1 * dy1)
        let l1 ← i32 (l1x + l1y)
        let l2x ← i32 (dx2 * dx2)
        let l2y ← i32 (dy2 * dy2)
        let l2 ← i32 (l2x + l2y)
        if l1 ≥ l2 then some 0 else some 1

/-! ## Line segments -/

/-- `LineSegment2D`. -/
structure Segment where
  start : Vec
  stop : Vec
deriving DecidableEq, Repr

/-- `intersects`, `line_segment_2d_impl.hpp:160-168`. -/
def Segment.intersects (s o : Segment) : Option Bool := do
  let p ← ccw s.start s.stop o.start
  let q ← ccw s.start s.stop o.stop
  if p * q ≤ 0 then
    let u ← ccw o.start o.stop s.start
    let v ← ccw o.start o.stop s.stop
    some (decide (u * v ≤ 0))
  else some false

/-- `getDirectionVector`, `line_segment_2d_impl.hpp:88-93`. -/
def Segment.direction (s : Segment) : Vec := sub s.stop s.start

/-- The nearest multiple of `2 ^ e`, ties to the even one. -/
def roundTo (e m : ℕ) : ℕ :=
  let q := m / 2 ^ e
  let r := m % 2 ^ e
  if 2 * r < 2 ^ e then q * 2 ^ e
  else if 2 * r > 2 ^ e then (q + 1) * 2 ^ e
  else if q % 2 = 0 then q * 2 ^ e
  else (q + 1) * 2 ^ e

/-- Conversion of an `int32_t` to `float`, a number with 24 significant bits; the value is again an
integer. -/
def toFloat (n : ℤ) : ℤ :=
  if n.natAbs < 2 ^ 24 then n
  else n.sign * (roundTo (Nat.log2 n.natAbs - 23) n.natAbs : ℤ)

/-- `0.f <= t and t <= 1.f` for `t = static_cast<float>(n) / static_cast<float>(d)`,
`line_segment_2d_impl.hpp:191-194`.  The rounded quotient of two `float`s is negative exactly if the
quotient is, and above one exactly if the quotient is. -/
def unit (n d : ℤ) : Bool :=
  let fn := toFloat n
  let fd := toFloat d
  if 0 < fd then decide (0 ≤ fn) && decide (fn ≤ fd) else decide (fn ≤ 0) && decide (fd ≤ fn)

/-- `getIntersections` with a segment, `line_segment_2d_impl.hpp:179-207`: the result, which is also
whether a point is appended. -/
def Segment.getIntersections (s o : Segment) : Option Bool := do
  let own := sub s.stop s.start
  let other := sub o.stop o.start
  let connection := sub s.start o.start
  let d ← cross own other
  if d ≠ 0 then
    let n2 ← cross own connection
    if unit n2 d then
      let n1 ← cross other connection
      some (unit n1 d)
    else some false
  else some false

/-! ## Rays -/

/-- `Ray2D`. -/
structure Ray where
  base : Vec
  direction : Vec
deriving DecidableEq, Repr

/-- `intersects`, `ray_2d_impl.hpp:143-165`. -/
def Ray.intersects (r : Ray) (l : Segment) : Option Bool := do
  let startToPoint := sub l.start r.base
  let endToPoint := sub l.stop r.base
  let dt := orthogonal r.direction
  let p ← dot startToPoint dt
  let q ← dot endToPoint dt
  let pq ← i32 (p * q)
  if pq < 0 then
    let pointToStart := sub r.base l.start
    let lt := orthogonal l.direction
    let u ← dot pointToStart lt
    let v ← dot r.direction lt
    let uv ← i32 (u * v)
    some (decide (uv < 0))
  else some false

/-- `ccw`, `ray_2d_impl.hpp:269-280`.  The conversion to `float` keeps the sign. -/
def Ray.ccw (r : Ray) (p : Vec) : Option Bool := do
  let c1 ← dot (sub p r.base) (orthogonal r.direction)
  some (decide (c1 ≤ 0))

/-! ## Polygons -/

/-- A loop `for (i = 0; i < n; ++i) if (f(i)) return true;` followed by `return false`. -/
def anyOf (f : ℕ → Option Bool) : List ℕ → Option Bool
  | [] => some false
  | i :: is => do
    let b ← f i
    if b then some true else anyOf f is

/-- `points[i]`, the origin outside. -/
def at' (ps : List Vec) (i : ℕ) : Vec := ps.getD i ⟨0, 0⟩

/-- The segment `(points[i], points[(i + 1) % n])`, `polygon_2d_impl.hpp:67`. -/
def edge (ps : List Vec) (i : ℕ) : Segment := ⟨at' ps i, at' ps ((i + 1) % ps.length)⟩

/-- `Polygon2D::intersects(Polygon2D)`, `polygon_2d_impl.hpp:56-77`. -/
def polygonIntersects (ps qs : List Vec) : Option Bool :=
  anyOf (fun i => anyOf (fun k => (edge ps i).intersects (edge qs k)) (List.range qs.length))
    (List.range ps.length)

/-- `Polygon2D::intersects(LineSegment2D)`, `polygon_2d_impl.hpp:99-114`. -/
def polygonIntersectsSegment (ps : List Vec) (s : Segment) : Option Bool :=
  anyOf (fun i => s.intersects (edge ps i)) (List.range ps.length)

/-- `Polygon2D::intersects(Ray2D)`, `polygon_2d_impl.hpp:117-132`. -/
def polygonIntersectsRay (ps : List Vec) (r : Ray) : Option Bool :=
  anyOf (fun i => r.intersects (edge ps i)) (List.range ps.length)

/-- The loop and the result of `isInside`, `polygon_2d_impl.hpp:163-184`. -/
def insideFrom (ps : List Vec) (p : Vec) : List ℕ → Bool → Bool → Option Bool
  | [], cw, ccw' => some (cw || ccw')
  | i :: is, cw, ccw' => do
    let r ← ccw (edge ps i).start (edge ps i).stop p
    if r = 0 then some true
    else if r = 1 then insideFrom ps p is false ccw'
    else if r = -1 then insideFrom ps p is cw false
    else insideFrom ps p is cw ccw'

/-- `isInside`, `polygon_2d_impl.hpp:155-185`. -/
def isInside (ps : List Vec) (p : Vec) : Option Bool :=
  insideFrom ps p (List.range ps.length) true true

/-! ## Lines and circles -/

/-- `Line2D`. -/
structure Line where
  point : Vec
  direction : Vec
deriving DecidableEq, Repr

/-- `Circle2D`. -/
structure Circle where
  center : Vec
  radius : ℤ
deriving DecidableEq, Repr

/-- `Line2D::getIntersections(Line2D)`, `line_2d_impl.hpp:90-107`: the result, which is also whether
a point is appended. -/
def Line.getIntersections (l o : Line) : Option Bool := do
  let d ← cross l.direction o.direction
  some (decide (d ≠ 0))

/-- `Line2D::getIntersections(Circle2D)`, `line_2d_impl.hpp:110-148`: the result and the number of
points appended. -/
def Line.getIntersectionsCircle (l : Line) (k : Circle) : Option (Bool × ℕ) := do
  let circleToLine := sub l.point k.center
  let dd ← dot l.direction l.direction
  let a ← i32 (2 * dd)
  let cd ← dot circleToLine l.direction
  let b ← i32 (2 * cd)
  let cc ← dot circleToLine circleToLine
  let rr ← i32 (k.radius * k.radius)
  let c ← i32 (cc - rr)
  let bb ← i32 (b * b)
  let a2 ← i32 (2 * a)
  let ac ← i32 (a2 * c)
  let discriminant ← i32 (bb - ac)
  if discriminant < 0 then some (false, 0)
  else if discriminant = 0 then some (true, 1)
  else some (true, 2)

/-- `Circle2D::getIntersections(Circle2D)`, `circle_2d_impl.hpp:70-125`: the result and the number
of points appended.  `or` looks at its second operand only if the first is false. -/
def Circle.getIntersections (k o : Circle) : Option (Bool × ℕ) := do
  let circleToCircle := sub o.center k.center
  let distanceSquared ← lengthSquared circleToCircle
  if distanceSquared = 0 ∧ k.radius = o.radius then some (true, 0)
  else
    let s2 ← i32 ((k.radius + o.radius) * (k.radius + o.radius))
    if distanceSquared > s2 then some (false, 0)
    else
      let d2 ← i32 ((k.radius - o.radius) * (k.radius - o.radius))
      if distanceSquared < d2 then some (false, 0)
      else if distanceSquared = s2 then some (true, 1)
      else some (true, 2)

end Modm.Geometry
