import Verif.Model.Matrix
import Mathlib.Analysis.SpecialFunctions.Trigonometric.Basic

set_option autoImplicit false

/-!
# Quaternions and vectors of three dimensions

Model of `src/modm/math/geometry/quaternion_impl.hpp` and of the operators of `vector3_impl.hpp`.

The element type is a ring or a field; where there is a square root or an angle, the real numbers.  The
rounding of `float` and `double` is not modelled.  A `const T&` argument, which may refer to a part of
the object itself, is a function of the object; a constant one if it does not.
-/

namespace Modm.Quaternion

open Modm.Matrix

/-- `Quaternion`, `quaternion.hpp:101-105`. -/
@[ext]
structure Quat (K : Type) where
  w : K
  x : K
  y : K
  z : K
  deriving DecidableEq

/-- `Vector<T, 3>`, `vector3.hpp`. -/
@[ext]
structure Vector3 (K : Type) where
  x : K
  y : K
  z : K
  deriving DecidableEq

variable {K : Type}

namespace Quat

/-- `operator ==`, `quaternion_impl.hpp:115-120`. -/
def eq [DecidableEq K] (a b : Quat K) : Bool := decide (b.w = a.w) && decide (b.x = a.x) && decide (b.y = a.y) && decide (b.z = a.z)

/-- `operator !=`, `quaternion_impl.hpp:123-128`. -/
def ne [DecidableEq K] (a b : Quat K) : Bool := decide (b.w ≠ a.w) || decide (b.x ≠ a.x) || decide (b.y ≠ a.y) || decide (b.z ≠ a.z)

/-- `operator <`, `quaternion_impl.hpp:131-136`. -/
def less [LinearOrder K] (a b : Quat K) : Bool :=
  decide (a.w < b.w) || (decide (a.w = b.w) && (decide (a.x < b.x) || (decide (a.x = b.x) && (decide (a.y < b.y) ||
    (decide (a.y = b.y) && decide (a.z < b.z))))))

/-- `operator <=`, `quaternion_impl.hpp:139-144`. -/
def lessEq [LinearOrder K] (a b : Quat K) : Bool :=
  decide (a.w < b.w) || (decide (a.w = b.w) && (decide (a.x < b.x) || (decide (a.x = b.x) && (decide (a.y < b.y) ||
    (decide (a.y = b.y) && decide (a.z ≤ b.z))))))

/-- `operator >`, `quaternion_impl.hpp:147-152`. -/
def greater [LinearOrder K] (a b : Quat K) : Bool :=
  decide (a.w > b.w) || (decide (a.w = b.w) && (decide (a.x > b.x) || (decide (a.x = b.x) && (decide (a.y > b.y) ||
    (decide (a.y = b.y) && decide (a.z > b.z))))))

/-- `operator >=`, `quaternion_impl.hpp:155-160`. -/
def greaterEq [LinearOrder K] (a b : Quat K) : Bool :=
  decide (a.w > b.w) || (decide (a.w = b.w) && (decide (a.x > b.x) || (decide (a.x = b.x) && (decide (a.y > b.y) ||
    (decide (a.y = b.y) && decide (a.z ≥ b.z))))))

/-- `operator +`, `quaternion_impl.hpp:187-192`, and `+=`, `232-238`. -/
def add [Add K] (a b : Quat K) : Quat K := ⟨a.w + b.w, a.x + b.x, a.y + b.y, a.z + b.z⟩

/-- `operator -`, `quaternion_impl.hpp:195-200`, and `-=`, `241-247`. -/
def sub [Sub K] (a b : Quat K) : Quat K := ⟨a.w - b.w, a.x - b.x, a.y - b.y, a.z - b.z⟩

/-- `operator *`, `quaternion_impl.hpp:203-213`. -/
def mul [Ring K] (a b : Quat K) : Quat K :=
  ⟨a.w * b.w - a.x * b.x - a.y * b.y - a.z * b.z,
   a.w * b.x + a.x * b.w + a.y * b.z - a.z * b.y,
   a.w * b.y + a.y * b.w + a.z * b.x - a.x * b.z,
   a.w * b.z + a.z * b.w + a.x * b.y - a.y * b.x⟩

/-- `operator * (const T&)`, `quaternion_impl.hpp:216-221`, `411-416`. -/
def smul [Mul K] (a : Quat K) (r : K) : Quat K := ⟨a.w * r, a.x * r, a.y * r, a.z * r⟩

/-- `operator / (const T&)`, `quaternion_impl.hpp:224-229`. -/
def div [Div K] (a : Quat K) (r : K) : Quat K := ⟨a.w / r, a.x / r, a.y / r, a.z / r⟩

/-- `operator *= (const T&)`, `quaternion_impl.hpp:250-257`. -/
def smulAssign [Mul K] (a : Quat K) (rhs : Quat K → K) : Quat K := a.smul (rhs a)

/-- `operator /= (const T&)`, `quaternion_impl.hpp:260-266`. -/
def divAssign [Div K] (a : Quat K) (rhs : Quat K → K) : Quat K :=
  let a := { a with w := a.w / rhs a }
  let a := { a with x := a.x / rhs a }
  let a := { a with y := a.y / rhs a }
  { a with z := a.z / rhs a }

/-- `operator - ()`, `quaternion_impl.hpp:269-274`. -/
def neg [Neg K] (a : Quat K) : Quat K := ⟨-a.w, -a.x, -a.y, -a.z⟩

/-- `getLengthSquared`, `quaternion_impl.hpp:285-290`. -/
def lengthSquared [Ring K] (a : Quat K) : K := a.w * a.w + a.x * a.x + a.y * a.y + a.z * a.z

/-- `getLength`, `quaternion_impl.hpp:277-282`. -/
noncomputable def length (a : Quat ℝ) : ℝ := Real.sqrt a.lengthSquared

/-- `scaled`, `quaternion_impl.hpp:327-333`, and `scale`, `293-304`. -/
noncomputable def scaled (a : Quat ℝ) (newLength : ℝ) : Quat ℝ :=
  let s := newLength / a.length
  ⟨a.w * s, a.x * s, a.y * s, a.z * s⟩

/-- `normalized`, `quaternion_impl.hpp:336-341`, and `normalize`, `307-312`. -/
noncomputable def normalized (a : Quat ℝ) : Quat ℝ := a.scaled 1

/-- `conjugated`, `quaternion_impl.hpp:344-349`, and `conjugate`, `315-324`. -/
def conjugated [Neg K] (a : Quat K) : Quat K := ⟨a.w, -a.x, -a.y, -a.z⟩

/-- `unitInverse`, `quaternion_impl.hpp:352-357`: what is returned, and the object afterwards. -/
def unitInverse [Neg K] (a : Quat K) : Quat K × Quat K := (a.conjugated, a.conjugated)

/-- `inverse`, `quaternion_impl.hpp:360-365`: what is returned, and the object afterwards. -/
def inverse [Field K] (a : Quat K) : Quat K × Quat K := (a.conjugated.div a.conjugated.lengthSquared, a.conjugated)

/-- `to3x3Matrix`, `quaternion_impl.hpp:390-408`. -/
def to3x3Matrix [Ring K] (q : Quat K) (m : ℕ → K) : Mat K 3 3 :=
  let xx := q.x * q.x; let xy := q.x * q.y
  let xz := q.x * q.z; let xw := q.x * q.w
  let yy := q.y * q.y; let yz := q.y * q.z
  let yw := q.y * q.w
  let zz := q.z * q.z; let zw := q.z * q.w
  let m := store m (0*3+0) (1 - 2 * (yy + zz)); let m := store m (1*3+0) (2 * (xy - zw)); let m := store m (2*3+0) (2 * (xz + yw))
  let m := store m (0*3+1) (2 * (xy + zw)); let m := store m (1*3+1) (1 - 2 * (xx + zz)); let m := store m (2*3+1) (2 * (yz - xw))
  let m := store m (0*3+2) (2 * (xz - yw)); let m := store m (1*3+2) (2 * (yz + xw)); let m := store m (2*3+2) (1 - 2 * (xx + yy))
  ⟨m⟩

/-- `to4x4Matrix`, `quaternion_impl.hpp:368-387`. -/
def to4x4Matrix [Ring K] (q : Quat K) (m : ℕ → K) : Mat K 4 4 :=
  let xx := q.x * q.x; let xy := q.x * q.y
  let xz := q.x * q.z; let xw := q.x * q.w
  let yy := q.y * q.y; let yz := q.y * q.z
  let yw := q.y * q.w
  let zz := q.z * q.z; let zw := q.z * q.w
  let m := store m (0*4+0) (1 - 2 * (yy + zz)); let m := store m (1*4+0) (2 * (xy - zw)); let m := store m (2*4+0) (2 * (xz + yw)); let m := store m (3*4+0) 0
  let m := store m (0*4+1) (2 * (xy + zw)); let m := store m (1*4+1) (1 - 2 * (xx + zz)); let m := store m (2*4+1) (2 * (yz - xw)); let m := store m (3*4+1) 0
  let m := store m (0*4+2) (2 * (xz - yw)); let m := store m (1*4+2) (2 * (yz + xw)); let m := store m (2*4+2) (1 - 2 * (xx + yy)); let m := store m (3*4+2) 0
  let m := store m (0*4+3) 0; let m := store m (1*4+3) 0; let m := store m (2*4+3) 0; let m := store m (3*4+3) 1
  ⟨m⟩

/-- `Quaternion(axis, angle)`, `quaternion_impl.hpp:52-66`. -/
noncomputable def ofAxis (axis : Vector3 ℝ) (angle : ℝ) : Quat ℝ :=
  let sinAngleOver2 := Real.sin (angle / 2)
  ⟨Real.cos (angle / 2), axis.x * sinAngleOver2, axis.y * sinAngleOver2, axis.z * sinAngleOver2⟩

end Quat

namespace Vector3

/-- `operator <`, `vector3_impl.hpp:261-265`. -/
def less [LinearOrder K] (a b : Vector3 K) : Bool :=
  decide (a.x < b.x) || (decide (a.x = b.x) && (decide (a.y < b.y) || (decide (a.y = b.y) && decide (a.z < b.z))))

/-- `operator <=`, `vector3_impl.hpp:269-273`. -/
def lessEq [LinearOrder K] (a b : Vector3 K) : Bool :=
  decide (a.x < b.x) || (decide (a.x = b.x) && (decide (a.y < b.y) || (decide (a.y = b.y) && decide (a.z ≤ b.z))))

/-- `operator >`, `vector3_impl.hpp:277-281`. -/
def greater [LinearOrder K] (a b : Vector3 K) : Bool :=
  decide (a.x > b.x) || (decide (a.x = b.x) && (decide (a.y > b.y) || (decide (a.y = b.y) && decide (a.z > b.z))))

/-- `operator >=`, `vector3_impl.hpp:285-289`. -/
def greaterEq [LinearOrder K] (a b : Vector3 K) : Bool :=
  decide (a.x > b.x) || (decide (a.x = b.x) && (decide (a.y > b.y) || (decide (a.y = b.y) && decide (a.z ≥ b.z))))

/-- `operator * (const Vector&)`, `vector3_impl.hpp:342-346`. -/
def dot [Ring K] (a b : Vector3 K) : K := a.x * b.x + a.y * b.y + a.z * b.z

/-- `operator ^`, `vector3_impl.hpp:350-354`. -/
def cross [Ring K] (a b : Vector3 K) : Vector3 K := ⟨a.y * b.z - a.z * b.y, a.z * b.x - a.x * b.z, a.x * b.y - a.y * b.x⟩

/-- `operator * (const T&)`, `vector3_impl.hpp:358-362`. -/
def smul [Ring K] (a : Vector3 K) (r : K) : Vector3 K := ⟨a.x * r, a.y * r, a.z * r⟩

/-- `operator *= (const T&)`, `vector3_impl.hpp:398-406`. -/
def smulAssign [Ring K] (a : Vector3 K) (rhs : Vector3 K → K) : Vector3 K :=
  let a := { a with x := a.x * rhs a }
  let a := { a with y := a.y * rhs a }
  { a with z := a.z * rhs a }

/-- `operator /= (const T&)`, `vector3_impl.hpp:410-418`. -/
def divAssign [Field K] (a : Vector3 K) (rhs : Vector3 K → K) : Vector3 K :=
  let a := { a with x := a.x / rhs a }
  let a := { a with y := a.y / rhs a }
  { a with z := a.z / rhs a }

/-- `getLengthSquared`, `vector3_impl.hpp:438-442`. -/
def lengthSquared [Ring K] (a : Vector3 K) : K := a.x * a.x + a.y * a.y + a.z * a.z

/-- `getLength`, `vector3_impl.hpp:430-434`. -/
noncomputable def length (a : Vector3 ℝ) : ℝ := Real.sqrt a.lengthSquared

/-- `scaled`, `vector3_impl.hpp:454-459`, and `scale`, `446-450`, for exact numbers. -/
noncomputable def scaled (a : Vector3 ℝ) (newLength : ℝ) : Vector3 ℝ := a.smul (newLength / a.length)

end Vector3

end Modm.Quaternion
