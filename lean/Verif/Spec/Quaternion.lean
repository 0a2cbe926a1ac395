import Verif.Model.Quaternion
import Mathlib.Algebra.Quaternion
import Mathlib.LinearAlgebra.CrossProduct
import Mathlib.Order.PiLex

set_option autoImplicit false

/-!
# Quaternions, rotations of space and the lexicographic order
-/

namespace Modm.Spec.Quaternion

open Modm.Quaternion

variable {K : Type}

/-- The quaternion `w + x i + y j + z k`. -/
def number [CommRing K] (q : Quat K) : Quaternion K := ⟨q.w, q.x, q.y, q.z⟩

/-- The four numbers in order. -/
def components (q : Quat K) : Fin 4 → K := ![q.w, q.x, q.y, q.z]

/-- The coordinates of a vector. -/
def coordinates (v : Vector3 K) : Fin 3 → K := ![v.x, v.y, v.z]

/-- A vector of space as a quaternion without real part. -/
def pureVector [CommRing K] (v : Fin 3 → K) : Quaternion K := ⟨0, v 0, v 1, v 2⟩

open scoped _root_.Matrix in
/-- Rodrigues' formula: the vector `v` turned by `angle` about the unit vector `k`, counterclockwise for one at whom `k` points. -/
noncomputable def turned (k : Fin 3 → ℝ) (angle : ℝ) (v : Fin 3 → ℝ) : Fin 3 → ℝ :=
  Real.cos angle • v + Real.sin angle • (crossProduct k v) + ((1 - Real.cos angle) * (k ⬝ᵥ v)) • k

end Modm.Spec.Quaternion
