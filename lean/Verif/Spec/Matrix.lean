import Mathlib.Data.Matrix.Basic

set_option autoImplicit false

/-!
# Matrices in memory
-/

namespace Modm.Spec.Matrix

/-- The matrix which is stored row by row. -/
def rowMajor {T : Type} (r c : ℕ) (e : ℕ → T) : Matrix (Fin r) (Fin c) T := fun i j => e (i * c + j)

/-- The vector of the first `n` elements. -/
def vector {T : Type} (n : ℕ) (e : ℕ → T) : Fin n → T := fun i => e i

/-- The submatrix of the first `m` rows and columns. -/
def leading {T : Type} {n : ℕ} (A : Matrix (Fin n) (Fin n) T) (m : ℕ) (hm : m ≤ n) : Matrix (Fin m) (Fin m) T :=
  A.submatrix (Fin.castLE hm) (Fin.castLE hm)

/-- The matrix which takes the row `τ i` to the row `i`. -/
def permutation {T : Type} [Zero T] [One T] {n : ℕ} (τ : Equiv.Perm (Fin n)) : Matrix (Fin n) (Fin n) T :=
  fun i j => if τ i = j then 1 else 0

end Modm.Spec.Matrix
