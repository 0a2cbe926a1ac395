import Verif.Spec.Quaternion
import Verif.Spec.Matrix
import Mathlib.Tactic.Ring
import Mathlib.Tactic.FieldSimp
import Mathlib.Tactic.LinearCombination
import Mathlib.Tactic.FinCases
import Mathlib.Tactic.NormNum

set_option autoImplicit false

/-!
# Quaternions

C135: the operators are those of the quaternions, the length, the inverse, the rotations and their matrices.
-/

namespace Props.Quaternion

open Modm.Quaternion Modm.Spec.Quaternion Modm.Spec.Matrix
open scoped _root_.Matrix

section Arithmetic

variable {K : Type} [CommRing K]

@[simp] theorem number_re (q : Quat K) : (number q).re = q.w := rfl
@[simp] theorem number_imI (q : Quat K) : (number q).imI = q.x := rfl
@[simp] theorem number_imJ (q : Quat K) : (number q).imJ = q.y := rfl
@[simp] theorem number_imK (q : Quat K) : (number q).imK = q.z := rfl
@[simp] theorem pure_re (v : Fin 3 → K) : (pureVector v).re = 0 := rfl
@[simp] theorem pure_imI (v : Fin 3 → K) : (pureVector v).imI = v 0 := rfl
@[simp] theorem pure_imJ (v : Fin 3 → K) : (pureVector v).imJ = v 1 := rfl
@[simp] theorem pure_imK (v : Fin 3 → K) : (pureVector v).imK = v 2 := rfl

/-- C135: sums, differences, products, multiples, negatives and conjugates are those of the quaternions, over any commutative ring; the
square of the length is the norm. -/
theorem C135_arithmetic (a b : Quat K) (r : K) :
    number (a.add b) = number a + number b ∧ number (a.sub b) = number a - number b ∧ number (a.mul b) = number a * number b ∧
    number (a.smul r) = r • number a ∧ number a.neg = -number a ∧ number a.conjugated = star (number a) ∧
    a.lengthSquared = Quaternion.normSq (number a) := by
  refine ⟨rfl, rfl, ?_, ?_, rfl, ?_, ?_⟩
  · ext <;> simp [Quat.mul] <;> ring
  · ext <;> simp [Quat.smul, mul_comm]
  · ext <;> simp [Quat.conjugated]
  · rw [Quaternion.normSq_def']
    simp only [number, Quat.lengthSquared]
    ring

/-- `i j = k` and `j i = -k`. -/
example : (Quat.mul ⟨0, 1, 0, 0⟩ ⟨0, 0, 1, 0⟩ : Quat ℤ) = ⟨0, 0, 0, 1⟩ ∧ (Quat.mul ⟨0, 0, 1, 0⟩ ⟨0, 1, 0, 0⟩ : Quat ℤ) = ⟨0, 0, 0, -1⟩ := by
  decide

/-- C135: `==` and `!=` compare the quaternions. -/
theorem C135_equal [DecidableEq K] (a b : Quat K) : (a.eq b = true ↔ number a = number b) ∧ (a.ne b = true ↔ number a ≠ number b) := by
  have h : number a = number b ↔ (b.w = a.w ∧ b.x = a.x) ∧ b.y = a.y ∧ b.z = a.z := by
    rw [Quaternion.ext_iff]
    simp only [number_re, number_imI, number_imJ, number_imK]
    constructor
    · rintro ⟨h1, h2, h3, h4⟩
      exact ⟨⟨h1.symm, h2.symm⟩, h3.symm, h4.symm⟩
    · rintro ⟨⟨h1, h2⟩, h3, h4⟩
      exact ⟨h1.symm, h2.symm, h3.symm, h4.symm⟩
  constructor
  · rw [h]
    simp [Quat.eq, and_assoc]
  · rw [Ne, h]
    simp only [Quat.ne, Bool.or_eq_true, decide_eq_true_eq, ne_eq]
    tauto

example : Quat.ne (⟨1, 2, 3, 4⟩ : Quat ℤ) ⟨1, 2, 3, 5⟩ = true := by decide

end Arithmetic

/-- The lexicographic order of four numbers. -/
theorem lex4 {K : Type} [LinearOrder K] (a b : Quat K) :
    toLex (components a) < toLex (components b) ↔
      a.w < b.w ∨ (a.w = b.w ∧ (a.x < b.x ∨ (a.x = b.x ∧ (a.y < b.y ∨ (a.y = b.y ∧ a.z < b.z))))) := by
  constructor
  · rintro ⟨i, hj, hi⟩
    have h0 := hj 0
    have h1 := hj 1
    have h2 := hj 2
    fin_cases i <;> simp [components] at hi h0 h1 h2 <;> tauto
  · intro h
    have hcase : a.w < b.w ∨ (a.w = b.w ∧ a.x < b.x) ∨ (a.w = b.w ∧ a.x = b.x ∧ a.y < b.y) ∨ (a.w = b.w ∧ a.x = b.x ∧ a.y = b.y ∧ a.z < b.z) := by
      tauto
    rcases hcase with h | ⟨h1, h⟩ | ⟨h1, h2, h⟩ | ⟨h1, h2, h3, h⟩
    · exact ⟨0, fun j hj => absurd hj (by simp), h⟩
    · refine ⟨1, fun j hj => ?_, h⟩
      fin_cases j <;> simp_all [components]
    · refine ⟨2, fun j hj => ?_, h⟩
      fin_cases j <;> simp_all [components]
    · refine ⟨3, fun j hj => ?_, h⟩
      fin_cases j <;> simp_all [components]

theorem components_inj {K : Type} (a b : Quat K) : components a = components b ↔ a = b := by
  constructor
  · intro h
    ext
    · exact congrFun h 0
    · exact congrFun h 1
    · exact congrFun h 2
    · exact congrFun h 3
  · rintro rfl
    rfl

theorem lexLe4 {K : Type} [LinearOrder K] (a b : Quat K) :
    toLex (components a) ≤ toLex (components b) ↔
      a.w < b.w ∨ (a.w = b.w ∧ (a.x < b.x ∨ (a.x = b.x ∧ (a.y < b.y ∨ (a.y = b.y ∧ a.z ≤ b.z))))) := by
  rw [le_iff_lt_or_eq]
  refine (or_congr_left (lex4 a b)).trans ?_
  rw [EmbeddingLike.apply_eq_iff_eq, components_inj, Quat.ext_iff, le_iff_lt_or_eq]
  tauto

/-- C135: the order operators are the lexicographic order of the four numbers, the real part first. -/
theorem C135_order {K : Type} [LinearOrder K] (a b : Quat K) :
    (a.less b = true ↔ toLex (components a) < toLex (components b)) ∧ (a.lessEq b = true ↔ toLex (components a) ≤ toLex (components b)) ∧
    (a.greater b = true ↔ toLex (components b) < toLex (components a)) ∧
    (a.greaterEq b = true ↔ toLex (components b) ≤ toLex (components a)) := by
  refine ⟨?_, ?_, ?_, ?_⟩
  · rw [lex4]
    simp [Quat.less]
  · rw [lexLe4]
    simp [Quat.lessEq]
  · rw [lex4]
    simp only [Quat.greater, Bool.or_eq_true, Bool.and_eq_true, decide_eq_true_eq, gt_iff_lt, @eq_comm _ a.w, @eq_comm _ a.x, @eq_comm _ a.y]
  · rw [lexLe4]
    simp only [Quat.greaterEq, Bool.or_eq_true, Bool.and_eq_true, decide_eq_true_eq, gt_iff_lt, ge_iff_le, @eq_comm _ a.w, @eq_comm _ a.x,
      @eq_comm _ a.y]

example : Quat.less (⟨1, 2, 3, 4⟩ : Quat ℤ) ⟨1, 2, 4, 0⟩ = true ∧ Quat.greaterEq (⟨1, 2, 3, 4⟩ : Quat ℤ) ⟨1, 2, 4, 0⟩ = false := by decide

section Field

variable {K : Type} [Field K]

/-- C135: a quotient by a number which is not zero, with `/` and, when the number is not a part of the quaternion itself, with `/=`. -/
theorem C135_quotient_partial (a : Quat K) (r : K) : number (a.div r) = r⁻¹ • number a ∧ a.divAssign (fun _ => r) = a.div r ∧
    a.smulAssign (fun _ => r) = a.smul r := by
  refine ⟨?_, rfl, rfl⟩
  ext <;> simp [Quat.div, div_eq_mul_inv, mul_comm]

example : (Quat.div ⟨6, 4, 2, 8⟩ 2 : Quat ℚ) = ⟨3, 2, 1, 4⟩ := by decide +kernel

/-- C135, refuted for a part of the quaternion: `q /= q.w` divides the first component only, while `q *= q.w` is right. -/
theorem C135_alias_counterexample : (Quat.divAssign ⟨2, 4, 6, 8⟩ (fun q => q.w) : Quat ℚ) = ⟨1, 4, 6, 8⟩ ∧
    (Quat.div ⟨2, 4, 6, 8⟩ 2 : Quat ℚ) = ⟨1, 2, 3, 4⟩ ∧ (Quat.smulAssign ⟨2, 4, 6, 8⟩ (fun q => q.w) : Quat ℚ) = ⟨4, 8, 12, 16⟩ := by
  decide +kernel

/-- C135: what `inverse` returns is the inverse, from the left and from the right, whenever the norm is not zero (over the real numbers: for each
quaternion but zero). -/
theorem C135_inverse_partial (q : Quat K) (h : Quaternion.normSq (number q) ≠ 0) :
    number q.inverse.1 * number q = 1 ∧ number q * number q.inverse.1 = 1 := by
  have hn : q.conjugated.lengthSquared = Quaternion.normSq (number q) := by
    rw [Quaternion.normSq_def']
    simp only [number, Quat.lengthSquared, Quat.conjugated]
    ring
  have hs : number q.inverse.1 = (Quaternion.normSq (number q))⁻¹ • star (number q) := by
    simp only [Quat.inverse]
    rw [hn, (C135_quotient_partial _ _).1, (C135_arithmetic q q 0).2.2.2.2.2.1]
  rw [hs]
  constructor
  · rw [smul_mul_assoc, Quaternion.star_mul_self, ← Quaternion.coe_smul, smul_eq_mul, inv_mul_cancel₀ h, Quaternion.coe_one]
  · rw [mul_smul_comm, Quaternion.self_mul_star, ← Quaternion.coe_smul, smul_eq_mul, inv_mul_cancel₀ h, Quaternion.coe_one]

example : (Quat.inverse ⟨1, 1, 1, 1⟩ : Quat ℚ × Quat ℚ).1 = ⟨1/4, -1/4, -1/4, -1/4⟩ := by decide +kernel

/-- C135: of a unit quaternion `unitInverse` returns the inverse. -/
theorem C135_unitInverse_partial (q : Quat K) (h : Quaternion.normSq (number q) = 1) :
    number q.unitInverse.1 * number q = 1 ∧ number q * number q.unitInverse.1 = 1 := by
  have hs : number q.unitInverse.1 = star (number q) := (C135_arithmetic q q 0).2.2.2.2.2.1
  rw [hs, Quaternion.star_mul_self, Quaternion.self_mul_star, h]
  exact ⟨rfl, rfl⟩

example : Quaternion.normSq (number (⟨3/5, 0, 4/5, 0⟩ : Quat ℚ)) = 1 := by
  rw [Quaternion.normSq_def']
  norm_num [number]

/-- C135, refuted: `inverse()` and `unitInverse()` change the quaternion itself, to the conjugate.  After `p = q.inverse()` with `q = i` the product
`p * q` is `-1`. -/
theorem C135_inverse_counterexample :
    (Quat.inverse ⟨0, 1, 0, 0⟩ : Quat ℚ × Quat ℚ).2 = ⟨0, -1, 0, 0⟩ ∧
    (Quat.mul (Quat.inverse ⟨0, 1, 0, 0⟩ : Quat ℚ × Quat ℚ).1 (Quat.inverse ⟨0, 1, 0, 0⟩ : Quat ℚ × Quat ℚ).2) = ⟨-1, 0, 0, 0⟩ ∧
    (Quat.mul (Quat.unitInverse ⟨0, 1, 0, 0⟩ : Quat ℚ × Quat ℚ).1 (Quat.unitInverse ⟨0, 1, 0, 0⟩ : Quat ℚ × Quat ℚ).2) = ⟨-1, 0, 0, 0⟩ := by
  decide +kernel

end Field

section Real

/-- C135: `getLength` is the square root of the norm; `scaled` and `normalized` keep the direction and have the wished length, for each quaternion but
zero. -/
theorem C135_length (q : Quat ℝ) : q.length ^ 2 = Quaternion.normSq (number q) ∧ 0 ≤ q.length := by
  refine ⟨?_, Real.sqrt_nonneg _⟩
  rw [Quat.length, Real.sq_sqrt, (C135_arithmetic q q 0).2.2.2.2.2.2]
  unfold Quat.lengthSquared
  nlinarith [mul_self_nonneg q.w, mul_self_nonneg q.x, mul_self_nonneg q.y, mul_self_nonneg q.z]

/-- C135: `scaled(l)`. -/
theorem C135_scaled (q : Quat ℝ) (l : ℝ) (hl : 0 ≤ l) (h : number q ≠ 0) :
    (q.scaled l).length = l ∧ (∃ s : ℝ, 0 ≤ s ∧ number (q.scaled l) = s • number q) ∧ Quaternion.normSq (number q.normalized) = 1 := by
  have hn : Quaternion.normSq (number q) ≠ 0 := by rwa [Ne, Quaternion.normSq_eq_zero]
  have hsq := (C135_length q).1
  have hlen : q.length ≠ 0 := by
    intro h0
    rw [h0] at hsq
    exact hn (by rw [← hsq]; norm_num)
  have hex : ∀ l : ℝ, number (q.scaled l) = (l / q.length) • number q := by
    intro l
    ext <;> simp [Quat.scaled, mul_comm]
  have hnorm : ∀ l : ℝ, Quaternion.normSq (number (q.scaled l)) = l ^ 2 := by
    intro l
    rw [hex, Quaternion.normSq_smul, ← hsq]
    field_simp
  refine ⟨?_, ⟨l / q.length, div_nonneg hl (C135_length q).2, hex l⟩, ?_⟩
  · rw [Quat.length, (C135_arithmetic (q.scaled l) q 0).2.2.2.2.2.2, hnorm, Real.sqrt_sq hl]
  · rw [Quat.normalized, hnorm, one_pow]

example : number (⟨1, 1, 1, 1⟩ : Quat ℝ) ≠ 0 := by
  intro h
  have := congrArg QuaternionAlgebra.re h
  rw [number_re, Quaternion.re_zero] at this
  exact one_ne_zero this

/-- C135: a quaternion made of a unit axis and an angle has norm one, and multiplication with it from the left and with the conjugate from the right is
the rotation by the angle about the axis. -/
theorem C135_rotation (k v : Vector3 ℝ) (angle : ℝ) (hk : coordinates k ⬝ᵥ coordinates k = 1) :
    Quaternion.normSq (number (Quat.ofAxis k angle)) = 1 ∧
    number (Quat.ofAxis k angle) * pureVector (coordinates v) * star (number (Quat.ofAxis k angle)) = pureVector (turned (coordinates k) angle (coordinates v)) := by
  have hk' : k.x * k.x + k.y * k.y + k.z * k.z = 1 := by
    rw [← hk]
    simp [coordinates, dotProduct, Fin.sum_univ_three]
  have hsc := Real.sin_sq_add_cos_sq (angle / 2)
  have hc : Real.cos angle = 1 - 2 * Real.sin (angle / 2) ^ 2 := by
    have := Real.cos_two_mul (angle / 2)
    rw [mul_div_cancel₀ angle (two_ne_zero)] at this
    linarith
  have hs : Real.sin angle = 2 * Real.sin (angle / 2) * Real.cos (angle / 2) := by
    have := Real.sin_two_mul (angle / 2)
    rwa [mul_div_cancel₀ angle (two_ne_zero)] at this
  constructor
  · rw [Quaternion.normSq_def']
    simp only [number, Quat.ofAxis]
    linear_combination hsc + Real.sin (angle / 2) ^ 2 * hk'
  · unfold turned
    rw [hc, hs]
    have hcc : Real.cos (angle / 2) ^ 2 = 1 - Real.sin (angle / 2) ^ 2 := by linarith
    ext <;> simp [Quat.ofAxis, coordinates, dotProduct, Fin.sum_univ_three, crossProduct]
    · ring
    · linear_combination v.x * hcc - Real.sin (angle / 2) ^ 2 * v.x * hk'
    · linear_combination v.y * hcc - Real.sin (angle / 2) ^ 2 * v.y * hk'
    · linear_combination v.z * hcc - Real.sin (angle / 2) ^ 2 * v.z * hk'

example : coordinates (⟨0, 3/5, 4/5⟩ : Vector3 ℝ) ⬝ᵥ coordinates ⟨0, 3/5, 4/5⟩ = 1 := by
  simp [coordinates, dotProduct, Fin.sum_univ_three]
  norm_num

/-- Rodrigues' formula turns the first axis by a right angle about the third to the second. -/
example : turned ![0, 0, 1] (Real.pi / 2) ![1, 0, 0] = ![0, 1, 0] := by
  ext i
  fin_cases i <;> simp [turned, dotProduct, Fin.sum_univ_three, crossProduct]

end Real

section Matrices

variable {K : Type} [CommRing K]

/-- C135: the matrix of a unit quaternion, multiplied from the left by a row vector, turns the vector: the result is `q v q*`.  Multiplied from the
right by a column vector it turns the vector backwards: `q* v q`. -/
theorem C135_to3x3_partial (q : Quat K) (junk : ℕ → K) (v : Fin 3 → K) (h : Quaternion.normSq (number q) = 1) :
    pureVector (v ᵥ* rowMajor 3 3 (q.to3x3Matrix junk).element) = number q * pureVector v * star (number q) ∧
    pureVector (rowMajor 3 3 (q.to3x3Matrix junk).element *ᵥ v) = star (number q) * pureVector v * number q := by
  rw [Quaternion.normSq_def'] at h
  simp only [number_re, number_imI, number_imJ, number_imK] at h
  constructor
  · ext <;> simp [Matrix.vecMul, dotProduct, Fin.sum_univ_three, rowMajor, Quat.to3x3Matrix, Modm.Matrix.store]
    · ring
    · linear_combination -(v 0) * h
    · linear_combination -(v 1) * h
    · linear_combination -(v 2) * h
  · ext <;> simp [Matrix.mulVec, dotProduct, Fin.sum_univ_three, rowMajor, Quat.to3x3Matrix, Modm.Matrix.store]
    · ring
    · linear_combination -(v 0) * h
    · linear_combination -(v 1) * h
    · linear_combination -(v 2) * h

/-- C135: the matrix with four rows is the one with three rows, bordered by the last row and column of the identity. -/
theorem C135_to4x4 (q : Quat K) (junk junk' : ℕ → K) :
    rowMajor 4 4 (q.to4x4Matrix junk).element =
      fun (i j : Fin 4) => if hi : i.val < 3 then
          if hj : j.val < 3 then rowMajor 3 3 (q.to3x3Matrix junk').element ⟨i, hi⟩ ⟨j, hj⟩ else 0
        else if j.val < 3 then 0 else 1 := by
  ext i j
  fin_cases i <;> fin_cases j <;> simp [rowMajor, Quat.to3x3Matrix, Quat.to4x4Matrix, Modm.Matrix.store]

/-- C135, refuted: the product of the matrix with a (column) vector is not the turned vector.  For the unit quaternion
`3/5 + 4/5 k`, a rotation about the third axis, the product is turned the other way. -/
theorem C135_to3x3_counterexample :
    rowMajor 3 3 ((⟨3/5, 0, 0, 4/5⟩ : Quat ℚ).to3x3Matrix fun _ => 0).element *ᵥ ![1, 0, 0] = ![-7/25, -24/25, 0] ∧
    number (⟨3/5, 0, 0, 4/5⟩ : Quat ℚ) * pureVector ![1, 0, 0] * star (number ⟨3/5, 0, 0, 4/5⟩) = pureVector ![-7/25, 24/25, 0] := by
  constructor
  · ext i
    fin_cases i <;> simp [Matrix.mulVec, dotProduct, Fin.sum_univ_three, rowMajor, Quat.to3x3Matrix, Modm.Matrix.store] <;> norm_num
  · ext <;> simp <;> norm_num

end Matrices

end Props.Quaternion
