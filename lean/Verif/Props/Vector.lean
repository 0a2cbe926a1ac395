import Verif.Spec.Quaternion
import Verif.Spec.Matrix
import Verif.Lemmas.Matrix
import Mathlib.Tactic.Ring
import Mathlib.Tactic.FieldSimp
import Mathlib.Tactic.FinCases
import Mathlib.Tactic.NormNum

set_option autoImplicit false

/-!
# Vectors

C136: the operators of `Vector<T, N>` and `Vector<T, 3>`: order, products, length; multiplication in place and negation.
-/

namespace Props.Vector

open Modm.Matrix Modm.Quaternion Modm.Spec.Matrix Modm.Spec.Quaternion
open scoped _root_.Matrix

section Order

variable {T : Type} [LinearOrder T]

/-- The order of the coordinates from `i` on. -/
theorem less_iff (a b : ℕ → T) (n i : ℕ) : vectorLess a b n i = true ↔ ∃ k < n, (∀ j < k, a (i + j) = b (i + j)) ∧ a (i + k) < b (i + k) := by
  induction n generalizing i with
  | zero => simp [vectorLess]
  | succ n ih =>
    unfold vectorLess
    split_ifs with h1 h2
    · simp only [true_iff]
      exact ⟨0, Nat.succ_pos _, fun j hj => absurd hj (Nat.not_lt_zero _), h1⟩
    · simp only [false_iff]
      rintro ⟨k, hk, he, hl⟩
      rcases Nat.eq_zero_or_pos k with rfl | hp
      · exact h1 hl
      · exact absurd (he 0 hp) (ne_of_gt h2)
    · rw [ih]
      have heq : a i = b i := le_antisymm (not_lt.1 h2) (not_lt.1 h1)
      constructor
      · rintro ⟨k, hk, he, hl⟩
        refine ⟨k + 1, by omega, fun j hj => ?_, by rwa [show i + (k + 1) = i + 1 + k by omega]⟩
        rcases Nat.eq_zero_or_pos j with rfl | hp
        · exact heq
        · have := he (j - 1) (by omega)
          rwa [show i + 1 + (j - 1) = i + j by omega] at this
      · rintro ⟨k, hk, he, hl⟩
        rcases Nat.eq_zero_or_pos k with rfl | hp
        · exact absurd hl h1
        · refine ⟨k - 1, by omega, fun j hj => ?_, by rwa [show i + 1 + (k - 1) = i + k by omega]⟩
          have := he (j + 1) (by omega)
          rwa [show i + (j + 1) = i + 1 + j by omega] at this

theorem lessEq_not (a b : ℕ → T) (n i : ℕ) : vectorLessEq a b n i = !vectorLess b a n i := by
  induction n generalizing i with
  | zero => rfl
  | succ n ih =>
    unfold vectorLessEq vectorLess
    rcases lt_trichotomy (a i) (b i) with h | h | h
    · simp [h, h.not_gt]
    · simp [h, ih]
    · simp [h, h.not_gt]

theorem greater_eq (a b : ℕ → T) (n i : ℕ) : vectorGreater a b n i = vectorLess b a n i := by
  induction n generalizing i with
  | zero => rfl
  | succ n ih =>
    unfold vectorGreater vectorLess
    simp only [gt_iff_lt, ih]

theorem greaterEq_eq (a b : ℕ → T) (n i : ℕ) : vectorGreaterEq a b n i = vectorLessEq b a n i := by
  induction n generalizing i with
  | zero => rfl
  | succ n ih =>
    unfold vectorGreaterEq vectorLessEq
    simp only [gt_iff_lt, ih]

theorem less_lex (a b : ℕ → T) (n : ℕ) : vectorLess a b n 0 = true ↔ toLex (vector n a) < toLex (vector n b) := by
  rw [less_iff]
  constructor
  · rintro ⟨k, hk, he, hl⟩
    refine ⟨⟨k, hk⟩, fun j hj => ?_, ?_⟩
    · have := he j hj
      rwa [Nat.zero_add] at this
    · rwa [Nat.zero_add] at hl
  · rintro ⟨k, he, hl⟩
    refine ⟨k, k.2, fun j hj => ?_, ?_⟩
    · rw [Nat.zero_add]
      exact he ⟨j, lt_trans hj k.2⟩ hj
    · rw [Nat.zero_add]
      exact hl

/-- C136: the order operators of vectors of any dimension are the lexicographic order of the coordinates. -/
theorem C136_order (n : ℕ) (a b : ℕ → T) :
    (vectorLess a b n 0 = true ↔ toLex (vector n a) < toLex (vector n b)) ∧ (vectorLessEq a b n 0 = true ↔ toLex (vector n a) ≤ toLex (vector n b)) ∧
    (vectorGreater a b n 0 = true ↔ toLex (vector n b) < toLex (vector n a)) ∧
    (vectorGreaterEq a b n 0 = true ↔ toLex (vector n b) ≤ toLex (vector n a)) := by
  have hle : ∀ a b : ℕ → T, vectorLessEq a b n 0 = true ↔ toLex (vector n a) ≤ toLex (vector n b) := by
    intro a b
    rw [lessEq_not, ← not_lt, Bool.not_eq_true', ← Bool.not_eq_true]
    exact not_congr (less_lex b a n)
  refine ⟨less_lex a b n, hle a b, ?_, ?_⟩
  · rw [greater_eq]
    exact less_lex b a n
  · rw [greaterEq_eq]
    exact hle b a

example : vectorLess (fun i => ([1, 2, 3] : List ℤ).getD i 0) (fun i => ([1, 3, 0] : List ℤ).getD i 0) 3 0 = true := by decide

/-- C136: the order operators of `Vector<T, 3>` are the lexicographic order too. -/
theorem C136_order3 (a b : Vector3 T) :
    (a.less b = true ↔ toLex (coordinates a) < toLex (coordinates b)) ∧ (a.lessEq b = true ↔ toLex (coordinates a) ≤ toLex (coordinates b)) ∧
    (a.greater b = true ↔ toLex (coordinates b) < toLex (coordinates a)) ∧
    (a.greaterEq b = true ↔ toLex (coordinates b) ≤ toLex (coordinates a)) := by
  have hlt : ∀ a b : Vector3 T, toLex (coordinates a) < toLex (coordinates b) ↔ a.less b = true := by
    intro a b
    simp only [Vector3.less, Bool.or_eq_true, Bool.and_eq_true, decide_eq_true_eq]
    constructor
    · rintro ⟨i, hj, hi⟩
      have h0 := hj 0
      have h1 := hj 1
      fin_cases i <;> simp [coordinates] at hi h0 h1 <;> tauto
    · intro h
      have hcase : a.x < b.x ∨ (a.x = b.x ∧ a.y < b.y) ∨ (a.x = b.x ∧ a.y = b.y ∧ a.z < b.z) := by tauto
      rcases hcase with h | ⟨h1, h⟩ | ⟨h1, h2, h⟩
      · exact ⟨0, fun j hj => absurd hj (by simp), h⟩
      · refine ⟨1, fun j hj => ?_, h⟩
        fin_cases j <;> simp_all [coordinates]
      · refine ⟨2, fun j hj => ?_, h⟩
        fin_cases j <;> simp_all [coordinates]
  have hnot : ∀ a b : Vector3 T, a.lessEq b = !b.less a := by
    intro a b
    unfold Vector3.lessEq Vector3.less
    rcases lt_trichotomy a.x b.x with h | h | h
    · simp [h, h.not_gt, h.ne']
    · rcases lt_trichotomy a.y b.y with h' | h' | h'
      · simp [h, h', h'.not_gt, h'.ne']
      · simp [h, h', ← not_lt]
      · simp [h, h', h'.not_gt, h'.ne']
    · simp [h, h.not_gt, h.ne']
  have hle : ∀ a b : Vector3 T, toLex (coordinates a) ≤ toLex (coordinates b) ↔ a.lessEq b = true := by
    intro a b
    rw [hnot, ← not_lt, Bool.not_eq_true', ← Bool.not_eq_true]
    exact not_congr (hlt b a)
  refine ⟨(hlt a b).symm, (hle a b).symm, ?_, ?_⟩
  · refine Iff.trans ?_ (hlt b a).symm
    simp only [Vector3.greater, Vector3.less, Bool.or_eq_true, Bool.and_eq_true, decide_eq_true_eq, gt_iff_lt, @eq_comm _ a.x, @eq_comm _ a.y]
  · refine Iff.trans ?_ (hle b a).symm
    simp only [Vector3.greaterEq, Vector3.lessEq, Bool.or_eq_true, Bool.and_eq_true, decide_eq_true_eq, gt_iff_lt, ge_iff_le, @eq_comm _ a.x,
      @eq_comm _ a.y]

example : Vector3.less (⟨1, 2, 3⟩ : Vector3 ℤ) ⟨1, 3, 0⟩ = true ∧ Vector3.lessEq (⟨1, 2, 3⟩ : Vector3 ℤ) ⟨1, 2, 3⟩ = true := by decide

end Order

section Products

variable {K : Type} [CommRing K]

/-- C136: the scalar product, the square of the length and the multiples, in any dimension. -/
theorem C136_products (n : ℕ) (a b junk : ℕ → K) (x : K) :
    vectorDot n a b = vector n a ⬝ᵥ vector n b ∧ vectorLengthSquared n a = vector n a ⬝ᵥ vector n a ∧
    vector n (vectorScale n junk a x) = x • vector n a := by
  have hd : ∀ (a b : ℕ → K) (n : ℕ), loop (fun i v => v + a i * b i) n 0 = ∑ i ∈ Finset.range n, a i * b i := by
    intro a b n
    induction n with
    | zero => rfl
    | succ n ih =>
      rw [Finset.sum_range_succ, ← ih]
      rfl
  refine ⟨?_, ?_, ?_⟩
  · rw [vectorDot, hd, Finset.sum_range]
    rfl
  · rw [vectorLengthSquared, hd, Finset.sum_range]
    rfl
  · ext i
    show loop (fun i e => store e i (a i * x)) n junk i = x * a i
    rw [loop_store (fun i _ => a i * x), if_pos i.2, mul_comm]

example : vectorDot 3 (fun i => (i : ℤ) + 1) (fun i => 2 * (i : ℤ)) = 16 := by decide

/-- C136: the products of `Vector<T, 3>`. -/
theorem C136_products3 (a b : Vector3 K) (x : K) :
    a.dot b = coordinates a ⬝ᵥ coordinates b ∧ coordinates (a.cross b) = crossProduct (coordinates a) (coordinates b) ∧
    coordinates (a.smul x) = x • coordinates a ∧ a.lengthSquared = coordinates a ⬝ᵥ coordinates a := by
  refine ⟨?_, ?_, ?_, ?_⟩
  · simp [Vector3.dot, coordinates, dotProduct, Fin.sum_univ_three]
  · ext i
    fin_cases i <;> simp [Vector3.cross, coordinates, crossProduct]
  · ext i
    fin_cases i <;> simp [Vector3.smul, coordinates, mul_comm]
  · simp [Vector3.lengthSquared, coordinates, dotProduct, Fin.sum_univ_three]

example : (Vector3.cross ⟨1, 0, 0⟩ ⟨0, 1, 0⟩ : Vector3 ℤ) = ⟨0, 0, 1⟩ := by decide

/-- C136, for `Vector<T, 3>`: `*=` and `/=` with a number which is not a coordinate of the vector itself. -/
theorem C136_scale3_partial {F : Type} [Field F] (a : Vector3 F) (x : F) :
    coordinates (a.smulAssign fun _ => x) = x • coordinates a ∧ coordinates (a.divAssign fun _ => x) = x⁻¹ • coordinates a := by
  constructor
  · ext i
    fin_cases i <;> simp [Vector3.smulAssign, coordinates, mul_comm]
  · ext i
    fin_cases i <;> simp [Vector3.divAssign, coordinates, div_eq_mul_inv, mul_comm]

example : (Vector3.divAssign ⟨2, 4, 6⟩ (fun _ => 2) : Vector3 ℚ) = ⟨1, 2, 3⟩ := by decide +kernel

/-- C136, refuted for the coordinates of the vector: `v *= v.x` and `v /= v.x` use the new coordinate for the others. -/
theorem C136_alias_counterexample : (Vector3.smulAssign ⟨2, 3, 4⟩ (fun v => v.x) : Vector3 ℤ) = ⟨4, 12, 16⟩ ∧
    (Vector3.divAssign ⟨2, 4, 6⟩ (fun v => v.x) : Vector3 ℚ) = ⟨1, 4, 6⟩ := by
  decide +kernel

/-- C136, refuted: in dimensions other than two and three `*=` subtracts the number, for each number and each vector. -/
theorem C136_scaleAssign_counterexample (n : ℕ) (a : ℕ → K) (x : K) :
    (∀ i < n, vectorScaleAssign n a x i = a i - x) ∧ ∃ a : ℕ → ℤ, vectorScaleAssign 4 a 2 0 ≠ 2 * a 0 := by
  constructor
  · intro i hi
    rw [vectorScaleAssign, loop_store (fun _ v => v - x), if_pos hi]
  · exact ⟨fun _ => 1, by decide⟩

/-- C136, refuted: in dimensions other than two and three the negation `-v` changes `v` itself. -/
theorem C136_neg_counterexample (n : ℕ) (a : ℕ → K) :
    vector n (vectorNeg n a) = -vector n a ∧ ∃ a : ℕ → ℤ, vectorNeg 4 a 0 ≠ a 0 := by
  constructor
  · ext i
    show loop (fun i e => store e i (-(e i))) n a i = -a i
    rw [loop_store (fun _ v => -v), if_pos i.2]
  · exact ⟨fun _ => 1, by decide⟩

end Products

/-- C136: over the real numbers the length is the Euclidean one, and `scaled` keeps the direction and has the wished length. -/
theorem C136_length (a : Vector3 ℝ) (l : ℝ) (hl : 0 ≤ l) (h : coordinates a ≠ 0) :
    a.length ^ 2 = coordinates a ⬝ᵥ coordinates a ∧ 0 < a.length ∧ (a.scaled l).length = l ∧
    ∃ s : ℝ, 0 ≤ s ∧ coordinates (a.scaled l) = s • coordinates a := by
  have hpos : 0 < a.lengthSquared := by
    have hne : ¬(a.x = 0 ∧ a.y = 0 ∧ a.z = 0) := by
      rintro ⟨h1, h2, h3⟩
      refine h (funext fun i => ?_)
      fin_cases i <;> simp [coordinates, h1, h2, h3]
    unfold Vector3.lengthSquared
    by_contra hc
    have hx := mul_self_nonneg a.x
    have hy := mul_self_nonneg a.y
    have hz := mul_self_nonneg a.z
    exact hne ⟨mul_self_eq_zero.1 (by linarith), mul_self_eq_zero.1 (by linarith), mul_self_eq_zero.1 (by linarith)⟩
  have hlen : 0 < a.length := Real.sqrt_pos.2 hpos
  have hsq : a.length ^ 2 = a.lengthSquared := Real.sq_sqrt hpos.le
  refine ⟨by rw [hsq, (C136_products3 a a 0).2.2.2], hlen, ?_, ⟨l / a.length, div_nonneg hl hlen.le, (C136_products3 a a _).2.2.1⟩⟩
  have : (a.scaled l).lengthSquared = l ^ 2 := by
    have hm : ∀ s : ℝ, (a.smul s).lengthSquared = s ^ 2 * a.lengthSquared := by
      intro s
      unfold Vector3.smul Vector3.lengthSquared
      ring
    rw [Vector3.scaled, hm, ← hsq]
    field_simp
  rw [Vector3.length, this, Real.sqrt_sq hl]

example : coordinates (⟨3, 4, 0⟩ : Vector3 ℝ) ≠ 0 := by
  intro h
  have := congrFun h 0
  simp [coordinates] at this

end Props.Vector
