import Verif.Model.Interp
import Mathlib.LinearAlgebra.Lagrange
set_option autoImplicit false
/- Property C49 (Lagrange interpolation in exact arithmetic). -/
namespace Props
open Modm.Interp Polynomial
universe u
variable {F : Type u} [Field F]

theorem lagrangeBasis_eq (value xi : F) (i : Nat) (pts : List (F × F)) (post : List (F × F)) (j : Nat) (li : F)
    (h : pts.drop j = post) :
    lagrangeBasis value xi i j post li =
      li * ∏ k ∈ (Finset.Ico j pts.length).erase i, ((value - (pts.getD k 0).1) / (xi - (pts.getD k 0).1)) := by
  induction post generalizing j li with
  | nil =>
    have : pts.length ≤ j := List.drop_eq_nil_iff.1 h
    simp [lagrangeBasis, Finset.Ico_eq_empty_of_le this]
  | cons p post ih =>
    have hj : j < pts.length := by
      by_contra hc
      rw [List.drop_eq_nil_of_le (by omega)] at h; cases h
    have hp : pts[j] = p := by
      rw [List.drop_eq_getElem_cons hj] at h; exact (List.cons.inj h).1
    have hd : pts.drop (j + 1) = post := by
      rw [List.drop_eq_getElem_cons hj] at h; exact (List.cons.inj h).2
    have hg : pts.getD j 0 = p := by rw [List.getD_eq_getElem?_getD, List.getElem?_eq_getElem hj]; simp [hp]
    rw [lagrangeBasis, ih _ _ hd]
    have hsplit : Finset.Ico j pts.length = insert j (Finset.Ico (j + 1) pts.length) :=
      (Finset.insert_Ico_add_one_left_eq_Ico hj).symm
    rw [hsplit]
    by_cases hij : i = j
    · subst hij
      rw [Finset.erase_insert (by simp)]
      have : (Finset.Ico (i + 1) pts.length).erase i = Finset.Ico (i + 1) pts.length := Finset.erase_eq_of_notMem (by simp)
      rw [this]; simp
    · rw [Finset.erase_insert_of_ne (Ne.symm hij), Finset.prod_insert (by simp), hg]
      rw [if_pos hij, mul_assoc]

theorem lagrangeSum_eq (value : F) (pts : List (F × F)) (post : List (F × F)) (i : Nat) (ret : F) (h : pts.drop i = post) :
    lagrangeSum value pts i post ret =
      ret + ∑ k ∈ Finset.Ico i pts.length, lagrangeBasis value (pts.getD k 0).1 k 0 pts 1 * (pts.getD k 0).2 := by
  induction post generalizing i ret with
  | nil =>
    have : pts.length ≤ i := List.drop_eq_nil_iff.1 h
    simp [lagrangeSum, Finset.Ico_eq_empty_of_le this]
  | cons p post ih =>
    have hj : i < pts.length := by
      by_contra hc
      rw [List.drop_eq_nil_of_le (by omega)] at h; cases h
    have hp : pts[i] = p := by
      rw [List.drop_eq_getElem_cons hj] at h; exact (List.cons.inj h).1
    have hd : pts.drop (i + 1) = post := by
      rw [List.drop_eq_getElem_cons hj] at h; exact (List.cons.inj h).2
    have hg : pts.getD i 0 = p := by rw [List.getD_eq_getElem?_getD, List.getElem?_eq_getElem hj]; simp [hp]
    rw [lagrangeSum, ih _ _ hd, Finset.sum_eq_sum_Ico_succ_bot hj, hg, add_assoc]

/-- the code evaluates the interpolation polynomial -/
theorem lagrange_eq (pts : List (F × F)) (value : F) :
    lagrange pts value = eval value (Lagrange.interpolate (Finset.range pts.length) (fun k => (pts.getD k 0).1)
      (fun k => (pts.getD k 0).2)) := by
  rw [lagrange, lagrangeSum_eq value pts pts 0 0 (by simp), zero_add, ← Finset.range_eq_Ico, Lagrange.interpolate_apply,
    eval_finsetSum]
  apply Finset.sum_congr rfl
  intro k _
  rw [lagrangeBasis_eq value _ k pts pts 0 1 (by simp), one_mul, eval_mul, eval_C, mul_comm, Lagrange.basis, eval_prod,
    ← Finset.range_eq_Ico]
  congr 1
  apply Finset.prod_congr rfl
  intro j _
  simp [Lagrange.basisDivisor, div_eq_mul_inv, mul_comm]

theorem inj_of_nodup (pts : List (F × F)) (hn : (pts.map Prod.fst).Nodup) :
    Set.InjOn (fun k => (pts.getD k 0).1) (Finset.range pts.length : Set Nat) := by
  intro a ha b hb hab
  simp only [Finset.coe_range, Set.mem_Iio] at ha hb
  simp only [List.getD_eq_getElem?_getD, List.getElem?_eq_getElem ha, List.getElem?_eq_getElem hb, Option.getD_some] at hab
  exact (List.Nodup.getElem_inj_iff hn (hi := by simpa using ha) (hj := by simpa using hb)).1 (by simpa using hab)

/-- C49: for supporting points with distinct inputs, the result is the value of the one polynomial of degree below the
number of points that passes through all points, at every input. -/
theorem C49_lagrange_polynomial (pts : List (F × F)) (hn : (pts.map Prod.fst).Nodup) (f : F[X])
    (hd : f.degree < pts.length) (hf : ∀ p ∈ pts, f.eval p.1 = p.2) (value : F) : lagrange pts value = f.eval value := by
  rw [lagrange_eq]
  congr 1
  symm
  apply Lagrange.eq_interpolate_of_eval_eq _ (inj_of_nodup pts hn)
  · simpa using hd
  · intro i hi
    rw [Finset.mem_range] at hi
    simp only [List.getD_eq_getElem?_getD, List.getElem?_eq_getElem hi, Option.getD_some]
    exact hf _ (List.getElem_mem hi)

/-- C49: exact at every supporting point. -/
theorem C49_lagrange_at_points (pts : List (F × F)) (hn : (pts.map Prod.fst).Nodup) (p : F × F) (hp : p ∈ pts) :
    lagrange pts p.1 = p.2 := by
  obtain ⟨i, hi, rfl⟩ := List.mem_iff_getElem.1 hp
  rw [lagrange_eq]
  have := Lagrange.eval_interpolate_at_node (r := fun k => (pts.getD k 0).2) (inj_of_nodup pts hn)
    (i := i) (by simpa using hi)
  simpa [List.getD_eq_getElem?_getD, List.getElem?_eq_getElem hi] using this

-- x^2 through three points, evaluated at 5
example : lagrange [((0 : ℚ), (0 : ℚ)), (1, 1), (3, 9)] 5 = 25 := by norm_num [lagrange, lagrangeSum, lagrangeBasis]
example : lagrange [((0 : ℚ), (0 : ℚ)), (1, 1), (3, 9)] 5 = (X ^ 2 : ℚ[X]).eval 5 :=
  C49_lagrange_polynomial _ (by simp) (X ^ 2) (by rw [degree_X_pow]; exact_mod_cast Nat.lt_succ_self 2)
    (by intro p hp; simp at hp; rcases hp with rfl | rfl | rfl <;> norm_num) 5
example : (([((0 : ℚ), (0 : ℚ)), (1, 1), (3, 9)]).map Prod.fst).Nodup := by simp

end Props
