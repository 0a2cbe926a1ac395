import Verif.Lemmas.Lu
import Verif.Props.Matrix
import Mathlib.LinearAlgebra.Matrix.Block
import Mathlib.Algebra.Order.Field.Basic
import Mathlib.Algebra.Order.Field.Rat
import Mathlib.Tactic.FieldSimp
import Mathlib.Tactic.LinearCombination

set_option autoImplicit false

/-!
# C133–C134: LU decomposition
-/

namespace Props.Lu

open Modm.Matrix Modm.Lu Modm.Spec.Matrix

variable {K : Type} {n : ℕ}

/-! ## The shape of the factors after some steps -/

section shape

variable [Field K]

/-- The factors after `k` steps: `L` is lower triangular, and like the identity from the column `k` on; `U` has the columns
before `k` of an upper triangular matrix with ones on its diagonal. -/
private structure Shape (k : ℕ) (U L : Matrix (Fin n) (Fin n) K) : Prop where
  lower : ∀ i x, i < x → L i x = 0
  rest : ∀ i x, k ≤ x.val → L i x = if i = x then 1 else 0
  unit : ∀ i, i.val < k → U i i = 1
  below : ∀ i j, j < i → j.val < k → U i j = 0

/-- One step. -/
private def nextU (recip : K → K) (k : Fin n) (U : Matrix (Fin n) (Fin n) K) : Matrix (Fin n) (Fin n) K := fun i c =>
  if c < k ∨ i < k then U i c
  else if i = k then (if c = k then 1 else U k c * recip (U k k))
  else if c = k then 0
  else U i c + U k c * recip (U k k) * -(U i k)

private def nextL (k : Fin n) (U L : Matrix (Fin n) (Fin n) K) : Matrix (Fin n) (Fin n) K := fun i c =>
  if c = k ∧ k ≤ i then U i k else L i c

private theorem step_eq (recip : K → K) (k : Fin n) (s : (ℕ → K) × (ℕ → K)) :
    rowMajor n n (decomposeStep recip n k s).1 = nextU recip k (rowMajor n n s.1) ∧
    rowMajor n n (decomposeStep recip n k s).2 = nextL k (rowMajor n n s.1) (rowMajor n n s.2) := by
  refine ⟨funext fun i => funext fun c => ?_, funext fun i => funext fun c => ?_⟩
  · refine (decomposeStep_at recip k.2 s i.2 c.2).1.trans ?_
    simp only [nextU, rowMajor, Fin.lt_def, Fin.ext_iff]
  · refine (decomposeStep_at recip k.2 s i.2 c.2).2.trans ?_
    simp only [nextL, rowMajor, Fin.le_def, Fin.ext_iff]

private theorem Shape.next {recip : K → K} {k : Fin n} {U L : Matrix (Fin n) (Fin n) K} (h : Shape k U L) :
    Shape (k + 1) (nextU recip k U) (nextL k U L) := by
  refine ⟨fun i x hx => ?_, fun i x hx => ?_, fun i hi => ?_, fun i j hj hjk => ?_⟩
  · rw [nextL, if_neg (by omega), h.lower i x hx]
  · rw [nextL, if_neg (by omega), h.rest i x (by omega)]
  · rw [nextU]
    by_cases hik : i = k
    · rw [if_neg (by omega), if_pos hik, if_pos hik]
    · rw [if_pos (by omega), h.unit i (by omega)]
  · rw [nextU]
    by_cases hjk' : j = k
    · rw [if_neg (by omega), if_neg (by omega), if_pos hjk']
    · rw [if_pos (by omega), h.below i j hj (by omega)]

/-- A step does not change the product, if the pivot is not zero. -/
private theorem Shape.prod {recip : K → K} (hrec : ∀ x, x ≠ 0 → recip x * x = 1) {k : Fin n} {U L : Matrix (Fin n) (Fin n) K}
    (h : Shape k U L) (hp : U k k ≠ 0) : nextL k U L * nextU recip k U = L * U := by
  have hr := hrec _ hp
  funext i j
  rw [Matrix.mul_apply, Matrix.mul_apply]
  have hLk : ∀ x, k ≤ x → L i x = if i = x then 1 else 0 := fun x hx => h.rest i x hx
  rcases lt_trichotomy i k with hik | hik | hik
  · refine Finset.sum_congr rfl fun x _ => ?_
    rw [nextL, if_neg (by omega)]
    by_cases hx : x < k
    · rw [nextU, if_pos (Or.inr hx)]
    · rw [hLk x (by omega), if_neg (by omega), zero_mul, zero_mul]
  · subst hik
    refine Finset.sum_congr rfl fun x _ => ?_
    by_cases hx : x < i
    · rw [nextL, if_neg (by omega), nextU, if_pos (Or.inr hx)]
    · by_cases hxi : x = i
      · subst hxi
        rw [nextL, if_pos ⟨rfl, le_rfl⟩, hLk x le_rfl, if_pos rfl, one_mul, nextU]
        by_cases hj : j < x
        · rw [if_pos (Or.inl hj), h.below x j hj hj, mul_zero]
        · rw [if_neg (by omega), if_pos rfl]
          split
          · rename_i hjx; rw [hjx, mul_one]
          · linear_combination U x j * hr
      · rw [nextL, if_neg (by omega), hLk x (by omega), if_neg (by omega), zero_mul, zero_mul]
  · have hterm : ∀ x, nextL k U L i x * nextU recip k U x j = L i x * U x j +
        ((if x = k then U i k * nextU recip k U k j else 0) + if x = i then nextU recip k U i j - U i j else 0) := by
      intro x
      by_cases hx : x < k
      · rw [nextL, if_neg (by omega), nextU, if_pos (Or.inr hx), if_neg (by omega), if_neg (by omega), add_zero, add_zero]
      · by_cases hxk : x = k
        · subst hxk
          rw [nextL, if_pos ⟨rfl, hik.le⟩, if_pos rfl, hLk x le_rfl, if_neg (by omega), if_neg (by omega)]
          ring
        · rw [nextL, if_neg (by omega), hLk x (by omega), if_neg hxk]
          by_cases hxi : x = i
          · subst hxi
            rw [if_pos rfl, if_pos rfl]; ring
          · rw [if_neg (by omega), if_neg hxi]; ring
    rw [Finset.sum_congr rfl fun x _ => hterm x, Finset.sum_add_distrib, Finset.sum_add_distrib,
      Finset.sum_ite_eq' Finset.univ k, Finset.sum_ite_eq' Finset.univ i, if_pos (Finset.mem_univ _), if_pos (Finset.mem_univ _)]
    have : U i k * nextU recip k U k j + (nextU recip k U i j - U i j) = 0 := by
      by_cases hj : j < k
      · rw [nextU, nextU, if_pos (Or.inl hj), if_pos (Or.inl hj), h.below k j hj hj]; ring
      · have e1 : nextU recip k U k j = if j = k then 1 else U k j * recip (U k k) := by
          rw [nextU, if_neg (by omega), if_pos rfl]
        have e2 : nextU recip k U i j = if j = k then 0 else U i j + U k j * recip (U k k) * -(U i k) := by
          rw [nextU, if_neg (by omega), if_neg (by omega)]
        rw [e1, e2]
        by_cases hjk : j = k
        · rw [if_pos hjk, if_pos hjk, hjk]; ring
        · rw [if_neg hjk, if_neg hjk]; ring
    rw [this, add_zero]

private theorem det_lower {m : ℕ} {L : Matrix (Fin m) (Fin m) K} (h : ∀ i x, i < x → L i x = 0) : L.det = ∏ i, L i i :=
  Matrix.det_of_isLowerTriangular L fun i j hij => h i j hij

private theorem det_upper {m : ℕ} {U : Matrix (Fin m) (Fin m) K} (h : ∀ i j, j < i → U i j = 0) : U.det = ∏ i, U i i :=
  Matrix.det_of_isUpperTriangular fun i j hij => h i j hij

private theorem Shape.init (A : Matrix (Fin n) (Fin n) K) : Shape 0 A 1 := by
  refine ⟨fun i x hx => ?_, fun i x _ => Matrix.one_apply, fun i hi => by omega, fun i j _ hj => by omega⟩
  rw [Matrix.one_apply, if_neg (by omega)]

end shape

/-! ## Without pivoting -/

section plain

variable [Field K]

private theorem leading_det {k : Fin n} {U L A : Matrix (Fin n) (Fin n) K} (h : Shape k U L) (hA : L * U = A) :
    (leading A (k + 1) k.2).det = (∏ i : Fin (k + 1), L (Fin.castLE k.2 i) (Fin.castLE k.2 i)) * U k k := by
  have hmul : leading A (k + 1) k.2 = leading L (k + 1) k.2 * leading U (k + 1) k.2 := by
    funext i j
    rw [leading, Matrix.submatrix_apply, ← hA, Matrix.mul_apply, Matrix.mul_apply]
    refine (Fintype.sum_of_injective (Fin.castLE k.2) (Fin.castLE_injective _) _ _ (fun x hx => ?_) fun x => rfl).symm
    rw [h.lower _ _ ?_, zero_mul]
    by_contra hlt
    apply hx
    refine ⟨⟨x, ?_⟩, rfl⟩
    have h1 : (x : ℕ) ≤ i := by simpa [Fin.lt_def] using hlt
    omega
  rw [hmul, Matrix.det_mul, det_lower, det_upper]
  · congr 1
    rw [Fin.prod_univ_castSucc]
    rw [Finset.prod_eq_one, one_mul]
    · rfl
    · intro i _
      exact h.unit _ i.2
  · intro i j hij
    refine h.below _ _ hij ?_
    have := i.2
    have : j.val < i.val := hij
    simp only [Fin.val_castLE]
    omega
  · intro i x hx
    exact h.lower _ _ hx

private theorem plain_inv {recip : K → K} (hrec : ∀ x, x ≠ 0 → recip x * x = 1) (A : Mat K n n) {k : ℕ} (hk : k ≤ n) :
    ∃ U L, rowMajor n n (loop (decomposeStep recip n) k (A.element, (identityMatrix : Mat K n n).element)).1 = U ∧
      rowMajor n n (loop (decomposeStep recip n) k (A.element, (identityMatrix : Mat K n n).element)).2 = L ∧
      Shape k U L ∧ ((∀ i : Fin n, i.val < k → L i i ≠ 0) → L * U = rowMajor n n A.element) ∧
      ((∀ i : Fin n, i.val < k → L i i ≠ 0) ↔ ∀ m (hm : m ≤ n), m ≤ k → (leading (rowMajor n n A.element) m hm).det ≠ 0) := by
  induction k with
  | zero =>
    refine ⟨_, _, rfl, rfl, ?_, ?_, ?_⟩
    · rw [loop]
      have := (Props.Matrix.C130_constants (T := K) (r := n) (c := n)).2.1
      dsimp only
      rw [this]
      exact Shape.init _
    · intro _
      rw [loop]
      dsimp only
      rw [(Props.Matrix.C130_constants (T := K) (r := n) (c := n)).2.1, one_mul]
    · refine ⟨fun _ m hm h0 => ?_, fun _ i hi => by omega⟩
      obtain rfl : m = 0 := by omega
      rw [Matrix.det_isEmpty]
      exact one_ne_zero
  | succ k ih =>
    obtain ⟨U, L, h1, h2, h3, h4, h5⟩ := ih (by omega)
    obtain ⟨k', rfl⟩ : ∃ k' : Fin n, k'.val = k := ⟨⟨k, by omega⟩, rfl⟩
    obtain ⟨e1, e2⟩ := step_eq recip k' (loop (decomposeStep recip n) k' (A.element, (identityMatrix : Mat K n n).element))
    rw [h1] at e1
    rw [h1, h2] at e2
    have hdiag : ∀ i : Fin n, i.val < k' → nextL k' U L i i = L i i := fun i hi => by rw [nextL, if_neg (by omega)]
    have hpiv : nextL k' U L k' k' = U k' k' := by rw [nextL, if_pos ⟨rfl, le_rfl⟩]
    have hall : (∀ i : Fin n, i.val < k' + 1 → nextL k' U L i i ≠ 0) ↔ (∀ i : Fin n, i.val < k' → L i i ≠ 0) ∧ U k' k' ≠ 0 := by
      refine ⟨fun h => ⟨fun i hi => ?_, ?_⟩, fun h i hi => ?_⟩
      · have := h i (by omega)
        rwa [hdiag i hi] at this
      · have := h k' (by omega)
        rwa [hpiv] at this
      · by_cases hik : i = k'
        · rw [hik, hpiv]; exact h.2
        · rw [hdiag i (by omega)]; exact h.1 i (by omega)
    refine ⟨_, _, e1, e2, h3.next, ?_, ?_⟩
    · intro hne
      obtain ⟨g1, g2⟩ := hall.mp hne
      rw [h3.prod hrec g2, h4 g1]
    · rw [hall]
      refine ⟨fun h m hm hmk => ?_, fun h => ?_⟩
      · by_cases hlt : m ≤ k'
        · exact h5.mp h.1 m hm hlt
        · obtain rfl : m = k' + 1 := by omega
          rw [leading_det h3 (h4 h.1)]
          refine mul_ne_zero (Finset.prod_ne_zero_iff.mpr fun i _ => ?_) h.2
          by_cases hi : i.val < k'
          · exact h.1 _ hi
          · rw [h3.rest _ _ (by simpa using hi), if_pos rfl]
            exact one_ne_zero
      · have g1 := h5.mpr fun m hm hmk => h m hm (by omega)
        refine ⟨g1, fun h0 => ?_⟩
        have := h (k' + 1) k'.2 le_rfl
        rw [leading_det h3 (h4 g1), h0, mul_zero] at this
        exact this rfl

/-- **C133.**  The decomposition without pivoting: `l` is lower and `u` is upper triangular with ones on its diagonal.  No
element of the diagonal of `l` is zero if and only if no leading principal minor of the matrix is, and then the matrix is the
product. -/
theorem C133_plain_partial {recip : K → K} (hrec : ∀ x, x ≠ 0 → recip x * x = 1) (A : Mat K n n) :
    ∃ l u, decompose recip n A = (true, l, u) ∧
      (∀ i j, i < j → rowMajor n n l.element i j = 0) ∧
      (∀ i, rowMajor n n u.element i i = 1) ∧ (∀ i j, j < i → rowMajor n n u.element i j = 0) ∧
      ((∀ i, rowMajor n n l.element i i ≠ 0) → rowMajor n n l.element * rowMajor n n u.element = rowMajor n n A.element) ∧
      ((∀ i, rowMajor n n l.element i i ≠ 0) ↔ ∀ m (hm : m ≤ n), (leading (rowMajor n n A.element) m hm).det ≠ 0) := by
  obtain ⟨U, L, h1, h2, h3, h4, h5⟩ := plain_inv hrec A le_rfl
  refine ⟨_, _, rfl, ?_⟩
  dsimp only
  rw [h1, h2]
  refine ⟨h3.lower, fun i => h3.unit i i.2, fun i j hj => h3.below i j hj j.2, fun h => h4 fun i _ => h i, ?_⟩
  refine ⟨fun h m hm => h5.mp (fun i _ => h i) m hm hm, fun h i => h5.mpr (fun m hm _ => h m hm) i i.2⟩

end plain

/-! ## With pivoting -/

section pivot

variable [Field K] [LinearOrder K] [IsStrictOrderedRing K]

private theorem swap_val (a b i : Fin n) : (Equiv.swap a b i).val = Equiv.swap a.val b.val i.val := by
  rw [Equiv.swap_apply_def, Equiv.swap_apply_def]
  simp only [Fin.ext_iff]
  split_ifs <;> rfl

omit [LinearOrder K] [IsStrictOrderedRing K] in
/-- Both rows are at or below `k`. -/
private theorem Shape.swap {k r : Fin n} (hr : k ≤ r) {U L : Matrix (Fin n) (Fin n) K} (h : Shape k U L) :
    (fun i c => if k ≤ c then U (Equiv.swap r k i) c else U i c) = U.submatrix (Equiv.swap r k) id ∧
    (fun i c => if c < k then L (Equiv.swap r k i) c else L i c) = L.submatrix (Equiv.swap r k) (Equiv.swap r k) ∧
    Shape k (U.submatrix (Equiv.swap r k) id) (L.submatrix (Equiv.swap r k) (Equiv.swap r k)) := by
  have small : ∀ i, i < k → Equiv.swap r k i = i := fun i hi => Equiv.swap_apply_of_ne_of_ne (by omega) (by omega)
  have large : ∀ i, k ≤ i → k ≤ Equiv.swap r k i := by
    intro i hi
    rw [Equiv.swap_apply_def]
    split_ifs <;> omega
  refine ⟨?_, ?_, ?_⟩
  · funext i c
    rw [Matrix.submatrix_apply, id]
    split
    · rfl
    · rename_i hc
      by_cases hi : i < k
      · rw [small i hi]
      · rw [h.below i c (by omega) (by omega), h.below _ c (by have := large i (by omega); omega) (by omega)]
  · funext i c
    rw [Matrix.submatrix_apply]
    split
    · rename_i hc
      rw [small c hc]
    · rename_i hc
      rw [h.rest i c (by omega), h.rest _ _ (large c (by omega))]
      simp only [(Equiv.swap r k).injective.eq_iff]
  · refine ⟨fun i x hx => ?_, fun i x hx => ?_, fun i hi => ?_, fun i j hj hjk => ?_⟩
    · rw [Matrix.submatrix_apply]
      by_cases hxk : x < k
      · rw [small x hxk, small i (by omega), h.lower i x hx]
      · rw [h.rest _ _ (large x (by omega)), if_neg]
        rw [(Equiv.swap r k).injective.eq_iff]; omega
    · rw [Matrix.submatrix_apply, h.rest _ _ (large x hx)]
      simp only [(Equiv.swap r k).injective.eq_iff]
    · rw [Matrix.submatrix_apply, small i hi]
      exact h.unit i hi
    · rw [Matrix.submatrix_apply, id]
      by_cases hi : i < k
      · rw [small i hi, h.below i j hj hjk]
      · exact h.below _ j (by have := large i (by omega); omega) hjk

omit [LinearOrder K] [IsStrictOrderedRing K] in
/-- If a column has nothing to eliminate, the matrix is singular. -/
private theorem Shape.singular {k : Fin n} {U L : Matrix (Fin n) (Fin n) K} (h : Shape k U L) (h0 : ∀ i, k ≤ i → U i k = 0) :
    U.det = 0 := by
  rw [Matrix.det_apply]
  refine Finset.sum_eq_zero fun σ _ => ?_
  have : ∃ j, U (σ j) j = 0 := by
    by_contra hno
    push Not at hno
    -- the columns up to `k` would be taken to rows before `k`
    have hmap : ∀ j ∈ Finset.Iic k, σ j ∈ Finset.Iio k := by
      intro j hj
      rw [Finset.mem_Iic] at hj
      rw [Finset.mem_Iio]
      by_contra hge
      refine hno j ?_
      by_cases hjk : j = k
      · rw [hjk]; exact h0 _ (by rw [← hjk]; rw [hjk] at hge ⊢; omega)
      · exact h.below _ _ (by omega) (by omega)
    have := Finset.card_le_card_of_injOn σ hmap σ.injective.injOn
    simp only [Fin.card_Iic, Fin.card_Iio] at this
    omega
  obtain ⟨j, hj⟩ := this
  rw [Finset.prod_eq_zero (f := fun i => U (σ i) i) (Finset.mem_univ j) hj, smul_zero]

/-- What holds after `k` steps. -/
private structure Inv (A : Matrix (Fin n) (Fin n) K) (k : ℕ) (s : State K) (τ : Equiv.Perm (Fin n)) : Prop where
  perm : ∀ i : Fin n, s.p i = (τ i).val
  shape : Shape k (rowMajor n n s.u) (rowMajor n n s.l)
  bound : ∀ i j : Fin n, i.val < k → i ≤ j → |rowMajor n n s.l j i| ≤ |rowMajor n n s.l i i|
  prod : (∀ i : Fin n, i.val < k → rowMajor n n s.l i i ≠ 0) → rowMajor n n s.l * rowMajor n n s.u = A.submatrix τ id
  zero : (∃ i : Fin n, i.val < k ∧ rowMajor n n s.l i i = 0) → A.det = 0

omit [IsStrictOrderedRing K] in
/-- The exchange of rows. -/
private theorem Inv.swap {A : Matrix (Fin n) (Fin n) K} {s : State K} {τ : Equiv.Perm (Fin n)} {k r : Fin n} (h : Inv A k s τ)
    (hr : k ≤ r) (hne : r ≠ k) :
    rowMajor n n (swap (n - k) s.u (r * n + k) (k * n + k)) = (rowMajor n n s.u).submatrix (Equiv.swap r k) id ∧
    Inv A k ⟨swap (n - k) s.u (r * n + k) (k * n + k), Modm.Lu.swap k s.l (r * n) (k * n),
      store (store s.p k (s.p r)) r (s.p k)⟩ (τ * Equiv.swap r k) := by
  obtain ⟨g1, g2, g3⟩ := h.shape.swap hr
  have e1 : rowMajor n n (Modm.Lu.swap (n - k) s.u (r * n + k) (k * n + k)) = (rowMajor n n s.u).submatrix (Equiv.swap r k) id := by
    rw [← g1]
    funext i c
    refine (swap_right k.2.le s.u c.2).trans ?_
    simp only [rowMajor, swap_val, Fin.le_def]
  have e2 : rowMajor n n (Modm.Lu.swap k s.l (r * n) (k * n)) = (rowMajor n n s.l).submatrix (Equiv.swap r k) (Equiv.swap r k) := by
    rw [← g2]
    funext i c
    refine (swap_left k.2.le s.l c.2).trans ?_
    simp only [rowMajor, swap_val, Fin.lt_def]
  have small : ∀ i, i < k → Equiv.swap r k i = i := fun i hi => Equiv.swap_apply_of_ne_of_ne (by omega) (by omega)
  refine ⟨e1, ⟨fun i => ?_, ?_, ?_, ?_, ?_⟩⟩
  · rw [Equiv.Perm.mul_apply]
    show store (store s.p k (s.p r)) r (s.p k) i = _
    by_cases h1 : i = r
    · subst h1
      rw [store_same, Equiv.swap_apply_left, h.perm]
    · rw [store_other _ _ (by omega)]
      by_cases h2 : i = k
      · subst h2
        rw [store_same, Equiv.swap_apply_right, h.perm]
      · rw [store_other _ _ (by omega), Equiv.swap_apply_of_ne_of_ne h1 h2, h.perm]
  · dsimp only
    rw [e1, e2]
    exact g3
  · dsimp only
    rw [e2]
    intro i j hi hij
    rw [Matrix.submatrix_apply, Matrix.submatrix_apply, small i hi]
    refine h.bound i _ hi ?_
    rw [Equiv.swap_apply_def]
    split_ifs <;> omega
  · dsimp only
    rw [e1, e2]
    intro hne
    rw [Matrix.submatrix_mul_equiv, h.prod]
    · rw [Matrix.submatrix_submatrix]; rfl
    · intro i hi
      have := hne i hi
      rwa [Matrix.submatrix_apply, small i hi] at this
  · dsimp only
    rw [e2]
    rintro ⟨i, hi, h0⟩
    rw [Matrix.submatrix_apply, small i hi] at h0
    exact h.zero ⟨i, hi, h0⟩

/-- The elimination. -/
private theorem Inv.next {recip : K → K} (hrec : ∀ x, x ≠ 0 → recip x * x = 1) {A : Matrix (Fin n) (Fin n) K} {s : State K}
    {τ : Equiv.Perm (Fin n)} {k : Fin n} (h : Inv A k s τ)
    (hmax : ∀ i, k ≤ i → |rowMajor n n s.u i k| ≤ |rowMajor n n s.u k k|) :
    Inv A (k + 1) ⟨(decomposeStep recip n k (s.u, s.l)).1, (decomposeStep recip n k (s.u, s.l)).2, s.p⟩ τ := by
  obtain ⟨e1, e2⟩ := step_eq recip k (s.u, s.l)
  dsimp only at e1 e2
  have hdiag : ∀ i : Fin n, i.val < k → nextL k (rowMajor n n s.u) (rowMajor n n s.l) i i = rowMajor n n s.l i i :=
    fun i hi => by rw [nextL, if_neg (by omega)]
  have hpiv : nextL k (rowMajor n n s.u) (rowMajor n n s.l) k k = rowMajor n n s.u k k := by rw [nextL, if_pos ⟨rfl, le_rfl⟩]
  refine ⟨h.perm, ?_, ?_, ?_, ?_⟩
  · dsimp only
    rw [e1, e2]
    exact h.shape.next
  · dsimp only
    rw [e2]
    intro i j hi hij
    by_cases hik : i = k
    · subst hik
      rw [nextL, if_pos ⟨rfl, hij⟩, hpiv]
      exact hmax j hij
    · rw [nextL, if_neg (by omega), hdiag i (by omega)]
      exact h.bound i j (by omega) hij
  · dsimp only
    rw [e1, e2]
    intro hne
    have hp : rowMajor n n s.u k k ≠ 0 := by
      have := hne k (by omega)
      rwa [hpiv] at this
    rw [h.shape.prod hrec hp]
    refine h.prod fun i hi => ?_
    have := hne i (by omega)
    rwa [hdiag i hi] at this
  · dsimp only
    rw [e2]
    rintro ⟨i, hi, h0⟩
    by_cases hz : ∃ i : Fin n, i.val < k ∧ rowMajor n n s.l i i = 0
    · exact h.zero hz
    · push Not at hz
      obtain rfl : i = k := by
        by_contra hik
        rw [hdiag i (by omega)] at h0
        exact hz i (by omega) h0
      rw [hpiv] at h0
      have hdet := congrArg Matrix.det (h.prod hz)
      rw [Matrix.det_mul, h.shape.singular, mul_zero] at hdet
      · have e : A.submatrix τ id = (A.submatrix τ (Equiv.refl _)) := rfl
        rw [Matrix.det_permute] at hdet
        rcases mul_eq_zero.mp hdet.symm with hs | hs
        · exfalso
          rcases Int.units_eq_one_or (Equiv.Perm.sign τ) with hh | hh <;> rw [hh] at hs <;> simp at hs
        · exact hs
      · intro j hj
        have := hmax j hj
        rw [h0, abs_zero] at this
        exact abs_nonpos_iff.mp this

private theorem pivot_inv {recip : K → K} (hrec : ∀ x, x ≠ 0 → recip x * x = 1) (A : Mat K n n) (hn : n ≤ 128) (junk : ℕ → ℤ)
    {k : ℕ} (hk : k ≤ n) :
    ∃ τ, Inv (rowMajor n n A.element) k (loop (decomposePivotStep recip n) k ⟨A.element, (identityMatrix : Mat K n n).element,
      loop (fun i p => store p i (BitVec.ofNat 8 i).toInt) n junk⟩) τ := by
  induction k with
  | zero =>
    refine ⟨1, ?_, ?_, ?_, ?_, ?_⟩
    · intro i
      rw [loop]
      dsimp only
      have := loop_store (fun i (_ : ℤ) => (BitVec.ofNat 8 i).toInt) n junk i
      rw [this, if_pos i.2, BitVec.toInt_ofNat', Int.bmod_eq_of_le (by omega) (by omega)]
      rfl
    · rw [loop]
      dsimp only
      rw [(Props.Matrix.C130_constants (T := K) (r := n) (c := n)).2.1]
      exact Shape.init _
    · intro i j hi; omega
    · intro _
      rw [loop]
      dsimp only
      rw [(Props.Matrix.C130_constants (T := K) (r := n) (c := n)).2.1, one_mul]
      rfl
    · rintro ⟨i, hi, -⟩; omega
  | succ k ih =>
    obtain ⟨τ, h⟩ := ih (by omega)
    rw [loop]
    generalize loop (decomposePivotStep recip n) k _ = s at h ⊢
    obtain ⟨k', rfl⟩ : ∃ k' : Fin n, k'.val = k := ⟨⟨k, by omega⟩, rfl⟩
    obtain ⟨m1, m2, m3⟩ := maxRow_spec n k' k'.2 s.u
    unfold decomposePivotStep
    dsimp only
    generalize maxRow n k' s.u = r at m1 m2 m3 ⊢
    by_cases hr : r = k'
    · rw [if_neg (by simpa using hr)]
      refine ⟨τ, h.next hrec fun i hi => ?_⟩
      rw [hr] at m3
      exact m3 i hi i.2
    · rw [if_pos hr]
      obtain ⟨r', rfl⟩ : ∃ r' : Fin n, r'.val = r := ⟨⟨r, m2⟩, rfl⟩
      obtain ⟨e1, h2⟩ := h.swap (k := k') (r := r') m1 (by omega)
      refine ⟨_, h2.next hrec fun i hi => ?_⟩
      dsimp only
      rw [e1, Matrix.submatrix_apply, Matrix.submatrix_apply, Equiv.swap_apply_right]
      refine m3 _ ?_ (Equiv.swap r' k' i).2
      show k' ≤ Equiv.swap r' k' i
      have : k' ≤ r' := m1
      rw [Equiv.swap_apply_def]
      split_ifs <;> omega

/-- **C133.**  The decomposition with pivoting, for every matrix of up to 128 rows: `p` is a permutation; `l` is lower and `u`
is upper triangular with ones on its diagonal; no element of a column of `l` is larger than that on the diagonal; the
determinant is the product of the diagonal of `l`, up to the sign of the permutation; and if it is not zero, the product of
`l` and `u` is the matrix with its rows permuted. -/
theorem C133_pivot {recip : K → K} (hrec : ∀ x, x ≠ 0 → recip x * x = 1) (hn : n ≤ 128) (junk : ℕ → ℤ) (A : Mat K n n) :
    ∃ l u p, decomposePivot recip n junk A = (true, l, u, p) ∧ ∃ τ : Equiv.Perm (Fin n), (∀ i : Fin n, p i = (τ i).val) ∧
      (∀ i j, i < j → rowMajor n n l.element i j = 0) ∧
      (∀ i, rowMajor n n u.element i i = 1) ∧ (∀ i j, j < i → rowMajor n n u.element i j = 0) ∧
      (∀ i j, i ≤ j → |rowMajor n n l.element j i| ≤ |rowMajor n n l.element i i|) ∧
      (rowMajor n n A.element).det = Equiv.Perm.sign τ * ∏ i, rowMajor n n l.element i i ∧
      ((rowMajor n n A.element).det ≠ 0 → rowMajor n n l.element * rowMajor n n u.element = (rowMajor n n A.element).submatrix τ id) := by
  obtain ⟨τ, h⟩ := pivot_inv hrec A hn junk le_rfl
  unfold decomposePivot
  dsimp only
  generalize loop (decomposePivotStep recip n) n _ = s at h ⊢
  refine ⟨_, _, _, rfl, τ, h.perm, h.shape.lower, fun i => h.shape.unit i i.2, fun i j hj => h.shape.below i j hj j.2,
    fun i j hij => h.bound i j i.2 hij, ?_, fun hdet => h.prod fun i hi h0 => hdet (h.zero ⟨i, hi, h0⟩)⟩
  dsimp only
  by_cases hz : ∃ i : Fin n, i.val < n ∧ rowMajor n n s.l i i = 0
  · obtain ⟨i, hi, h0⟩ := hz
    rw [h.zero ⟨i, hi, h0⟩, Finset.prod_eq_zero (f := fun i => rowMajor n n s.l i i) (Finset.mem_univ i) h0, mul_zero]
  · push Not at hz
    have hdet := congrArg Matrix.det (h.prod hz)
    rw [Matrix.det_mul, det_lower h.shape.lower, det_upper fun i j hj => h.shape.below i j hj j.2,
      Finset.prod_eq_one (s := Finset.univ) (f := fun i => rowMajor n n s.u i i) fun i _ => h.shape.unit i i.2, mul_one,
      Matrix.det_permute] at hdet
    rw [hdet]
    rcases Int.units_eq_one_or (Equiv.Perm.sign τ) with hh | hh <;> rw [hh] <;> simp

/-! ## The permutation as a matrix -/

omit [LinearOrder K] [IsStrictOrderedRing K] in
private theorem permutation_eq {p : ℕ → ℤ} {τ : Equiv.Perm (Fin n)} (h : ∀ i : Fin n, p i = (τ i).val) :
    rowMajor n n (loop (fun i e => store e ((i : ℤ) * n + p i).toNat 1) n (zeroMatrix : Mat K n n).element) =
      permutation τ := by
  funext i j
  have key : ∀ m ≤ n, loop (fun i e => store e ((i : ℤ) * n + p i).toNat 1) m (zeroMatrix : Mat K n n).element (i * n + j) =
      if i.val < m ∧ τ i = j then 1 else 0 := by
    intro m hm
    induction m with
    | zero => rw [loop, if_neg (by omega)]; rfl
    | succ m ih =>
      rw [loop]
      have e : ((m : ℤ) * n + p m).toNat = m * n + τ ⟨m, by omega⟩ := by
        rw [h ⟨m, by omega⟩]
        have : (m : ℤ) * n + ((τ ⟨m, by omega⟩ : Fin n) : ℕ) = ((m * n + τ ⟨m, by omega⟩ : ℕ) : ℤ) := by push_cast; rfl
        rw [this, Int.toNat_natCast]
      rw [e]
      by_cases hh : i.val = m ∧ j.val = τ ⟨m, by omega⟩
      · obtain ⟨rfl, h2⟩ := hh
        rw [h2, store_same, if_pos ⟨by omega, Fin.ext h2.symm⟩]
      · rw [store_other _ _ (by rw [Ne, place_inj j.2 (τ ⟨m, by omega⟩).2]; exact hh), ih (by omega)]
        congr 1
        refine propext ⟨fun h => ⟨by omega, h.2⟩, fun h => ⟨?_, h.2⟩⟩
        by_contra hlt
        have him : i.val = m := by omega
        subst him
        exact hh ⟨rfl, by rw [← h.2]⟩
  refine (key n le_rfl).trans ?_
  simp [permutation]

omit [LinearOrder K] [IsStrictOrderedRing K] in
private theorem permutation_mul {w : ℕ} (τ : Equiv.Perm (Fin n)) (B : Matrix (Fin n) (Fin w) K) :
    (permutation τ : Matrix (Fin n) (Fin n) K) * B = B.submatrix τ id := by
  funext i c
  rw [Matrix.mul_apply, Matrix.submatrix_apply]
  simp [permutation]

/-- **C133.**  With a matrix `p`: it is a permutation matrix, and `p * matrix = l * u` if the matrix is regular. -/
theorem C133_matrix {recip : K → K} (hrec : ∀ x, x ≠ 0 → recip x * x = 1) (hn : n ≤ 128) (junk : ℕ → ℤ) (A : Mat K n n) :
    ∃ l u p, decomposePivotMatrix recip n junk A = (true, l, u, p) ∧
      (∀ i j, i < j → rowMajor n n l.element i j = 0) ∧
      (∀ i, rowMajor n n u.element i i = 1) ∧ (∀ i j, j < i → rowMajor n n u.element i j = 0) ∧
      (∃ τ : Equiv.Perm (Fin n), rowMajor n n p.element = permutation τ) ∧
      ((rowMajor n n A.element).det ≠ 0 → (∀ i, rowMajor n n l.element i i ≠ 0) ∧
        rowMajor n n p.element * rowMajor n n A.element = rowMajor n n l.element * rowMajor n n u.element) := by
  obtain ⟨l, u, p, h0, τ, h1, h2, h3, h4, -, h5, h6⟩ := C133_pivot hrec hn junk A
  unfold decomposePivotMatrix
  rw [h0]
  refine ⟨_, _, _, rfl, h2, h3, h4, ⟨τ, permutation_eq h1⟩, fun hdet => ⟨fun i h0 => hdet ?_, ?_⟩⟩
  · rw [h5, Finset.prod_eq_zero (f := fun i => rowMajor n n l.element i i) (Finset.mem_univ i) h0, mul_zero]
  · rw [h6 hdet]
    dsimp only
    rw [permutation_eq h1, permutation_mul]

/-! ## Solving -/

omit [LinearOrder K] [IsStrictOrderedRing K] in
private theorem forward {recip : K → K} (hrec : ∀ x, x ≠ 0 → recip x * x = 1) {w : ℕ} {l : ℕ → K} {b : ℕ → K}
    (hlow : ∀ i j, i < j → rowMajor n n l i j = 0) (hdiag : ∀ i, rowMajor n n l i i ≠ 0) :
    rowMajor n n l * rowMajor n w (loop (solveLStep recip n w) n (l, b)).2 = rowMajor n w b := by
  have key : ∀ k ≤ n, (∀ i c : Fin n, k ≤ c.val → rowMajor n n (loop (solveLStep recip n w) k (l, b)).1 i c = rowMajor n n l i c) ∧
      ∀ (i : Fin n) (c : Fin w),
        (∑ x : Fin n, if x.val < k then rowMajor n n l i x * rowMajor n w (loop (solveLStep recip n w) k (l, b)).2 x c else 0) +
          (if k ≤ i.val then rowMajor n w (loop (solveLStep recip n w) k (l, b)).2 i c else 0) = rowMajor n w b i c := by
    intro k hk
    induction k with
    | zero =>
      refine ⟨fun i c _ => rfl, fun i c => ?_⟩
      simp [loop]
    | succ k ih =>
      obtain ⟨ih1, ih2⟩ := ih (by omega)
      obtain ⟨k', rfl⟩ : ∃ k' : Fin n, k'.val = k := ⟨⟨k, by omega⟩, rfl⟩
      rw [loop]
      generalize loop (solveLStep recip n w) k' (l, b) = s at ih1 ih2 ⊢
      obtain ⟨g1, g2⟩ := solveLStep_at recip (w := w) k'.2 s
      have q1 : ∀ (i : Fin n) (c : Fin w), rowMajor n w (solveLStep recip n w k' s).2 i c =
          if i < k' then rowMajor n w s.2 i c
          else if i = k' then rowMajor n w s.2 k' c * recip (rowMajor n n l k' k')
          else rowMajor n w s.2 i c + rowMajor n w s.2 k' c * recip (rowMajor n n l k' k') * -(rowMajor n n l i k') := by
        intro i c
        rw [← ih1 k' k' le_rfl, ← ih1 i k' le_rfl]
        refine (g1 i.2 c.2).trans ?_
        simp only [rowMajor, Fin.lt_def, Fin.ext_iff]
      refine ⟨fun i c hc => (g2 c.2 (by omega)).trans (ih1 i c (by omega)), fun i c => ?_⟩
      rw [← ih2 i c]
      have hr := hrec _ (hdiag k')
      have hsum : ∀ x : Fin n, (if x.val < k' + 1 then rowMajor n n l i x * rowMajor n w (solveLStep recip n w k' s).2 x c else 0) =
          (if x.val < k' then rowMajor n n l i x * rowMajor n w s.2 x c else 0) +
            if x = k' then rowMajor n n l i k' * (rowMajor n w s.2 k' c * recip (rowMajor n n l k' k')) else 0 := by
        intro x
        rcases lt_trichotomy x k' with h | h | h
        · rw [if_pos (by omega), if_pos (by omega), if_neg (by omega), add_zero, q1, if_pos h]
        · subst h
          rw [if_pos (by omega), if_neg (by omega), if_pos rfl, zero_add, q1, if_neg (by omega), if_pos rfl]
        · rw [if_neg (by omega), if_neg (by omega), if_neg (by omega), add_zero]
      rw [Finset.sum_congr rfl fun x _ => hsum x, Finset.sum_add_distrib, Finset.sum_ite_eq' Finset.univ k', if_pos (Finset.mem_univ _),
        add_assoc]
      congr 1
      rcases lt_trichotomy i k' with h | h | h
      · rw [if_neg (by omega), if_neg (by omega), hlow i k' h]; ring
      · subst h
        rw [if_neg (by omega), if_pos le_rfl]
        linear_combination rowMajor n w s.2 i c * hr
      · rw [if_pos (by omega), if_pos (by omega), q1, if_neg (by omega), if_neg (by omega)]; ring
  funext i c
  rw [Matrix.mul_apply, ← (key n le_rfl).2 i c, if_neg (by omega), add_zero]
  refine Finset.sum_congr rfl fun x _ => ?_
  rw [if_pos x.2]

omit [LinearOrder K] [IsStrictOrderedRing K] in
private theorem backward {w : ℕ} {u : ℕ → K} {y : ℕ → K} (hone : ∀ i, rowMajor n n u i i = 1)
    (hup : ∀ i j, j < i → rowMajor n n u i j = 0) :
    rowMajor n n u * rowMajor n w (loop (fun i s => solveUStep n w (n - 2 - i) s) (n - 1) (u, y)).2 = rowMajor n w y := by
  have key : ∀ k ≤ n - 1, (∀ i c : Fin n, c.val < n - k →
        rowMajor n n (loop (fun i s => solveUStep n w (n - 2 - i) s) k (u, y)).1 i c = rowMajor n n u i c) ∧
      ∀ (i : Fin n) (c : Fin w), (∑ x : Fin n, if n - k ≤ x.val ∧ i < x then
          rowMajor n n u i x * rowMajor n w (loop (fun i s => solveUStep n w (n - 2 - i) s) k (u, y)).2 x c else 0) +
        rowMajor n w (loop (fun i s => solveUStep n w (n - 2 - i) s) k (u, y)).2 i c = rowMajor n w y i c := by
    intro k hk
    induction k with
    | zero =>
      refine ⟨fun i c _ => rfl, fun i c => ?_⟩
      rw [Finset.sum_eq_zero, zero_add, loop]
      intro x _
      rw [if_neg (by omega)]
    | succ k ih =>
      obtain ⟨ih1, ih2⟩ := ih (by omega)
      rw [loop]
      generalize loop (fun i s => solveUStep n w (n - 2 - i) s) k (u, y) = s at ih1 ih2 ⊢
      obtain ⟨g1, g2⟩ := solveUStep_at (w := w) (show n - 2 - k + 1 < n by omega) s
      obtain ⟨t, ht⟩ : ∃ t : Fin n, t.val = n - 2 - k + 1 := ⟨⟨n - 2 - k + 1, by omega⟩, rfl⟩
      rw [← ht] at g1 g2
      have q1 : ∀ (i : Fin n) (c : Fin w), rowMajor n w (solveUStep n w (n - 2 - k) s).2 i c =
          if i < t then rowMajor n w s.2 i c + rowMajor n w s.2 t c * -(rowMajor n n u i t) else rowMajor n w s.2 i c := by
        intro i c
        rw [← ih1 i t (by omega)]
        refine (g1 i.2 c.2).trans ?_
        simp only [rowMajor, Fin.lt_def]
      refine ⟨fun i c hc => (g2 c.2 (by omega)).trans (ih1 i c (by omega)), fun i c => ?_⟩
      rw [← ih2 i c]
      have hsum : ∀ x : Fin n, (if n - (k + 1) ≤ x.val ∧ i < x then
          rowMajor n n u i x * rowMajor n w (solveUStep n w (n - 2 - k) s).2 x c else 0) =
          (if n - k ≤ x.val ∧ i < x then rowMajor n n u i x * rowMajor n w s.2 x c else 0) +
            if x = t then (if i < t then rowMajor n n u i t * rowMajor n w s.2 t c else 0) else 0 := by
        intro x
        by_cases hxt : x = t
        · subst hxt
          rw [if_pos rfl, if_neg (c := n - k ≤ x.val ∧ i < x) (by omega), zero_add, q1, if_neg (lt_irrefl _)]
          congr 1
          exact propext (by omega)
        · rw [if_neg hxt, add_zero]
          by_cases hx : n - k ≤ x.val ∧ i < x
          · rw [if_pos (by omega), if_pos hx, q1, if_neg (by omega)]
          · rw [if_neg (by omega), if_neg hx]
      rw [Finset.sum_congr rfl fun x _ => hsum x, Finset.sum_add_distrib, Finset.sum_ite_eq' Finset.univ t, if_pos (Finset.mem_univ _),
        add_assoc, q1]
      congr 1
      by_cases hit : i < t
      · rw [if_pos hit, if_pos hit]; ring
      · rw [if_neg hit, if_neg hit, zero_add]
  funext i c
  rw [Matrix.mul_apply, ← (key (n - 1) le_rfl).2 i c]
  generalize rowMajor n w (loop (fun i s => solveUStep n w (n - 2 - i) s) (n - 1) (u, y)).2 = X
  have hterm : ∀ x : Fin n, rowMajor n n u i x * X x c =
      (if n - (n - 1) ≤ x.val ∧ i < x then rowMajor n n u i x * X x c else 0) + if x = i then X i c else 0 := by
    intro x
    rcases lt_trichotomy x i with h | h | h
    · rw [hup i x h, if_neg (by omega), if_neg (by omega)]; ring
    · subst h; rw [hone, if_neg (by omega), if_pos rfl]; ring
    · rw [if_pos (by omega), if_neg (by omega), add_zero]
  rw [Finset.sum_congr rfl fun x _ => hterm x, Finset.sum_add_distrib, Finset.sum_ite_eq' Finset.univ i, if_pos (Finset.mem_univ _)]

omit [LinearOrder K] [IsStrictOrderedRing K] in
/-- **C134.**  `solve(l, u, xb)` solves `l * u * x = b`, for triangular `l` and `u` as `decompose` gives them, and for any number
of right hand sides. -/
theorem C134_factors {recip : K → K} (hrec : ∀ x, x ≠ 0 → recip x * x = 1) {w : ℕ} (l u : Mat K n n) (b : Mat K n w)
    (hlow : ∀ i j, i < j → rowMajor n n l.element i j = 0) (hdiag : ∀ i, rowMajor n n l.element i i ≠ 0)
    (hone : ∀ i, rowMajor n n u.element i i = 1) (hup : ∀ i j, j < i → rowMajor n n u.element i j = 0) :
    ∃ x, solveLu recip n w l u b = (true, x) ∧
      rowMajor n n l.element * rowMajor n n u.element * rowMajor n w x.element = rowMajor n w b.element := by
  refine ⟨_, rfl, ?_⟩
  dsimp only
  rw [Matrix.mul_assoc, backward hone hup, forward hrec hlow hdiag]

/-- **C134.**  `solve(A, xb)` solves `A * x = b`, if `A` is regular. -/
theorem C134_solve_partial {recip : K → K} (hrec : ∀ x, x ≠ 0 → recip x * x = 1) {w : ℕ} (hn : n ≤ 128) (hn0 : 0 < n) (junkp : ℕ → ℤ)
    (junk : ℕ → K) (A : Mat K n n) (b : Mat K n w) (hdet : (rowMajor n n A.element).det ≠ 0) :
    ∃ x, solve recip n w junkp junk A b = (true, x) ∧
      rowMajor n n A.element * rowMajor n w x.element = rowMajor n w b.element := by
  obtain ⟨l, u, p, h0, h1, h2, h3, ⟨τ, h4⟩, h5⟩ := C133_matrix hrec hn junkp A
  obtain ⟨h6, h7⟩ := h5 hdet
  obtain ⟨x, h8, h9⟩ := C134_factors hrec l u (p.mul junk b) h1 h6 h2 h3
  refine ⟨x, ?_, ?_⟩
  · unfold solve
    rw [h0]
    dsimp only
    rw [h8]
    rfl
  · rw [Props.Matrix.C130_product hn0, ← h7, h4, permutation_mul, permutation_mul] at h9
    have : (rowMajor n n A.element * rowMajor n w x.element).submatrix τ id = (rowMajor n w b.element).submatrix τ id := by
      rw [← h9]
      rfl
    funext i c
    have := congrFun (congrFun this (τ.symm i)) c
    simpa using this

end pivot

/-! ## Examples and counterexamples -/

private def demo : Mat ℚ 3 3 := ⟨fun k => [2, 1, 1, 4, 3, 3, 8, 7, 9].getD k 0⟩

private def demoSwap : Mat ℚ 2 2 := ⟨fun k => [0, 1, 1, 0].getD k 0⟩

private def demoOnes : Mat ℚ 2 2 := ⟨fun _ => 1⟩

private def demoB : Mat ℚ 2 1 := ⟨fun k => [1, 2].getD k 0⟩

private theorem recip_rat : ∀ x : ℚ, x ≠ 0 → x⁻¹ * x = 1 := fun _ hx => inv_mul_cancel₀ hx

example : (rowMajor 3 3 demo.element).det = 4 := by
  rw [Matrix.det_fin_three]
  decide +kernel

example : ((decomposePivot (fun x => x⁻¹) 3 (fun _ => 77) demo).2.1.at 0 0, (decomposePivot (fun x => x⁻¹) 3 (fun _ => 77) demo).2.2.2 0) = (8, 2) := by
  decide +kernel

example : ((solve (fun x => x⁻¹) 3 1 (fun _ => 77) (fun _ => 78) demo ⟨fun k => [4, 10, 24].getD k 0⟩).2.at 0 0,
    (solve (fun x => x⁻¹) 3 1 (fun _ => 77) (fun _ => 78) demo ⟨fun k => [4, 10, 24].getD k 0⟩).2.at 1 0,
    (solve (fun x => x⁻¹) 3 1 (fun _ => 77) (fun _ => 78) demo ⟨fun k => [4, 10, 24].getD k 0⟩).2.at 2 0) = (1, 1, 1) := by
  decide +kernel

/-- **C133.**  Without pivoting, the factors of a regular matrix may be wrong, whatever `1 / 0` is; `true` is returned. -/
theorem C133_plain_counterexample (recip : ℚ → ℚ) : (rowMajor 2 2 demoSwap.element).det ≠ 0 ∧
    (decompose recip 2 demoSwap).1 = true ∧
    rowMajor 2 2 (decompose recip 2 demoSwap).2.1.element * rowMajor 2 2 (decompose recip 2 demoSwap).2.2.element ≠ rowMajor 2 2 demoSwap.element := by
  refine ⟨?_, rfl, fun h => ?_⟩
  · rw [Matrix.det_fin_two]
    decide +kernel
  · have h01 := congrFun (congrFun h 0) 1
    rw [Matrix.mul_apply, Fin.sum_univ_two] at h01
    have e0 : rowMajor 2 2 (decompose recip 2 demoSwap).2.1.element 0 0 = 0 := by
      have : ∀ r : ℚ → ℚ, (decompose r 2 demoSwap).2.1.element 0 = 0 := fun r => rfl
      exact this recip
    have e1 : rowMajor 2 2 (decompose recip 2 demoSwap).2.1.element 0 1 = 0 := by
      have : ∀ r : ℚ → ℚ, (decompose r 2 demoSwap).2.1.element 1 = 0 := fun r => rfl
      exact this recip
    rw [e0, e1, zero_mul, zero_mul, add_zero] at h01
    have e2 : rowMajor 2 2 demoSwap.element 0 1 = 1 := rfl
    rw [e2] at h01
    exact zero_ne_one h01

/-- **C134.**  A singular matrix is not reported: `true` is returned, although there is no solution. -/
theorem C134_counterexample (recip : ℚ → ℚ) (junkp : ℕ → ℤ) (junk : ℕ → ℚ) :
    (solve recip 2 1 junkp junk demoOnes demoB).1 = true ∧
    ¬ ∃ X : Matrix (Fin 2) (Fin 1) ℚ, rowMajor 2 2 demoOnes.element * X = rowMajor 2 1 demoB.element := by
  refine ⟨rfl, ?_⟩
  rintro ⟨X, hX⟩
  have h0 := congrFun (congrFun hX 0) 0
  have h1 := congrFun (congrFun hX 1) 0
  rw [Matrix.mul_apply, Fin.sum_univ_two] at h0 h1
  have e : ∀ i j, rowMajor 2 2 demoOnes.element i j = 1 := fun _ _ => rfl
  have b0 : rowMajor 2 1 demoB.element 0 0 = 1 := rfl
  have b1 : rowMajor 2 1 demoB.element 1 0 = 2 := rfl
  rw [e, e, b0] at h0
  rw [e, e, b1] at h1
  linarith

end Props.Lu
