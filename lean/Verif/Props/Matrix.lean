import Verif.Lemmas.Matrix
import Verif.Spec.Matrix
import Mathlib.LinearAlgebra.Matrix.Determinant.Basic
import Mathlib.Data.BitVec

set_option autoImplicit false

/-!
# C130–C132: matrices
-/

namespace Props.Matrix

open Modm.Matrix Modm.Spec.Matrix

variable {T : Type} {r c : ℕ}

private theorem noe (h : r * c < 256) : numberOfElements r c = r * c := Nat.mod_eq_of_lt h

/-- A matrix of `BitVec 16`, as `Matrix<uint16_t, 2, 3>`. -/
private def demo : Mat (BitVec 16) 2 3 := ⟨fun k => 3 * k + 1⟩

private def demo3 : Mat (BitVec 16) 3 3 := ⟨fun k => k * k + 1⟩

/-! ## Arithmetic -/

private theorem elementwise {f : T → T → T} {junk a b : ℕ → T} (h : r * c < 256) :
    rowMajor r c (loop (fun i e => store e i (f (a i) (b i))) (numberOfElements r c) junk) =
      fun i j => f (rowMajor r c a i j) (rowMajor r c b i j) := by
  funext i j
  rw [rowMajor, loop_store (fun i _ => f (a i) (b i)), noe h, if_pos (place_lt i.2 j.2)]
  rfl

private theorem elementwise' {f : T → T → T} {a b : ℕ → T} (h : r * c < 256) :
    rowMajor r c (loop (fun i e => store e i (f (e i) (b i))) (numberOfElements r c) a) =
      fun i j => f (rowMajor r c a i j) (rowMajor r c b i j) := by
  funext i j
  rw [rowMajor, loop_store (fun i x => f x (b i)), noe h, if_pos (place_lt i.2 j.2)]
  rfl

/-- **C130.**  Sum, difference, negative and multiples of matrices. -/
theorem C130_arithmetic [CommRing T] (h : r * c < 256) (junk : ℕ → T) (a b : Mat T r c) (x : T) :
    rowMajor r c (a.add junk b).element = rowMajor r c a.element + rowMajor r c b.element ∧
    rowMajor r c (a.sub junk b).element = rowMajor r c a.element - rowMajor r c b.element ∧
    rowMajor r c (a.neg junk).element = -rowMajor r c a.element ∧
    rowMajor r c (a.smul junk x).element = x • rowMajor r c a.element ∧
    rowMajor r c (a.addAssign b).element = rowMajor r c a.element + rowMajor r c b.element ∧
    rowMajor r c (a.subAssign b).element = rowMajor r c a.element - rowMajor r c b.element ∧
    rowMajor r c (a.smulAssign x).element = x • rowMajor r c a.element := by
  refine ⟨elementwise h, elementwise h, elementwise (f := fun a _ => -a) (b := b.element) h, ?_, elementwise' h, elementwise' h, ?_⟩
  · rw [Mat.smul, elementwise (f := fun a _ => a * x) (b := b.element) h]
    funext i j
    simp [mul_comm]
  · rw [Mat.smulAssign, elementwise' (f := fun a _ => a * x) (b := b.element) h]
    funext i j
    simp [mul_comm]

example : (demo.add (fun _ => 0xdead) demo).at 1 2 = 32 ∧ (demo.smul (fun _ => 0xdead) 5000).at 1 2 = 14464 := by decide +kernel

private theorem loop_accumulate [AddCommMonoid T] (f : ℕ → T) (n k : ℕ) (e : ℕ → T) (v : T) :
    loop (fun x e => store e k (e k + f x)) n (store e k v) = store e k (v + ∑ x ∈ Finset.range n, f x) := by
  induction n with
  | zero => simp [loop]
  | succ n ih =>
    rw [loop, ih, store_same, Finset.sum_range_succ, add_assoc]
    funext i
    by_cases hi : i = k
    · rw [hi, store_same, store_same]
    · rw [store_other _ _ hi, store_other _ _ hi, store_other _ _ hi]

/-- **C130.**  The product of matrices. -/
theorem C130_product [CommRing T] {w : ℕ} (hc : 0 < c) (junk : ℕ → T) (a : Mat T r c) (b : Mat T c w) :
    rowMajor r w (a.mul junk b).element = rowMajor r c a.element * rowMajor c w b.element := by
  funext i j
  rw [rowMajor, Mat.mul]
  simp only [loop_accumulate]
  have := loop_store2 (fun i j => a.element (i * c) * b.at 0 j + ∑ x ∈ Finset.range (c - 1), a.element (i * c + (x + 1)) * b.at (x + 1) j)
    (w := w) (r := r) (c := w) (i0 := 0) (j0 := 0) (Or.inr (by omega)) junk (i := i) (j := j) j.2
  simp only [Nat.add_zero] at this
  rw [this, if_pos ⟨by omega, by omega, by omega, by omega⟩, Matrix.mul_apply]
  obtain ⟨c, rfl⟩ : ∃ c', c = c' + 1 := ⟨c - 1, by omega⟩
  rw [Fin.sum_univ_succ, Nat.add_sub_cancel, ← Fin.sum_univ_eq_sum_range (fun x => a.element ((i - 0 : ℕ) * (c + 1) + (x + 1)) * b.at (x + 1) (j - 0))]
  simp [rowMajor, Mat.at]

example : (demo.mul (fun _ => 0xdead) (demo.asTransposed fun _ => 0xbeef)).element 1 = 174 := by decide +kernel

/-- **C130.**  Transposition. -/
theorem C130_transpose (junk : ℕ → T) (a : Mat T r c) :
    rowMajor c r (a.asTransposed junk).element = (rowMajor r c a.element).transpose := by
  funext i j
  have key : ∀ n ≤ r, ∀ e : ℕ → T, loop (fun i e => loop (fun j e => store e (j * r + i) (a.element (i * c + j))) c e) n e (i * r + j) =
      if (j : ℕ) < n then a.element (j * c + i) else e (i * r + j) := by
    intro n hn e
    have inner : ∀ (x : ℕ) (hx : x < r) (m : ℕ) (e : ℕ → T), loop (fun j e => store e (j * r + x) (a.element (x * c + j))) m e (i * r + j) =
        if (j : ℕ) = x ∧ (i : ℕ) < m then a.element (x * c + i) else e (i * r + j) := by
      intro x hx m e
      induction m with
      | zero => rw [loop, if_neg (by omega)]
      | succ m ih =>
        rw [loop]
        by_cases hh : (i : ℕ) = m ∧ (j : ℕ) = x
        · rw [hh.1, hh.2, store_same, if_pos ⟨rfl, by omega⟩]
        · rw [store_other _ _ (by rw [Ne, place_inj j.2 hx]; exact hh), ih]
          congr 1
          exact propext (by omega)
    induction n with
    | zero => rw [loop, if_neg (by omega)]
    | succ n ih =>
      rw [loop, inner n (by omega), ih (by omega)]
      by_cases hj : (j : ℕ) = n
      · rw [if_pos ⟨hj, i.2⟩, if_pos (by omega), hj]
      · rw [if_neg (fun h => hj h.1)]
        congr 1
        exact propext (by omega)
  rw [rowMajor, Mat.asTransposed]
  exact (key r le_rfl junk).trans (if_pos j.2)

example : (demo.asTransposed fun _ => 0xdead).at 2 1 = demo.at 1 2 ∧ demo.at 1 2 = 16 := by decide +kernel

private theorem loop_diagonal [Zero T] [One T] (n : ℕ) (hr : n ≤ c) (e : ℕ → T) (i : ℕ) (j : Fin c) :
    loop (fun i e => store e (i * c + i) 1) n e (i * c + j) = if i = j ∧ i < n then 1 else e (i * c + j) := by
  induction n with
  | zero => rw [loop, if_neg (by omega)]
  | succ n ih =>
    rw [loop]
    by_cases hh : i = n ∧ (j : ℕ) = n
    · rw [hh.1, hh.2, store_same, if_pos ⟨rfl, by omega⟩]
    · rw [store_other _ _ (by rw [Ne, place_inj j.2 (by omega)]; exact hh), ih (by omega)]
      congr 1
      exact propext (by omega)

/-- **C130.**  The zero matrix and the identity; the latter has ones on its diagonal, also if it is not square. -/
theorem C130_constants [CommRing T] : rowMajor r c (zeroMatrix : Mat T r c).element = 0 ∧
    rowMajor r r (identityMatrix : Mat T r r).element = 1 ∧
    ∀ (i : Fin r) (j : Fin c), rowMajor r c (identityMatrix : Mat T r c).element i j = if (i : ℕ) = j then 1 else 0 := by
  have key : ∀ {r c : ℕ} (i : Fin r) (j : Fin c), rowMajor r c (identityMatrix : Mat T r c).element i j = if (i : ℕ) = j then 1 else 0 := by
    intro r c i j
    rw [rowMajor, identityMatrix]
    split
    · dsimp only
      rw [loop_diagonal r (by omega)]
      have := i.2
      by_cases h : (i : ℕ) = j
      · rw [if_pos ⟨h, i.2⟩, if_pos h]
      · rw [if_neg (fun h' => h h'.1), if_neg h]; rfl
    · dsimp only
      rw [loop_diagonal c le_rfl]
      have := j.2
      by_cases h : (i : ℕ) = j
      · rw [if_pos ⟨h, by omega⟩, if_pos h]
      · rw [if_neg (fun h' => h h'.1), if_neg h]; rfl
  refine ⟨rfl, ?_, key⟩
  funext i j
  rw [key, Matrix.one_apply]
  simp [Fin.ext_iff]

/-- **C130.**  Comparison. -/
theorem C130_equal [DecidableEq T] (h : r * c < 256) (a b : Mat T r c) :
    (a.eq b = true ↔ rowMajor r c a.element = rowMajor r c b.element) ∧
    (a.ne b = true ↔ rowMajor r c a.element ≠ rowMajor r c b.element) := by
  have key : (∀ i < r * c, a.element i = b.element i) ↔ rowMajor r c a.element = rowMajor r c b.element := by
    refine ⟨fun hh => ?_, fun hh i hi => ?_⟩
    · funext i j
      exact hh _ (place_lt i.2 j.2)
    · have hc : 0 < c := Nat.pos_of_ne_zero (by rintro rfl; simp at hi)
      have := congrFun (congrFun hh ⟨i / c, Nat.div_lt_of_lt_mul (by rwa [mul_comm] at hi)⟩) ⟨i % c, Nat.mod_lt _ hc⟩
      simp only [rowMajor, Nat.div_add_mod'] at this
      exact this
  refine ⟨?_, ?_⟩
  · rw [Mat.eq, noe h, List.all_eq_true]
    simpa using key
  · rw [Mat.ne, noe h, List.any_eq_true, Ne, ← key]
    simp

example : demo.eq ⟨fun k => if k < 6 then 3 * k + 1 else 0⟩ = true ∧ demo.eq ⟨fun _ => 1⟩ = false := by decide +kernel

/-- **C130.**  With 256 elements or more the number of elements is cut to 8 bits: all matrices of 16 rows and columns are
equal, and a sum has arbitrary contents. -/
theorem C130_size_counterexample :
    (zeroMatrix : Mat (BitVec 16) 16 16).eq identityMatrix = true ∧
    ((zeroMatrix : Mat (BitVec 16) 16 16).add (fun _ => 0xdead) zeroMatrix).at 0 0 = 0xdead := by
  decide +kernel

/-! ## Parts -/

private theorem loop_reads {rd : ℕ → Option T} {g : ℕ → T} {k : ℕ → ℕ} {n : ℕ} (h : ∀ j < n, rd j = some (g j)) (e : ℕ → T) :
    loop (fun j s => Option.bind s fun e => (rd j).bind fun v => some (store e (k j) v)) n (some e) =
      some (loop (fun j e => store e (k j) (g j)) n e) := by
  induction n with
  | zero => rfl
  | succ n ih => rw [loop, ih fun j hj => h j (by omega), loop]; simp [h n (by omega)]

private theorem subMatrix_eq {mr mc row column : ℕ} (hr : r ≤ 255) (h1 : mc = 0 ∨ row + mr ≤ r) (h2 : column + mc ≤ c)
    (junk : ℕ → T) (a : Mat T r c) :
    a.subMatrix mr mc junk row column =
      some ⟨loop (fun i e => loop (fun j e => store e (i * mc + j) (a.at (i + row) (j + column))) mc e) mr junk⟩ := by
  rw [Mat.subMatrix]
  have key : ∀ n ≤ mr, loop (fun i s => loop (fun j s => Option.bind s fun e =>
      (a.read ((i + row) % 256 * c + (j + column))).bind fun v => some (store e (i * mc + j) v)) mc s) n (some junk) =
      some (loop (fun i e => loop (fun j e => store e (i * mc + j) (a.at (i + row) (j + column))) mc e) n junk) := by
    intro n hn
    induction n with
    | zero => rfl
    | succ n ih =>
      rw [loop, ih (by omega), loop]
      refine loop_reads (rd := fun j => a.read ((n + row) % 256 * c + (j + column))) (k := fun j => n * mc + j) (fun j hj => ?_) _
      have hrow : n + row < r := by omega
      rw [Mat.read, Nat.mod_eq_of_lt (by omega), if_pos (place_lt hrow (by omega))]
      rfl
  rw [key mr le_rfl]
  rfl

/-- **C131.**  `subMatrix` gives the part of the matrix, if it is inside. -/
theorem C131_subMatrix {mr mc row column : ℕ} (hr : r ≤ 255) (h1 : row + mr ≤ r) (h2 : column + mc ≤ c) (junk : ℕ → T) (a : Mat T r c) :
    ∃ m : Mat T mr mc, a.subMatrix mr mc junk row column = some m ∧
      ∀ i j, rowMajor mr mc m.element i j = rowMajor r c a.element ⟨row + i, by omega⟩ ⟨column + j, by omega⟩ := by
  refine ⟨_, subMatrix_eq hr (Or.inr h1) h2 junk a, fun i j => ?_⟩
  have := loop_store2 (fun i j => a.at (i + row) (j + column))
    (w := mc) (r := mr) (c := mc) (i0 := 0) (j0 := 0) (Or.inr (by omega)) junk (i := i) (j := j) j.2
  simp only [Nat.add_zero] at this
  refine Eq.trans this ?_
  rw [if_pos ⟨by omega, by omega, by omega, by omega⟩]
  simp [rowMajor, Mat.at, Nat.add_comm]

example : (demo3.subMatrix 2 2 (fun _ => 0xdead) 1 1).map (fun m => m.at 1 0) = some (demo3.at 2 1) ∧ demo3.at 2 1 = 50 := by decide +kernel

/-- **C131.**  A part which goes beyond the last row reads outside of the array. -/
theorem C131_outside {mr mc row column : ℕ} (hr : mr + row ≤ 256) (h1 : r < row + mr) (hmr : 0 < mr) (hmc : 0 < mc)
    (junk : ℕ → T) (a : Mat T r c) : a.subMatrix mr mc junk row column = none := by
  rw [Mat.subMatrix, Option.map_eq_none_iff]
  obtain ⟨mr, rfl⟩ : ∃ n, mr = n + 1 := ⟨mr - 1, by omega⟩
  obtain ⟨mc, rfl⟩ : ∃ n, mc = n + 1 := ⟨mc - 1, by omega⟩
  rw [loop, loop]
  have : a.read ((mr + row) % 256 * c + (mc + column)) = none := by
    rw [Mat.read, Nat.mod_eq_of_lt (by omega), if_neg]
    have := Nat.mul_le_mul_right c (show r ≤ mr + row by omega)
    omega
  simp [this]

example : demo3.subMatrix 2 2 (fun _ => 0xdead) 2 1 = none := C131_outside (by decide) (by decide) (by decide) (by decide) _ _

private theorem getRow_eq (hr : r ≤ 255) {index : ℕ} (hi : index < r) (junk : ℕ → T) (a : Mat T r c) :
    ∃ m, a.getRow junk index = some m ∧ ∀ j < c, m.at 0 j = a.at index j := by
  refine ⟨_, subMatrix_eq hr (Or.inr (by omega)) (by omega) junk a, fun j hj => ?_⟩
  have := loop_store2 (fun i j => a.at (i + index) (j + 0))
    (w := c) (r := 1) (c := c) (i0 := 0) (j0 := 0) (Or.inr (by omega)) junk (i := 0) (j := j) hj
  simp only [Nat.add_zero] at this
  simp only [Mat.at, Nat.add_zero] at this ⊢
  rw [this, if_pos ⟨by omega, by omega, by omega, by omega⟩]
  simp

private theorem getColumn_eq (hr : r ≤ 255) {index : ℕ} (hi : index < c) (junk : ℕ → T) (a : Mat T r c) :
    ∃ m, a.getColumn junk index = some m ∧ ∀ i < r, m.at i 0 = a.at i index := by
  refine ⟨_, subMatrix_eq hr (Or.inr (by omega)) (by omega) junk a, fun i hi => ?_⟩
  have := loop_store2 (fun i j => a.at (i + 0) (j + index))
    (w := 1) (r := r) (c := 1) (i0 := 0) (j0 := 0) (Or.inr (by omega)) junk (i := i) (j := 0) (by omega)
  simp only [Nat.add_zero] at this
  simp only [Mat.at, Nat.add_zero] at this ⊢
  rw [this, if_pos ⟨by omega, by omega, by omega, by omega⟩]
  simp

/-- **C131.**  Rows and columns. -/
theorem C131_row (hr : r ≤ 255) (junk : ℕ → T) (a : Mat T r c) (i : Fin r) :
    ∃ m, a.getRow junk i = some m ∧ rowMajor 1 c m.element = fun _ j => rowMajor r c a.element i j := by
  obtain ⟨m, h1, h2⟩ := getRow_eq hr i.2 junk a
  refine ⟨m, h1, funext fun k => funext fun j => ?_⟩
  have := h2 j j.2
  simpa [rowMajor, Mat.at, Fin.fin_one_eq_zero] using this

theorem C131_column (hr : r ≤ 255) (junk : ℕ → T) (a : Mat T r c) (j : Fin c) :
    ∃ m, a.getColumn junk j = some m ∧ rowMajor r 1 m.element = fun i _ => rowMajor r c a.element i j := by
  obtain ⟨m, h1, h2⟩ := getColumn_eq hr j.2 junk a
  refine ⟨m, h1, funext fun i => funext fun k => ?_⟩
  have := h2 i i.2
  simpa [rowMajor, Mat.at, Fin.fin_one_eq_zero] using this

example : ((demo.getRow (fun _ => 0) 1).map fun m => m.at 0 2) = some 16 ∧ ((demo.getColumn (fun _ => 0) 2).map fun m => m.at 1 0) = some 16 := by
  decide +kernel

private theorem replace_at {mr mc : ℕ} (a : Mat T r c) (row column : ℕ) (m : Mat T mr mc) {i j : ℕ} (hj : j < c) :
    (a.replace row column m).at i j =
      if row ≤ i ∧ i < row + mr ∧ i < r ∧ column ≤ j ∧ j < column + mc then m.at (i - row) (j - column) else a.at i j := by
  rw [Mat.at, Mat.replace]
  dsimp only
  rw [loop_store2 (fun i j => m.at i j) (i0 := row) (j0 := column) (by omega) a.element hj]
  by_cases h : row ≤ i ∧ i < row + mr ∧ i < r ∧ column ≤ j ∧ j < column + mc
  · rw [if_pos h, if_pos (by omega)]
  · rw [if_neg h, if_neg (by omega)]; rfl

/-- **C131.**  `replace` writes the part of the other matrix which is inside, and changes nothing else. -/
theorem C131_replace {mr mc : ℕ} (a : Mat T r c) (row column : ℕ) (m : Mat T mr mc) (i : Fin r) (j : Fin c) :
    (∀ (i' : Fin mr) (j' : Fin mc), (i : ℕ) = row + i' → (j : ℕ) = column + j' →
      rowMajor r c (a.replace row column m).element i j = rowMajor mr mc m.element i' j') ∧
    ((¬ ∃ (i' : Fin mr) (j' : Fin mc), (i : ℕ) = row + i' ∧ (j : ℕ) = column + j') →
      rowMajor r c (a.replace row column m).element i j = rowMajor r c a.element i j) := by
  have h := replace_at a row column m (i := i) j.2
  refine ⟨fun i' j' hi hj => ?_, fun hn => ?_⟩
  · rw [if_pos (by omega), show (i : ℕ) - row = i' by omega, show (j : ℕ) - column = j' by omega] at h
    exact h
  · rw [if_neg] at h
    · exact h
    · rintro ⟨h1, h2, h3, h4, h5⟩
      exact hn ⟨⟨i - row, by omega⟩, ⟨j - column, by omega⟩, by dsimp only; omega, by dsimp only; omega⟩

example : (demo3.replace 2 1 demo).at 2 1 = demo.at 0 0 ∧ (demo3.replace 2 1 demo).at 1 1 = demo3.at 1 1 ∧
    demo.at 0 0 ≠ demo3.at 2 1 := by decide +kernel

private theorem replaceRow_at (a : Mat T r c) {index : ℕ} (m : Mat T 1 c) {i j : ℕ} (hi : i < r) (hj : j < c) :
    (a.replaceRow index m).at i j = if i = index then m.at 0 j else a.at i j := by
  rw [Mat.replaceRow, replace_at _ _ _ _ hj]
  by_cases h : i = index
  · subst h
    rw [if_pos (by omega), if_pos rfl, Nat.sub_self, Nat.sub_zero]
  · rw [if_neg (by omega), if_neg h]

private theorem replaceColumn_at (a : Mat T r c) {index : ℕ} (m : Mat T r 1) {i j : ℕ} (hi : i < r) (hj : j < c) :
    (a.replaceColumn index m).at i j = if j = index then m.at i 0 else a.at i j := by
  rw [Mat.replaceColumn, replace_at _ _ _ _ hj]
  by_cases h : j = index
  · subst h
    rw [if_pos (by omega), if_pos rfl, Nat.sub_self, Nat.sub_zero]
  · rw [if_neg (by omega), if_neg h]

private theorem copyRows_eq {r' : ℕ} (hr : r ≤ 255) (junk : ℕ → T) (a : Mat T r c) {i ri n : ℕ} (hn : i + n ≤ r) (m : Mat T r' c) :
    ∃ m', copyRows junk a i ri n (some m) = some m' ∧ ∀ x < r', ∀ j < c,
      m'.at x j = if ri ≤ x ∧ x < ri + n then a.at (i + (x - ri)) j else m.at x j := by
  induction n with
  | zero => exact ⟨m, rfl, fun x _ j _ => by rw [if_neg (by omega)]⟩
  | succ n ih =>
    obtain ⟨m', h1, h2⟩ := ih (by omega)
    obtain ⟨row, h3, h4⟩ := getRow_eq hr (show i + n < r by omega) junk a
    refine ⟨m'.replaceRow (ri + n) row, ?_, fun x hx j hj => ?_⟩
    · rw [copyRows, loop, ← copyRows, h1]
      simp [h3]
    · rw [replaceRow_at _ _ hx hj, h4 j hj, h2 x hx j hj]
      by_cases hxn : x = ri + n
      · rw [if_pos hxn, if_pos (by omega), show x - ri = n by omega]
      · rw [if_neg hxn]
        congr 1
        exact propext (by omega)

private theorem copyColumns_eq {c' : ℕ} (hr : r ≤ 255) (junk : ℕ → T) (a : Mat T r c) {i ri n : ℕ} (hn : i + n ≤ c) (m : Mat T r c') :
    ∃ m', copyColumns junk a i ri n (some m) = some m' ∧ ∀ x < r, ∀ j < c',
      m'.at x j = if ri ≤ j ∧ j < ri + n then a.at x (i + (j - ri)) else m.at x j := by
  induction n with
  | zero => exact ⟨m, rfl, fun x _ j _ => by rw [if_neg (by omega)]⟩
  | succ n ih =>
    obtain ⟨m', h1, h2⟩ := ih (by omega)
    obtain ⟨row, h3, h4⟩ := getColumn_eq hr (show i + n < c by omega) junk a
    refine ⟨m'.replaceColumn (ri + n) row, ?_, fun x hx j hj => ?_⟩
    · rw [copyColumns, loop, ← copyColumns, h1]
      simp [h3]
    · rw [replaceColumn_at _ _ hx hj, h4 x hx, h2 x hx j hj]
      by_cases hxn : j = ri + n
      · rw [if_pos hxn, if_pos (by omega), show j - ri = n by omega]
      · rw [if_neg hxn]
        congr 1
        exact propext (by omega)

/-- **C131.**  `removeRow` leaves out the row. -/
theorem C131_removeRow (hr : r + 1 ≤ 255) (junk : ℕ → T) (a : Mat T (r + 1) c) (index : Fin (r + 1)) :
    ∃ m, a.removeRow junk index = some m ∧ rowMajor r c m.element = (rowMajor (r + 1) c a.element).submatrix index.succAbove id := by
  have above : ∀ i : Fin r, (index.succAbove i : ℕ) = if (i : ℕ) < index then (i : ℕ) else i + 1 := by
    intro i
    rw [Fin.succAbove]
    simp only [Fin.lt_def, Fin.val_castSucc]
    split <;> rfl
  rw [Mat.removeRow]
  by_cases h0 : (index : ℕ) = 0
  · rw [if_pos h0]
    obtain ⟨m, h1, h2⟩ := C131_subMatrix (mr := r) (mc := c) (row := 1) (column := 0) hr (by omega) (by omega) junk a
    refine ⟨m, h1, funext fun i => funext fun j => ?_⟩
    rw [h2, Matrix.submatrix_apply]
    congr 1
    · ext; rw [above, if_neg (by omega)]; dsimp only; omega
    · ext; simp
  · rw [if_neg h0]
    by_cases hl : (index : ℕ) = r
    · rw [if_pos hl]
      obtain ⟨m, h1, h2⟩ := C131_subMatrix (mr := r) (mc := c) (row := 0) (column := 0) hr (by omega) (by omega) junk a
      refine ⟨m, h1, funext fun i => funext fun j => ?_⟩
      rw [h2, Matrix.submatrix_apply]
      congr 1
      · ext; rw [above, if_pos (by omega)]; dsimp only; omega
      · ext; simp
    · rw [if_neg hl]
      obtain ⟨m1, h1, h2⟩ := copyRows_eq hr junk a (i := 0) (ri := 0) (n := index) (by omega) (⟨junk⟩ : Mat T r c)
      obtain ⟨m2, h3, h4⟩ := copyRows_eq hr junk a (i := index + 1) (ri := index) (n := r + 1 - (index + 1)) (by omega) m1
      refine ⟨m2, by rw [h1, h3], funext fun i => funext fun j => ?_⟩
      have := h4 i i.2 j j.2
      rw [h2 i i.2 j j.2] at this
      refine Eq.trans this ?_
      rw [Matrix.submatrix_apply, rowMajor, above]
      by_cases hi : (i : ℕ) < index
      · rw [if_neg (by omega), if_pos (by omega), if_pos hi]
        simp [Mat.at]
      · rw [if_pos (by omega), if_neg hi, show (index : ℕ) + 1 + (i - index) = i + 1 by omega]
        simp [Mat.at]

/-- **C131.**  `removeColumn` leaves out the column. -/
theorem C131_removeColumn (hr : r ≤ 255) (junk : ℕ → T) (a : Mat T r (c + 1)) (index : Fin (c + 1)) :
    ∃ m, a.removeColumn junk index = some m ∧ rowMajor r c m.element = (rowMajor r (c + 1) a.element).submatrix id index.succAbove := by
  have above : ∀ i : Fin c, (index.succAbove i : ℕ) = if (i : ℕ) < index then (i : ℕ) else i + 1 := by
    intro i
    rw [Fin.succAbove]
    simp only [Fin.lt_def, Fin.val_castSucc]
    split <;> rfl
  rw [Mat.removeColumn]
  by_cases h0 : (index : ℕ) = 0
  · rw [if_pos h0]
    obtain ⟨m, h1, h2⟩ := C131_subMatrix (mr := r) (mc := c) (row := 0) (column := 1) hr (by omega) (by omega) junk a
    refine ⟨m, h1, funext fun i => funext fun j => ?_⟩
    rw [h2, Matrix.submatrix_apply]
    congr 1
    · ext; simp
    · ext; rw [above, if_neg (by omega)]; dsimp only; omega
  · rw [if_neg h0]
    by_cases hl : (index : ℕ) = c
    · rw [if_pos hl]
      obtain ⟨m, h1, h2⟩ := C131_subMatrix (mr := r) (mc := c) (row := 0) (column := 0) hr (by omega) (by omega) junk a
      refine ⟨m, h1, funext fun i => funext fun j => ?_⟩
      rw [h2, Matrix.submatrix_apply]
      congr 1
      · ext; simp
      · ext; rw [above, if_pos (by omega)]; dsimp only; omega
    · rw [if_neg hl]
      obtain ⟨m1, h1, h2⟩ := copyColumns_eq hr junk a (i := 0) (ri := 0) (n := index) (by omega) (⟨junk⟩ : Mat T r c)
      obtain ⟨m2, h3, h4⟩ := copyColumns_eq hr junk a (i := index + 1) (ri := index) (n := c + 1 - (index + 1)) (by omega) m1
      refine ⟨m2, by rw [h1, h3], funext fun i => funext fun j => ?_⟩
      have := h4 i i.2 j j.2
      rw [h2 i i.2 j j.2] at this
      refine Eq.trans this ?_
      rw [Matrix.submatrix_apply, rowMajor, above]
      by_cases hi : (j : ℕ) < index
      · rw [if_neg (by omega), if_pos (by omega), if_pos hi]
        simp [Mat.at]
      · rw [if_pos (by omega), if_neg hi, show (index : ℕ) + 1 + (j - index) = j + 1 by omega]
        simp [Mat.at]

example : ((demo3.removeRow (fun _ => 0) 1).map fun m => (m.at 0 0, m.at 1 0)) = some (demo3.at 0 0, demo3.at 2 0) ∧
    ((demo3.removeColumn (fun _ => 0) 1).map fun m => (m.at 0 0, m.at 0 1)) = some (demo3.at 0 0, demo3.at 0 2) ∧
    demo3.at 2 0 = 37 := by decide +kernel

/-- **C131.**  `addRow` and `addColumn` read the row and the column behind the last one, wherever the new one is put. -/
theorem C131_add_counterexample (hr : r ≤ 255) (hr0 : 0 < r) (hc0 : 0 < c) (junk : ℕ → T) (a : Mat T r c) (index : ℕ)
    (row : Mat T 1 c) (col : Mat T r 1) :
    (index ≤ r → a.addRow junk index row = none) ∧ (index ≤ c → a.addColumn junk index col = none) := by
  refine ⟨fun h => ?_, fun h => ?_⟩
  · rw [Mat.addRow, copyRows, show r + 1 - index = (r - index) + 1 by omega, loop, show index + (r - index) = r by omega]
    have : a.getRow junk r = none := C131_outside (by omega) (by omega) (by omega) hc0 junk a
    simp [this]
  · rw [Mat.addColumn, copyColumns, show c + 1 - index = (c - index) + 1 by omega, loop, show index + (c - index) = c by omega]
    have : a.getColumn junk c = none := by
      rw [Mat.getColumn, Mat.subMatrix, Option.map_eq_none_iff]
      obtain ⟨r, rfl⟩ : ∃ n, r = n + 1 := ⟨r - 1, by omega⟩
      rw [loop, loop, loop]
      have : a.read ((r + 0) % 256 * c + (0 + c)) = none := by
        rw [Mat.read, Nat.mod_eq_of_lt (by omega), if_neg]
        have : (r + 1) * c = r * c + c := Nat.succ_mul r c
        simp only [Nat.add_zero, Nat.zero_add]
        omega
      simp only [this]
      simp
    simp [this]

/-! ## The determinant -/

private theorem minorOf_at {n : ℕ} (junk : ℕ → T) (m : Mat T (n + 1) (n + 1)) {i x y : ℕ} (hi : i ≤ n) (hx : x < n) (hy : y < n) :
    (minorOf junk m i).at y x = m.at (y + 1) (if x < i then x else x + 1) := by
  -- a loop over columns
  have columns : ∀ (g : ℕ → ℕ → T) (x0 k : ℕ) (e : ℕ → T), x0 + k ≤ n →
      loop (fun x e => loop (fun y e => store e (y * n + (x0 + x)) (g x y)) n e) k e (y * n + x) =
        if x0 ≤ x ∧ x < x0 + k then g (x - x0) y else e (y * n + x) := by
    intro g x0 k e hk
    have inner : ∀ (a l : ℕ) (e : ℕ → T), a < k → loop (fun y e => store e (y * n + (x0 + a)) (g a y)) l e (y * n + x) =
        if x = x0 + a ∧ y < l then g a y else e (y * n + x) := by
      intro a l e ha
      induction l with
      | zero => rw [loop, if_neg (by omega)]
      | succ l ih =>
        rw [loop]
        by_cases hh : y = l ∧ x = x0 + a
        · rw [hh.1, hh.2, store_same, if_pos ⟨rfl, by omega⟩]
        · rw [store_other _ _ (by rw [Ne, place_inj hx (by omega)]; exact hh), ih]
          congr 1
          exact propext (by omega)
    induction k with
    | zero => rw [loop, if_neg (by omega)]
    | succ k ih =>
      rw [loop, inner k n _ (by omega), ih (by omega) (fun a l e ha => inner a l e (by omega))]
      by_cases hxk : x = x0 + k
      · rw [if_pos ⟨hxk, hy⟩, if_pos (by omega), show x - x0 = k by omega]
      · rw [if_neg (fun h => hxk h.1)]
        congr 1
        exact propext (by omega)
  have first : ∀ e : ℕ → T, loop (fun x e => loop (fun y e => store e (y * n + x) (m.at (y + 1) x)) n e) i e (y * n + x) =
      if x < i then m.at (y + 1) x else e (y * n + x) := by
    intro e
    have := columns (fun x y => m.at (y + 1) x) 0 i e (by omega)
    simpa using this
  rw [Mat.at, minorOf]
  dsimp only
  rw [columns (fun x y => m.at (y + 1) (i + 1 + x)) i (n - i) _ (by omega), first]
  by_cases hxi : x < i
  · rw [if_neg (by omega), if_pos hxi, if_pos hxi]
  · rw [if_pos (by omega), if_neg hxi, show i + 1 + (x - i) = x + 1 by omega]

/-- **C132.**  `determinant` is the determinant, for square matrices of every size and over every commutative ring. -/
theorem C132_determinant [CommRing T] (junk : ℕ → T) {n : ℕ} (hn : 0 < n) (m : Mat T n n) :
    determinant junk n m = (rowMajor n n m.element).det := by
  induction n with
  | zero => omega
  | succ n ih =>
    match n, ih, m with
    | 0, _, m => simp [determinant, rowMajor, Mat.at]
    | 1, _, m => rw [determinant, Matrix.det_fin_two]; simp [rowMajor, Mat.at]
    | n + 2, ih, m =>
      rw [determinant, Matrix.det_succ_row_zero]
      have key : ∀ k ≤ n + 3, loop (fun i (vf : T × ℤ) =>
          (vf.1 + m.at 0 i * (vf.2 : T) * determinant junk (n + 2) (minorOf junk m i), vf.2 * -1)) k (0, 1) =
          (∑ i ∈ Finset.range k, m.at 0 i * (-1) ^ i * determinant junk (n + 2) (minorOf junk m i), (-1) ^ k) := by
        intro k hk
        induction k with
        | zero => simp [loop]
        | succ k ihk =>
          rw [loop, ihk (by omega), Finset.sum_range_succ, pow_succ]
          simp
      rw [key _ le_rfl]
      dsimp only
      rw [Finset.sum_range]
      refine Finset.sum_congr rfl fun i _ => ?_
      rw [ih (by omega)]
      have hm : rowMajor (n + 2) (n + 2) (minorOf junk m i).element = (rowMajor (n + 3) (n + 3) m.element).submatrix Fin.succ i.succAbove := by
        funext y x
        rw [Matrix.submatrix_apply]
        refine (minorOf_at junk m (by omega) x.2 y.2).trans ?_
        have above : (i.succAbove x : ℕ) = if (x : ℕ) < i then (x : ℕ) else x + 1 := by
          rw [Fin.succAbove]
          simp only [Fin.lt_def, Fin.val_castSucc]
          split <;> rfl
        rw [rowMajor, above, Fin.val_succ]
        rfl
      rw [hm]
      simp [rowMajor, Mat.at]
      ring

example : determinant (fun _ => 0xdead) 3 demo3 = -216 := by decide +kernel

end Props.Matrix
