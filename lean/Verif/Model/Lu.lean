import Verif.Model.Matrix
import Mathlib.Algebra.Order.Group.Unbundled.Abs

set_option autoImplicit false

/-!
# LU decomposition

Model of `src/modm/math/lu_decomposition_impl.hpp`, for matrices of `n` rows and columns.

The elements are of an exact field: the rounding of `float` and `double` is not modelled.  `1.0 / x` is
an argument, `recip`; nothing is assumed of `recip 0`.  The memory is as in `Verif.Model.Matrix`; the
pointers are indices.  The recursion over the template argument `OFFSET` is a loop.
-/

namespace Modm.Lu

open Modm.Matrix

variable {K : Type}

/-- `RowOperation::multiply`, `lu_decomposition_impl.hpp:102-109`. -/
def multiply [Mul K] (size : ℕ) (m : ℕ → K) (intoRow row : ℕ) (factor : K) : ℕ → K :=
  loop (fun i m => store m (intoRow + i) (m (row + i) * factor)) size m

/-- `RowOperation::addRowTimesFactor`, `lu_decomposition_impl.hpp:112-119`. -/
def addRowTimesFactor [Add K] [Mul K] (size : ℕ) (m : ℕ → K) (intoRow srcRow addRow : ℕ) (timesFactor : K) : ℕ → K :=
  loop (fun i m => store m (intoRow + i) (m (srcRow + i) + m (addRow + i) * timesFactor)) size m

/-- `RowOperation::swap`, `lu_decomposition_impl.hpp:122-131`. -/
def swap (size : ℕ) (m : ℕ → K) (row1 row2 : ℕ) : ℕ → K :=
  let tmp := fun i => m (row1 + i)
  let m := loop (fun i e => store e (row1 + i) (m (row2 + i))) size m
  loop (fun i e => store e (row2 + i) (tmp i)) size m

/-- `LUSubDecomposition::decompose(u, l)`, `lu_decomposition_impl.hpp:176-199`; the memory of `u` and of
`l`. -/
def decomposeStep [Ring K] (recip : K → K) (n offset : ℕ) (s : (ℕ → K) × (ℕ → K)) : (ℕ → K) × (ℕ → K) :=
  let factor := s.1 (offset * n + offset)
  let l := store s.2 (offset * n + offset) factor
  let u := store s.1 (offset * n + offset) 1
  let u := multiply (n - offset - 1) u (offset * n + offset + 1) (offset * n + offset + 1) (recip factor)
  loop (fun i s =>
    let j := offset + 1 + i
    let factor := s.1 (j * n + offset)
    let l := store s.2 (j * n + offset) factor
    let u := store s.1 (j * n + offset) 0
    (addRowTimesFactor (n - offset - 1) u (j * n + offset + 1) (j * n + offset + 1) (offset * n + offset + 1) (-factor), l))
    (n - (offset + 1)) (u, l)

/-- The search of the pivot, `lu_decomposition_impl.hpp:220-232`. -/
def maxRow [Lattice K] [AddGroup K] [DecidableLT K] (n offset : ℕ) (u : ℕ → K) : ℕ :=
  (loop (fun i (s : K × ℕ) =>
    let j := offset + 1 + i
    let v := |u (j * n + offset)|
    if s.1 < v then (v, j) else s) (n - (offset + 1)) (|u (offset * n + offset)|, offset)).2

/-- The memory of `u`, `l` and `p`. -/
structure State (K : Type) where
  u : ℕ → K
  l : ℕ → K
  p : ℕ → ℤ

/-- `LUSubDecomposition::decompose(u, l, p)`, `lu_decomposition_impl.hpp:213-245`. -/
def decomposePivotStep [Ring K] [Lattice K] [DecidableLT K] (recip : K → K) (n offset : ℕ) (s : State K) : State K :=
  let row := maxRow n offset s.u
  let s : State K :=
    if row ≠ offset then
      ⟨swap (n - offset) s.u (row * n + offset) (offset * n + offset), swap offset s.l (row * n) (offset * n),
        store (store s.p offset (s.p row)) row (s.p offset)⟩
    else s
  let ul := decomposeStep recip n offset (s.u, s.l)
  ⟨ul.1, ul.2, s.p⟩

/-- `LUDecomposition::decompose(matrix, l, u)`, `lu_decomposition_impl.hpp:19-30`, and `decomposeRecur`,
`165-173`: what is returned, `l` and `u`. -/
def decompose [Ring K] (recip : K → K) (n : ℕ) (matrix : Mat K n n) : Bool × Mat K n n × Mat K n n :=
  let ul := loop (decomposeStep recip n) n (matrix.element, (identityMatrix : Mat K n n).element)
  (true, ⟨ul.2⟩, ⟨ul.1⟩)

/-- `LUDecomposition::decompose(matrix, l, u, Vector *p)`, `lu_decomposition_impl.hpp:33-48`, and
`decomposeRecur`, `202-210`; the elements of `p` are `int8_t`. -/
def decomposePivot [Ring K] [Lattice K] [DecidableLT K] (recip : K → K) (n : ℕ) (junk : ℕ → ℤ) (matrix : Mat K n n) :
    Bool × Mat K n n × Mat K n n × (ℕ → ℤ) :=
  let p := loop (fun i p => store p i (BitVec.ofNat 8 i).toInt) n junk
  let s := loop (decomposePivotStep recip n) n ⟨matrix.element, (identityMatrix : Mat K n n).element, p⟩
  (true, ⟨s.l⟩, ⟨s.u⟩, s.p)

/-- `LUDecomposition::decompose(matrix, l, u, Matrix *p)`, `lu_decomposition_impl.hpp:50-65`. -/
def decomposePivotMatrix [Ring K] [Lattice K] [DecidableLT K] (recip : K → K) (n : ℕ) (junk : ℕ → ℤ) (matrix : Mat K n n) :
    Bool × Mat K n n × Mat K n n × Mat K n n :=
  let d := decomposePivot recip n junk matrix
  (true, d.2.1, d.2.2.1,
    ⟨loop (fun i e => store e ((i : ℤ) * n + d.2.2.2 i).toNat 1) n (zeroMatrix : Mat K n n).element⟩)

/-- `LUSubDecomposition::solveLyEqualsB`, `lu_decomposition_impl.hpp:248-273`, one level of the
recursion; the memory of `l` and of `bx`, which has `w` columns. -/
def solveLStep [Ring K] (recip : K → K) (n w offset : ℕ) (s : (ℕ → K) × (ℕ → K)) : (ℕ → K) × (ℕ → K) :=
  let factor := s.1 (offset * n + offset)
  let bx := multiply w s.2 (offset * w) (offset * w) (recip factor)
  loop (fun i s =>
    let j := offset + 1 + i
    let factor := s.1 (j * n + offset)
    (store s.1 (j * n + offset) 0, addRowTimesFactor w s.2 (j * w) (j * w) (offset * w) (-factor))) (n - (offset + 1)) (s.1, bx)

/-- `LUSubDecomposition::solveUxEqualsY`, `lu_decomposition_impl.hpp:276-299`, one level of the
recursion. -/
def solveUStep [Ring K] (n w offset : ℕ) (s : (ℕ → K) × (ℕ → K)) : (ℕ → K) × (ℕ → K) :=
  loop (fun j s =>
    let factor := s.1 (j * n + (offset + 1))
    (store s.1 (j * n + (offset + 1)) 0, addRowTimesFactor w s.2 (j * w) (j * w) ((offset + 1) * w) (-factor))) (offset + 1) s

/-- `LUSubDecomposition::solve`, `lu_decomposition_impl.hpp:302-329`, and `LUDecomposition::solve(l, u, xb)`,
`68-76`.  The levels of `solveUxEqualsY` are left in the reverse order. -/
def solveLu [Ring K] (recip : K → K) (n w : ℕ) (l u : Mat K n n) (xb : Mat K n w) : Bool × Mat K n w :=
  let bx := (loop (solveLStep recip n w) n (l.element, xb.element)).2
  let bx := (loop (fun i s => solveUStep n w (n - 2 - i) s) (n - 1) (u.element, bx)).2
  (true, ⟨bx⟩)

/-- `LUDecomposition::solve(A, xb)`, `lu_decomposition_impl.hpp:79-95`. -/
def solve [Ring K] [Lattice K] [DecidableLT K] (recip : K → K) (n w : ℕ) (junkp : ℕ → ℤ) (junk : ℕ → K) (A : Mat K n n)
    (xb : Mat K n w) : Bool × Mat K n w :=
  let d := decomposePivotMatrix recip n junkp A
  if !d.1 then (false, xb)
  else
    let xb := d.2.2.2.mul junk xb
    let r := solveLu recip n w d.2.1 d.2.2.1 xb
    if !r.1 then (false, r.2) else (true, r.2)

end Modm.Lu
