import Mathlib.Data.Int.Cast.Basic
import Mathlib.Algebra.Ring.Defs

set_option autoImplicit false

/-!
# Matrices and vectors

Model of `src/modm/math/matrix.hpp`, `matrix_impl.hpp` and of `Vector<T, N>`,
`src/modm/math/geometry/vector_impl.hpp`.

The elements are a block of memory, a function of the index.  The element type is an arbitrary ring:
integers modulo a power of two for the unsigned and the short signed types (the products do not
overflow `int`), exact numbers for `float` and `double`, whose rounding is not modelled.

A matrix which is not initialised has arbitrary contents, here the argument `junk`.  A read outside of
the array gives `none`.  `uint_fast8_t` counters do not wrap.
-/

namespace Modm.Matrix

variable {T : Type}

/-- `for (i = 0; i < n; ++i) f(i)`. -/
def loop {S : Type} (f : ℕ → S → S) : ℕ → S → S
  | 0, s => s
  | n + 1, s => f n (loop f n s)

/-- `element[k] = v`. -/
def store (m : ℕ → T) (k : ℕ) (v : T) : ℕ → T := fun i => if i = k then v else m i

/-- `Matrix`, `matrix.hpp:222-223`. -/
structure Mat (T : Type) (rows columns : ℕ) where
  element : ℕ → T

variable {r c : ℕ}

/-- `getNumberOfElements`, `matrix_impl.hpp:417-423`: a `uint8_t`. -/
def numberOfElements (r c : ℕ) : ℕ := r * c % 256

/-- `m[row][column]`, `matrix_impl.hpp:114-127`. -/
def Mat.at (m : Mat T r c) (row column : ℕ) : T := m.element (row * c + column)

/-- `Matrix(const T *data)`, `matrix_impl.hpp:18-25`, and `replace(const U*)`, `444-454`. -/
def Mat.replaceAll (m : Mat T r c) (data : ℕ → T) : Mat T r c :=
  ⟨loop (fun i e => store e i (data i)) (numberOfElements r c) m.element⟩

/-- `zeroMatrix`, `matrix_impl.hpp:65-80`; static memory is zero from the beginning. -/
def zeroMatrix [Zero T] : Mat T r c := ⟨fun _ => 0⟩

/-- `identityMatrix`, `matrix_impl.hpp:36-62`. -/
def identityMatrix [Zero T] [One T] : Mat T r c :=
  if r < c then ⟨loop (fun i e => store e (i * c + i) 1) r (zeroMatrix (r := r) (c := c)).element⟩
  else ⟨loop (fun i e => store e (i * c + i) 1) c (zeroMatrix (r := r) (c := c)).element⟩

/-- `operator ==`, `matrix_impl.hpp:82-88`, for element types whose values have one representation. -/
def Mat.eq [DecidableEq T] (a b : Mat T r c) : Bool :=
  (List.range (numberOfElements r c)).all fun i => a.element i = b.element i

/-- `operator !=`, `matrix_impl.hpp:90-96`. -/
def Mat.ne [DecidableEq T] (a b : Mat T r c) : Bool :=
  (List.range (numberOfElements r c)).any fun i => a.element i ≠ b.element i

/-- `operator -`, `matrix_impl.hpp:160-171`. -/
def Mat.neg [Neg T] (junk : ℕ → T) (a : Mat T r c) : Mat T r c :=
  ⟨loop (fun i e => store e i (-(a.element i))) (numberOfElements r c) junk⟩

/-- `operator -`, `matrix_impl.hpp:173-185`. -/
def Mat.sub [Sub T] (junk : ℕ → T) (a b : Mat T r c) : Mat T r c :=
  ⟨loop (fun i e => store e i (a.element i - b.element i)) (numberOfElements r c) junk⟩

/-- `operator +`, `matrix_impl.hpp:187-199`. -/
def Mat.add [Add T] (junk : ℕ → T) (a b : Mat T r c) : Mat T r c :=
  ⟨loop (fun i e => store e i (a.element i + b.element i)) (numberOfElements r c) junk⟩

/-- `operator +=`, `matrix_impl.hpp:201-211`. -/
def Mat.addAssign [Add T] (a b : Mat T r c) : Mat T r c :=
  ⟨loop (fun i e => store e i (e i + b.element i)) (numberOfElements r c) a.element⟩

/-- `operator -=`, `matrix_impl.hpp:213-223`. -/
def Mat.subAssign [Sub T] (a b : Mat T r c) : Mat T r c :=
  ⟨loop (fun i e => store e i (e i - b.element i)) (numberOfElements r c) a.element⟩

/-- `operator *`, `matrix_impl.hpp:225-245`. -/
def Mat.mul [Add T] [Mul T] {w : ℕ} (junk : ℕ → T) (a : Mat T r c) (b : Mat T c w) : Mat T r w :=
  ⟨loop (fun i e => loop (fun j e =>
      loop (fun x e => store e (i * w + j) (e (i * w + j) + a.element (i * c + (x + 1)) * b.at (x + 1) j)) (c - 1)
        (store e (i * w + j) (a.element (i * c) * b.at 0 j))) w e) r junk⟩

/-- `operator *`, `matrix_impl.hpp:256-267`. -/
def Mat.smul [Mul T] (junk : ℕ → T) (a : Mat T r c) (x : T) : Mat T r c :=
  ⟨loop (fun i e => store e i (a.element i * x)) (numberOfElements r c) junk⟩

/-- `operator *=`, `matrix_impl.hpp:269-279`. -/
def Mat.smulAssign [Mul T] (a : Mat T r c) (x : T) : Mat T r c :=
  ⟨loop (fun i e => store e i (e i * x)) (numberOfElements r c) a.element⟩

/-- `asTransposed`, `matrix_impl.hpp:311-325`. -/
def Mat.asTransposed (junk : ℕ → T) (a : Mat T r c) : Mat T c r :=
  ⟨loop (fun i e => loop (fun j e => store e (j * r + i) (a.element (i * c + j))) c e) r junk⟩

/-- A read of `element[k]`. -/
def Mat.read (a : Mat T r c) (k : ℕ) : Option T := if k < r * c then some (a.element k) else none

/-- `subMatrix<MR, MC>`, `matrix_impl.hpp:425-442`; the argument of `operator []` is a `uint8_t`. -/
def Mat.subMatrix (mr mc : ℕ) (junk : ℕ → T) (a : Mat T r c) (row column : ℕ) : Option (Mat T mr mc) :=
  (loop (fun i s => loop (fun j s => s.bind fun e =>
      (a.read ((i + row) % 256 * c + (j + column))).bind fun v => some (store e (i * mc + j) v)) mc s) mr (some junk)).map
    fun e => ⟨e⟩

/-- `getRow`, `matrix_impl.hpp:98-104`. -/
def Mat.getRow (junk : ℕ → T) (a : Mat T r c) (index : ℕ) : Option (Mat T 1 c) := a.subMatrix 1 c junk index 0

/-- `getColumn`, `matrix_impl.hpp:106-112`. -/
def Mat.getColumn (junk : ℕ → T) (a : Mat T r c) (index : ℕ) : Option (Mat T r 1) := a.subMatrix r 1 junk 0 index

/-- `replace(row, column, m)`, `matrix_impl.hpp:456-474`; the loops end when the row or the column is
outside. -/
def Mat.replace {mr mc : ℕ} (a : Mat T r c) (row column : ℕ) (m : Mat T mr mc) : Mat T r c :=
  ⟨loop (fun i e => loop (fun j e => store e ((i + row) * c + (j + column)) (m.at i j)) (min mc (c - column)) e)
    (min mr (r - row)) a.element⟩

/-- `replaceRow`, `matrix_impl.hpp:476-482`. -/
def Mat.replaceRow (a : Mat T r c) (index : ℕ) (m : Mat T 1 c) : Mat T r c := a.replace index 0 m

/-- `replaceColumn`, `matrix_impl.hpp:484-490`. -/
def Mat.replaceColumn (a : Mat T r c) (index : ℕ) (m : Mat T r 1) : Mat T r c := a.replace 0 index m

/-- `m.replaceRow(ri, getRow(i))` for `n` rows from `i` and `ri` on. -/
def copyRows {r' : ℕ} (junk : ℕ → T) (a : Mat T r c) (i ri n : ℕ) (m : Option (Mat T r' c)) : Option (Mat T r' c) :=
  loop (fun k m => m.bind fun m => (a.getRow junk (i + k)).bind fun row => some (m.replaceRow (ri + k) row)) n m

/-- `m.replaceColumn(ci, getColumn(i))` for `n` columns from `i` and `ci` on. -/
def copyColumns {c' : ℕ} (junk : ℕ → T) (a : Mat T r c) (i ci n : ℕ) (m : Option (Mat T r c')) : Option (Mat T r c') :=
  loop (fun k m => m.bind fun m => (a.getColumn junk (i + k)).bind fun col => some (m.replaceColumn (ci + k) col)) n m

/-- `addRow`, `matrix_impl.hpp:492-509`. -/
def Mat.addRow (junk : ℕ → T) (a : Mat T r c) (index : ℕ) (row : Mat T 1 c) : Option (Mat T (r + 1) c) :=
  copyRows junk a index (index + 1) (r + 1 - index)
    ((copyRows junk a 0 0 index (some (⟨junk⟩ : Mat T (r + 1) c))).map fun m => m.replaceRow index row)

/-- `addColumn`, `matrix_impl.hpp:511-528`. -/
def Mat.addColumn (junk : ℕ → T) (a : Mat T r c) (index : ℕ) (col : Mat T r 1) : Option (Mat T r (c + 1)) :=
  copyColumns junk a index (index + 1) (c + 1 - index)
    ((copyColumns junk a 0 0 index (some (⟨junk⟩ : Mat T r (c + 1)))).map fun m => m.replaceColumn index col)

/-- `removeRow`, `matrix_impl.hpp:530-558`. -/
def Mat.removeRow (junk : ℕ → T) (a : Mat T (r + 1) c) (index : ℕ) : Option (Mat T r c) :=
  if index = 0 then a.subMatrix r c junk 1 0
  else if index = r then a.subMatrix r c junk 0 0
  else copyRows junk a (index + 1) index (r + 1 - (index + 1)) (copyRows junk a 0 0 index (some ⟨junk⟩))

/-- `removeColumn`, `matrix_impl.hpp:560-588`. -/
def Mat.removeColumn (junk : ℕ → T) (a : Mat T r (c + 1)) (index : ℕ) : Option (Mat T r c) :=
  if index = 0 then a.subMatrix r c junk 0 1
  else if index = c then a.subMatrix r c junk 0 0
  else copyColumns junk a (index + 1) index (c + 1 - (index + 1)) (copyColumns junk a 0 0 index (some ⟨junk⟩))

/-- The matrix `subM`, `matrix_impl.hpp:645-657`. -/
def minorOf {n : ℕ} (junk : ℕ → T) (m : Mat T (n + 1) (n + 1)) (i : ℕ) : Mat T n n :=
  let e := loop (fun x e => loop (fun y e => store e (y * n + x) (m.at (y + 1) x)) n e) i junk
  ⟨loop (fun x e => loop (fun y e => store e (y * n + (i + x)) (m.at (y + 1) (i + 1 + x))) n e) (n - i) e⟩

/-- `determinant`, `matrix_impl.hpp:619-664`. -/
def determinant [Ring T] (junk : ℕ → T) : (n : ℕ) → Mat T n n → T
  | 0, _ => 0
  | 1, m => m.at 0 0
  | 2, m => m.at 0 0 * m.at 1 1 - m.at 0 1 * m.at 1 0
  | n + 3, m =>
    (loop (fun i (vf : T × ℤ) =>
      (vf.1 + m.at 0 i * (vf.2 : T) * determinant junk (n + 2) (minorOf junk m i), vf.2 * -1)) (n + 3) (0, 1)).1

/-! ## Vectors -/

/-- `Vector<T, N>::operator <`, `vector_impl.hpp:68-83`, from the coordinate `i` on. -/
def vectorLess [LT T] [DecidableLT T] (a b : ℕ → T) : (n i : ℕ) → Bool
  | 0, _ => false
  | n + 1, i => if a i < b i then true else if a i > b i then false else vectorLess a b n (i + 1)

/-- `operator <=`, `vector_impl.hpp:85-100`. -/
def vectorLessEq [LT T] [DecidableLT T] (a b : ℕ → T) : (n i : ℕ) → Bool
  | 0, _ => true
  | n + 1, i => if a i < b i then true else if a i > b i then false else vectorLessEq a b n (i + 1)

/-- `operator >`, `vector_impl.hpp:102-117`. -/
def vectorGreater [LT T] [DecidableLT T] (a b : ℕ → T) : (n i : ℕ) → Bool
  | 0, _ => false
  | n + 1, i => if a i > b i then true else if a i < b i then false else vectorGreater a b n (i + 1)

/-- `operator >=`, `vector_impl.hpp:119-134`. -/
def vectorGreaterEq [LT T] [DecidableLT T] (a b : ℕ → T) : (n i : ℕ) → Bool
  | 0, _ => true
  | n + 1, i => if a i > b i then true else if a i < b i then false else vectorGreaterEq a b n (i + 1)

/-- `operator * (const Vector&)`, `vector_impl.hpp:222-233`. -/
def vectorDot [Zero T] [Add T] [Mul T] (n : ℕ) (a b : ℕ → T) : T := loop (fun i v => v + a i * b i) n 0

/-- `getLengthSquared`, `vector_impl.hpp:322-333`. -/
def vectorLengthSquared [Zero T] [Add T] [Mul T] (n : ℕ) (a : ℕ → T) : T := loop (fun i v => v + a i * a i) n 0

/-- `operator * (const T&)`, `vector_impl.hpp:235-245`. -/
def vectorScale [Mul T] (n : ℕ) (junk a : ℕ → T) (x : T) : ℕ → T := loop (fun i e => store e i (a i * x)) n junk

/-- `operator *=`, `vector_impl.hpp:281-290`. -/
def vectorScaleAssign [Sub T] (n : ℕ) (a : ℕ → T) (x : T) : ℕ → T := loop (fun i e => store e i (e i - x)) n a

/-- `operator -`, `vector_impl.hpp:303-312`: the vector itself afterwards, to which the result is a
reference. -/
def vectorNeg [Neg T] (n : ℕ) (a : ℕ → T) : ℕ → T := loop (fun i e => store e i (-(e i))) n a

end Modm.Matrix
