import Verif.Model.Saturated
import Mathlib.Algebra.Field.Defs
/-
Model of `modm::interpolation::Linear<modm::Pair<InputType, OutputType>>::interpolate`
(src/modm/math/interpolation/linear.hpp:36-69, linear_impl.hpp:28-65) for integer types, with the usual arithmetic
conversions of C++ (`int` has 32 bits) and `WideType`/`SignedType` (src/modm/math/utils/arithmetic_traits.hpp:84-152;
types of 8, 16 and 32 bits). `none` is undefined behaviour: signed overflow or division by zero.
-/
set_option autoImplicit false
namespace Modm.Interp
open Modm.Saturated (Ty)

/-- integral promotion -/
def promote (t : Ty) : Ty := if t.bits < 32 then ⟨true, 32⟩ else t

/-- usual arithmetic conversions of two integer types -/
def common (t u : Ty) : Ty :=
  if (promote t).signed = (promote u).signed then ⟨(promote t).signed, Nat.max (promote t).bits (promote u).bits⟩
  else if (promote t).signed then
    (if (promote t).bits > (promote u).bits then promote t else promote u)
  else (if (promote u).bits > (promote t).bits then promote u else promote t)

/-- result of an operation in the (promoted) type `t` with exact result `v` -/
def op (t : Ty) (v : Int) : Option Int :=
  if t.signed then (if t.fits v then some v else none) else some (t.wrap v)

/-- `SignedType<T>` -/
def signedTy (t : Ty) : Ty := ⟨true, t.bits⟩
/-- `WideType<SignedType<T>>` -/
def wideTy (t : Ty) : Ty := ⟨true, 2 * t.bits⟩

/-- the division `(a * b) / c`; the type of `a * b` is `common it wide` and so is that of the quotient -/
def quot (p : Ty) (n d : Int) : Option Int := if p.wrap d = 0 then none else op p (n.tdiv (p.wrap d))

/-- lines 47-58: `(x1, y1)` is `last`, `(x2, y2)` is `current` -/
def segment (it ot : Ty) (x1 y1 x2 y2 v : Int) : Option Int := do
  let a ← op (promote it) (v - x1)
  let a := it.wrap a
  let b ← op (promote (signedTy ot)) ((signedTy ot).wrap y2 - (signedTy ot).wrap y1)
  let b := (wideTy ot).wrap b
  let c ← op (promote it) (x2 - x1)
  let c := it.wrap c
  let p := common it (wideTy ot)
  let ab ← op p (p.wrap a * p.wrap b)
  let q ← quot p ab c
  let r := common p ot
  let s ← op r (r.wrap q + r.wrap y1)
  some (ot.wrap s)

/-- the loop (linear_impl.hpp:39-64) from point `last` -/
def go (it ot : Ty) (v : Int) : Int × Int → List (Int × Int) → Option Int
  | last, [] => some last.2
  | last, cur :: rest => if v ≤ cur.1 then segment it ot last.1 last.2 cur.1 cur.2 v else go it ot v cur rest

/-- `interpolate` (linear_impl.hpp:31-65); `none` also for an empty table. At most 255 points (`uint8_t`). -/
def interpolate (it ot : Ty) (pts : List (Int × Int)) (v : Int) : Option Int :=
  match pts with
  | [] => none
  | p :: rest => if v ≤ p.1 then some p.2 else go it ot v p rest

/-! ### Lagrange interpolation (src/modm/math/interpolation/lagrange_impl.hpp:31-50)

`F` is a field: the floating-point rounding of `OutputType` is not modelled. -/
section
universe u
variable {F : Type u} [Field F]

/-- inner loop (lines 37-45): `li` after the points from index `j` on -/
def lagrangeBasis (value xi : F) (i : Nat) : Nat → List (F × F) → F → F
  | _, [], li => li
  | j, p :: ps, li => lagrangeBasis value xi i (j + 1) ps (if i ≠ j then li * ((value - p.1) / (xi - p.1)) else li)

/-- outer loop (lines 35-47) from index `i` on -/
def lagrangeSum (value : F) (pts : List (F × F)) : Nat → List (F × F) → F → F
  | _, [], ret => ret
  | i, p :: ps, ret => lagrangeSum value pts (i + 1) ps (ret + lagrangeBasis value p.1 i 0 pts 1 * p.2)

/-- `interpolate` (lagrange_impl.hpp:32-50) -/
def lagrange (pts : List (F × F)) (value : F) : F := lagrangeSum value pts 0 pts 0
end

end Modm.Interp
