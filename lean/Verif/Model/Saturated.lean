/-
Model of `modm::Saturated<T>` (src/modm/math/saturation/saturated.hpp:37-325) for integral `T` and of
`modm::fits_any` (src/modm/math/utils/integer_traits.hpp:25-69).

Values are integers in the range of their type. The GCC builtins `__builtin_{add,sub,mul}_overflow` compute the
exact result, store it wrapped to the destination type and report whether it did not fit. `int` has 32 bits.
`none` is undefined behaviour (signed overflow of a negation).
Not modelled: the floating-point constructor (61-64) and reference types `T&`.
-/
set_option autoImplicit false
namespace Modm.Saturated

/-- An integer type: signedness and number of bits. -/
structure Ty where
  signed : Bool
  bits : Nat
deriving Repr, DecidableEq

/-- `std::numeric_limits<T>::min()` -/
def Ty.min (t : Ty) : Int := if t.signed then -2 ^ (t.bits - 1) else 0
/-- `std::numeric_limits<T>::max()` -/
def Ty.max (t : Ty) : Int := if t.signed then 2 ^ (t.bits - 1) - 1 else 2 ^ t.bits - 1
/-- value is representable -/
def Ty.fits (t : Ty) (v : Int) : Prop := t.min ≤ v ∧ v ≤ t.max
instance (t : Ty) (v : Int) : Decidable (t.fits v) := by unfold Ty.fits; infer_instance
/-- conversion to the type (modulo 2^bits) -/
def Ty.wrap (t : Ty) (v : Int) : Int := if t.signed then Int.bmod v (2 ^ t.bits) else v % 2 ^ t.bits

/-- `__builtin_*_overflow` with exact result `exact` and destination of type `t`: stored value and flag -/
def builtin (t : Ty) (exact : Int) : Int × Bool := (t.wrap exact, !decide (t.fits exact))

/-- unary minus on a value of type `t`: narrower types are promoted to `int` first -/
def neg (t : Ty) (v : Int) : Option Int :=
  if t.bits < 32 then some (-v)
  else if t.signed then (if v = t.min then none else some (-v))
  else some (t.wrap (-v))

/-- `operator+=` / `operator+` with `U` unsigned (saturated.hpp:127-136, 240-251). -/
def addU (t : Ty) (a b : Int) : Int :=
  let (r, o) := builtin t (a + b)
  if o then t.max else r

/-- `operator+=` / `operator+` with `U` signed (saturated.hpp:138-152, 253-269). -/
def addS (t u : Ty) (a b : Int) : Option Int :=
  if b < 0 then do
    let nb ← neg u b
    let (r, o) := builtin t (a - nb)
    some (if o then t.min else r)
  else
    let (r, o) := builtin t (a + b)
    some (if o then t.max else r)

/-- `operator-=` / `operator-` with `U` unsigned (saturated.hpp:154-163, 271-282). -/
def subU (t : Ty) (a b : Int) : Int :=
  let (r, o) := builtin t (a - b)
  if o then t.min else r

/-- `operator-=` / `operator-` with `U` signed (saturated.hpp:165-179, 284-300). -/
def subS (t u : Ty) (a b : Int) : Option Int :=
  if b < 0 then do
    let nb ← neg u b
    let (r, o) := builtin t (a + nb)
    some (if o then t.max else r)
  else
    let (r, o) := builtin t (a - b)
    some (if o then t.min else r)

/-- addition, dispatching on the signedness of `U` -/
def add (t u : Ty) (a b : Int) : Option Int := if u.signed then addS t u a b else some (addU t a b)
/-- subtraction, dispatching on the signedness of `U` -/
def sub (t u : Ty) (a b : Int) : Option Int := if u.signed then subS t u a b else some (subU t a b)

/-- `operator*=` with `U` unsigned (saturated.hpp:181-190, 211-220) and `operator*` (302-311). -/
def mulU (t : Ty) (a b : Int) : Int :=
  let (r, o) := builtin t (a * b)
  if o then t.max else r

/-- `operator*=` with `U` signed (saturated.hpp:192-207, 222-237); `value = -value` converts back to `T`. -/
def mulS (t u : Ty) (a b : Int) : Option Int :=
  if b < 0 then do
    let nb ← neg u b
    let (r, o) := builtin t (a * nb)
    let v := if o then t.max else r
    let n ← neg t v
    some (t.wrap n)
  else
    let (r, o) := builtin t (a * b)
    some (if o then t.max else r)

/-- `operator*=`, dispatching on the signedness of `U` -/
def mulAssign (t u : Ty) (a b : Int) : Option Int := if u.signed then mulS t u a b else some (mulU t a b)

/-- `operator++` / `operator--` (saturated.hpp:95-124). -/
def inc (t : Ty) (a : Int) : Int := if a < t.max then a + 1 else a
def dec (t : Ty) (a : Int) : Int := if a > t.min then a - 1 else a

/-- `std::numeric_limits<T>::digits` -/
def Ty.digits (t : Ty) : Nat := if t.signed then t.bits - 1 else t.bits

/-- `uint_t<Bits>::least` (integer_traits.hpp:25-33); `none`: the `enable_if` fails to compile. -/
def leastBits (n : Nat) : Option Nat :=
  if n ≤ 8 then some 8 else if n ≤ 16 then some 16 else if n ≤ 32 then some 32
  else if n ≤ 64 then some 64 else none

/-- `fits_any<T, U>` (integer_traits.hpp:56-66) for two types. Both alternatives of the `conditional_t` are
instantiated, so it compiles only if both `uint_t` arguments do. -/
def fitsAny (t u : Ty) : Option Ty := do
  let most := Nat.max t.digits u.digits
  let b ← leastBits most
  let b' ← leastBits (if most % 2 = 1 then most else most * 2)
  some (if !t.signed && !u.signed then ⟨false, b⟩ else ⟨true, b'⟩)

/-- Converting constructor / assignment from an integer or `Saturated` of type `U` (saturated.hpp:56-59, 66-69,
88-92): `value = std::clamp<fits_any_t<TP,U>>(v, min, max)`. All three arguments are converted to the common
type first, the result to `T`. `none`: does not compile. -/
def convert (t u : Ty) (v : Int) : Option Int := do
  let c ← fitsAny t u
  let v' := c.wrap v
  let lo := c.wrap t.min
  let hi := c.wrap t.max
  some (t.wrap (if v' < lo then lo else if hi < v' then hi else v'))

/-- Unary `operator-` (saturated.hpp:313-315) for signed `T`: `-TS(value)` with `TS = T`, returned as `T`. -/
def negOpS (t : Ty) (a : Int) : Option Int := (neg t a).map t.wrap
/-- Unary `operator-` for unsigned `T` of `n` bits: `TS` is signed of `2n` bits. -/
def negOpU (t : Ty) (a : Int) : Option Int := (neg ⟨true, 2 * t.bits⟩ a).map (Ty.wrap ⟨true, 2 * t.bits⟩)
/-- `absolute` (saturated.hpp:317-321) for signed `T`. -/
def absolute (t : Ty) (a : Int) : Option Int := if a < 0 then (neg t a).map t.wrap else some a

end Modm.Saturated
