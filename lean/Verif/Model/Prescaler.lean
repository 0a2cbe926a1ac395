import Mathlib.Data.Rat.Defs
import Mathlib.Algebra.Order.Ring.Rat
import Mathlib.Algebra.Order.Floor.Defs
import Mathlib.Data.Rat.Floor
/-
Model of `modm::GenericPrescaler<uint64_t>` (src/modm/math/algorithm/prescaler.hpp:26-170) and
`modm::GenericPrescalerCounter<uint64_t>` (src/modm/math/algorithm/prescaler_counter.hpp:29-165).

`double` arithmetic: every operation computes the exact rational result and then applies a rounding function `rnd`, a
parameter of the model. Frequencies are unbounded naturals (the theorems bound them by 2^50). The `error` and
`frequency` fields of the result are not modelled, except that `frequency` is `input / prescaler`.
-/
set_option autoImplicit false
namespace Modm.Prescaler

/-- `Result` (prescaler.hpp:33-58): index and prescaler -/
structure Result where
  index : Nat
  prescaler : Nat
deriving Repr, DecidableEq

/-- `double(input_frequency) / desired_frequency` -/
def ratio (rnd : ℚ → ℚ) (inp des : Nat) : ℚ := rnd (rnd inp / rnd des)

/-- `(baud_upper + baud_lower) / 2.0` -/
def middle (rnd : ℚ → ℚ) (a b : Nat) : ℚ := rnd (rnd (a + b : Nat) / 2)

/-- the `for` loop of `from_range` (prescaler.hpp:74-80): state floor, ii_floor, ceiling, ii_ceiling -/
def scan (desired : ℚ) : List Nat → Nat × Nat × Nat × Nat → Nat × Nat × Nat × Nat
  | [], s => s
  | p :: ps, (fl, iiF, _, iiC) =>
    if (fl : ℚ) ≤ desired ∧ desired < p then (fl, iiF, p, iiC + 1)
    else scan desired ps (p, iiF + 1, p, iiC + 1)

/-- final comparison (prescaler.hpp:81-87) -/
def choose (rnd : ℚ → ℚ) (inp des : Nat) (s : Nat × Nat × Nat × Nat) : Result :=
  match s with
  | (fl, iiF, ce, iiC) =>
    if rnd des ≤ middle rnd (inp / fl) (inp / ce) then ⟨iiC - 1, ce⟩ else ⟨iiF - 1, fl⟩

/-- `from_range` / `from_list` (prescaler.hpp:63-97); `none`: empty range (undefined) -/
def fromRange (rnd : ℚ → ℚ) (inp des : Nat) (l : List Nat) : Option Result :=
  match l with
  | [] => none
  | p0 :: ps =>
    if ratio rnd inp des ≤ p0 ∨ (p0 :: ps).length = 1 then some ⟨0, p0⟩
    else some (choose rnd inp des (scan (ratio rnd inp des) (p0 :: ps) (p0, 0, p0, 0)))

/-- `from_function` (prescaler.hpp:103-136): inclusive range through a modifier -/
def fromFunction (rnd : ℚ → ℚ) (inp des b e : Nat) (f : Nat → Nat) : Option Result :=
  fromRange rnd inp des ((List.range (e + 1 - b)).map fun k => f (b + k))

/-- final comparison of `from_linear` (prescaler.hpp:147-152) -/
def linearPick (rnd : ℚ → ℚ) (inp des b fl ce : Nat) : Result :=
  if rnd des ≤ middle rnd (inp / fl) (inp / ce) then ⟨ce - b, ce⟩ else ⟨fl - b, fl⟩

/-- `from_linear` (prescaler.hpp:141-153). `none`: the conversion `uint32_t(desired)` is out of range or a divisor is zero
(both undefined). -/
def fromLinear (rnd : ℚ → ℚ) (inp des b e : Nat) : Option Result :=
  let d := (⌊ratio rnd inp des⌋).toNat
  let fl := Nat.max d b
  let ce := Nat.min ((d + 1) % 2 ^ 32) e
  if 2 ^ 32 ≤ d ∨ fl = 0 ∨ ce = 0 then none else some (linearPick rnd inp des b fl ce)

/-- the loop of `from_power` (prescaler.hpp:163-165); `power` doubles, so 32 iterations suffice in 32 bits -/
def powLoop (rnd : ℚ → ℚ) (desired : ℚ) (e : Nat) : Nat → Nat → Nat → Result
  | 0, power, ii => ⟨ii, power⟩
  | fuel + 1, power, ii =>
    if power < e then
      if desired ≤ rnd (rnd (4 * power : Nat) / 3) then ⟨ii, power⟩
      else powLoop rnd desired e fuel (power * 2 % 2 ^ 32) (ii + 1)
    else ⟨ii, power⟩

/-- `from_power` (prescaler.hpp:159-167) -/
def fromPower (rnd : ℚ → ℚ) (inp des b e : Nat) : Result := powLoop rnd (ratio rnd inp des) e 32 b 0

/-! ### Prescaler and counter -/

/-- `GenericPrescalerCounter::Result` -/
structure CResult where
  index : Nat
  prescaler : Nat
  counter : Nat
deriving Repr, DecidableEq

/-- running best: error (`none` is infinity) and result -/
abbrev Best := Option ℚ × CResult

/-- `fn_compare` (prescaler_counter.hpp:81-90): the product is computed in `uint32_t` -/
def fnCompare (desired : ℚ) (best : Best) (idx pre cnt : Nat) : Best :=
  let err := |desired - ((pre * cnt % 2 ^ 32 : Nat) : ℚ)|
  match best.1 with
  | none => (some err, ⟨idx, pre, cnt⟩)
  | some e => if err < e then (some err, ⟨idx, pre, cnt⟩) else best

/-- the candidate loop (prescaler_counter.hpp:91-98) -/
def candidates (desired : ℚ) (maxC : Nat) : List Nat → Nat → Best → Best
  | [], _, best => best
  | p :: ps, idx, best =>
    if ((maxC * p % 2 ^ 32 : Nat) : ℚ) < desired then candidates desired maxC ps (idx + 1) best
    else
      let cnt := Nat.max 1 (⌊desired / p⌋).toNat
      let best := fnCompare desired best idx p cnt
      let best := if cnt > maxC - 1 then best else fnCompare desired best idx p (cnt + 1)
      candidates desired maxC ps (idx + 1) best

/-- first index of the minimum, last index of the maximum (`std::ranges::minmax_element`) -/
def minIdx (l : List Nat) (m : Nat) : Nat := l.idxOf m

/-- `from_range` (prescaler_counter.hpp:61-100) with exact (unrounded) `double` arithmetic. The index of the clamped
results is not modelled exactly for repeated extrema (first occurrence is used). -/
def counterFromRange (inp des maxC : Nat) (l : List Nat) : Option CResult := do
  let mn ← l.min?
  let mx ← l.max?
  let desired : ℚ := (inp : ℚ) / des
  if desired < mn then some ⟨minIdx l mn, mn, 1⟩
  else if desired > ((mx * maxC % 2 ^ 32 : Nat) : ℚ) then some ⟨minIdx l mx, mx, maxC⟩
  else some (candidates desired maxC l 0 (none, ⟨0, 0, 0⟩)).2

end Modm.Prescaler
