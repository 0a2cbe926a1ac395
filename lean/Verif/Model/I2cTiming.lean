/-
Model of the calculation of I2C timings (src/modm/platform/i2c/stm32-extended/i2c_timing_calculator.hpp, i2c_master.hpp.in).

Simplified: floats are exact rational numbers.  Times are in seconds.
-/
import Mathlib.Algebra.Order.Floor.Ring
import Mathlib.Data.Rat.Floor
set_option autoImplicit false
namespace Modm.I2cTiming

/-- `I2cMasterTimings`, i2c_timing_calculator.hpp:27-34 -/
structure Timings where
  prescaler : Nat
  sdaDel : Nat
  sclDel : Nat
  sclLow : Nat
  sclHigh : Nat
  deriving DecidableEq

/-- `I2cParameters`, i2c_timing_calculator.hpp:37-46 -/
structure Params where
  clock : Nat
  target : Nat
  tolerance : ℚ
  dnf : Nat
  analog : Bool
  rise : ℚ
  fall : ℚ

/-- `AnalogFilterDelayMin`, i2c_timing_calculator.hpp:192 -/
def filterMin : ℚ := 50 / 1000000000
/-- `AnalogFilterDelayMax`, i2c_timing_calculator.hpp:193 -/
def filterMax : ℚ := 260 / 1000000000

/-- `modeIndex`, i2c_timing_calculator.hpp:195-205 -/
def mode (p : Params) : Nat := if p.target < 250000 then 0 else if p.target < 700000 then 1 else 2

/-- `ModeConstants`, i2c_timing_calculator.hpp:146-187, in nanoseconds -/
def pick (m a b c : Nat) : ℚ := ((if m = 0 then a else if m = 1 then b else c : Nat) : ℚ) / 1000000000
def tFallMax (m : Nat) : ℚ := pick m 300 300 120
def tRiseMax (m : Nat) : ℚ := pick m 1000 300 120
def tHdDatMax (m : Nat) : ℚ := pick m 3450 900 450
def tSuDatMin (m : Nat) : ℚ := pick m 250 100 50
def tLowMin (m : Nat) : ℚ := pick m 4700 1300 500
def tHighMin (m : Nat) : ℚ := pick m 4000 600 260

/-- `FilterDelay`, i2c_timing_calculator.hpp:141-142 -/
def filterDelay (p : Params) : ℚ := (if p.analog then filterMin else 0) + p.dnf / p.clock

/-- `SyncTime`, i2c_timing_calculator.hpp:144 -/
def syncTime (p : Params) : ℚ := filterDelay p + 2 / p.clock

/-- `clockPeriod`, e.g. i2c_timing_calculator.hpp:263 -/
def period (p : Params) (prescaler : Nat) : ℚ := (prescaler + 1 : ℚ) / p.clock

/-- i2c_timing_calculator.hpp:211-214 -/
def sdaDelMinTime (p : Params) : ℚ := max 0 (p.fall - filterMin - (p.dnf + 3) / p.clock)

/-- i2c_timing_calculator.hpp:216-221 -/
def sdaDelMaxTime (p : Params) : ℚ := max 0 (tHdDatMax (mode p) - p.rise - (p.dnf + 4) / p.clock - filterMax)

/-- `findHoldTimeSettings`, i2c_timing_calculator.hpp:208-242 -/
def findHoldTimeSettings (p : Params) (prescaler : Nat) : Option (Nat × Nat) :=
  (List.range 16).findSome? fun (sdaDel : Nat) =>
    if sdaDel * period p prescaler < sdaDelMinTime p ∨ sdaDel * period p prescaler > sdaDelMaxTime p then none
    else (List.range 16).findSome? fun (sclDel : Nat) =>
      if (sclDel + 1) * period p prescaler ≥ p.rise + tSuDatMin (mode p) then some (sdaDel, sclDel) else none

/-- `minimumSclLowHigh`, i2c_timing_calculator.hpp:260-285; `none` is an invalid result -/
def minimumSclLowHigh (p : Params) (prescaler : Nat) : Option (Nat × Nat) :=
  let low := ⌈max ((tLowMin (mode p) - syncTime p) / period p prescaler - 1) ((4 / p.clock + filterDelay p - syncTime p) / period p prescaler - 1)⌉
  let high := ⌈max ((tHighMin (mode p) - syncTime p) / period p prescaler - 1) ((1 / p.clock - syncTime p) / period p prescaler - 1)⌉
  if low > 255 ∨ high > 255 then none else some (low.toNat, high.toNat)

/-- `maximumSclSum`, i2c_timing_calculator.hpp:287-298 -/
def maximumSclSum (p : Params) (prescaler : Nat) : Nat :=
  ⌊max 0 (min ((1 / p.target * (1 + p.tolerance) - p.rise - p.fall - 2 * syncTime p) / period p prescaler - 2) 510)⌋.toNat

/-- `std::round`: halves away from zero -/
def roundQ (x : ℚ) : Int := if 0 ≤ x then ⌊x + 1 / 2⌋ else ⌈x - 1 / 2⌉

/-- `findBestSclHigh`, i2c_timing_calculator.hpp:300-313 -/
def findBestSclHigh (p : Params) (prescaler sclLow mn mx : Nat) : Nat :=
  let sclLowTime := (sclLow + 1) * period p prescaler + syncTime p
  let targetHigh := 1 / p.target - sclLowTime - p.rise - p.fall
  (max (mn : Int) (min (roundQ ((targetHigh - syncTime p) / period p prescaler - 1)) mx)).toNat

/-- time of one period of the clock line, i2c_timing_calculator.hpp:318-323 -/
def sclTime (p : Params) (prescaler sclLow sclHigh : Nat) : ℚ :=
  ((sclLow + 1) * period p prescaler + syncTime p) + ((sclHigh + 1) * period p prescaler + syncTime p) + p.rise + p.fall

/-- `calculateSpeed`, i2c_timing_calculator.hpp:315-327 -/
def calculateSpeed (p : Params) (prescaler sclLow sclHigh : Nat) : ℚ := 1 / sclTime p prescaler sclLow sclHigh

/-- i2c_timing_calculator.hpp:98 -/
def speedError (p : Params) (c : Nat × Nat × Nat) : ℚ := |calculateSpeed p c.1 c.2.1 c.2.2 / p.target - 1|

/-- the variables of `calculateTimings`, i2c_timing_calculator.hpp:73-77 -/
structure Best where
  found : Bool := false
  error : ℚ := 10000000000
  timing : Nat × Nat × Nat := (16, 0, 0)

/-- i2c_timing_calculator.hpp:97-106 -/
def step (p : Params) (b : Best) (c : Nat × Nat × Nat) : Best :=
  if speedError p c < p.tolerance ∧ speedError p c ≤ b.error ∧ c.1 ≤ b.timing.1 then ⟨true, speedError p c, c⟩ else b

/-- what the inner loop tries for a prescaler, i2c_timing_calculator.hpp:81-96 -/
def tries (p : Params) (prescaler : Nat) : List (Nat × Nat × Nat) :=
  if (findHoldTimeSettings p prescaler).isNone then []
  else match minimumSclLowHigh p prescaler with
  | none => []
  | some (lowMin, highMin) =>
    ((List.range (min (maximumSclSum p prescaler) 255 + 1)).filter (lowMin ≤ ·)).map fun sclLow =>
      (prescaler, sclLow, findBestSclHigh p prescaler sclLow highMin (min (maximumSclSum p prescaler - sclLow) 255))

/-- both loops, i2c_timing_calculator.hpp:79-108 -/
def search (p : Params) : Best := (List.range 16).reverse.foldl (fun b prescaler => (tries p prescaler).foldl (step p) b) {}

/-- `calculateTimings`, i2c_timing_calculator.hpp:60-125.  (If no prescaler is valid, the loops try nothing.) -/
def calculateTimings (p : Params) : Option Timings :=
  if p.fall > tFallMax (mode p) ∨ p.rise > tRiseMax (mode p) then none
  else if (search p).found then
    (findHoldTimeSettings p (search p).timing.1).map fun d => ⟨(search p).timing.1, d.1, d.2, (search p).timing.2.1, (search p).timing.2.2⟩
  else none

/-- `timingsToRegisterValue`, i2c_timing_calculator.hpp:127-136 -/
def timingsToRegisterValue (t : Timings) : BitVec 32 :=
  BitVec.ofNat 32 t.sclLow ||| (BitVec.ofNat 32 t.sclHigh <<< 8) ||| ((BitVec.ofNat 32 t.sdaDel &&& 0b1111) <<< 16) |||
    ((BitVec.ofNat 32 t.sclDel &&& 0b1111) <<< 20) ||| ((BitVec.ofNat 32 t.prescaler &&& 0b1111) <<< 28)

/-- the parameters of the driver, i2c_master.hpp.in:51-59 -/
def driverParams (clock target : Nat) (tolerance : ℚ) : Params := ⟨clock, target, tolerance, 0, true, 0, 0⟩

end Modm.I2cTiming
