import Mathlib.Algebra.Order.Floor.Ring
import Mathlib.Data.Rat.Floor

set_option autoImplicit false

/-!
# Bit timings of CAN controllers

`src/modm/platform/can/common/can_bit_timings.hpp` with its users for the STM32 bxCAN (`stm32/can.hpp.in`, `stm32/can.cpp.in`) and FDCAN (`stm32-fdcan/can.hpp.in`, `can.cpp.in`; `sam-mcan`
writes the same fields), and `src/modm/driver/can/mcp2515_bit_timings.hpp` with `mcp2515_impl.hpp`.

Floats are rationals and every operation is rounded by a parameter `rnd`.
-/

namespace Modm.CanTiming

/-- `CanBitTimingConfiguration` (can_bit_timings.hpp:27-34); `sjw` is always one -/
structure Config where
  bs1 : Nat
  bs2 : Nat
  prescaler : Nat
  error : ℚ
  deriving DecidableEq

/-- `round_uint32` (can_bit_timings.hpp:62-69) -/
def roundU (rnd : ℚ → ℚ) (f : ℚ) : Nat :=
  let i := (⌊f⌋).toNat
  if rnd (f - rnd i) > 1 / 2 then i + 1 else i

/-- `idealPrescaler` (can_bit_timings.hpp:81) -/
def ideal (rnd : ℚ → ℚ) (clk bitrate n : Nat) : ℚ := rnd (rnd clk / rnd (bitrate * (1 + n) : Nat))

/-- the variables of the loop: `bestPrescaler`, `minError`, `bestBs1Bs2` -/
structure Best where
  prescaler : Nat
  error : ℚ
  n : Nat
  deriving DecidableEq

/-- `error` (can_bit_timings.hpp:85) -/
def error (rnd : ℚ → ℚ) (clk bitrate n : Nat) : ℚ :=
  |rnd (1 - rnd (rnd (roundU rnd (ideal rnd clk bitrate n)) / ideal rnd clk bitrate n))|

/-- one pass of the loop (can_bit_timings.hpp:80-92); `w` is `prescaler_width` -/
def pass (rnd : ℚ → ℚ) (clk bitrate w : Nat) (b : Best) (n : Nat) : Best :=
  let p := roundU rnd (ideal rnd clk bitrate n)
  if p < 2 ^ w - 1 ∧ error rnd clk bitrate n ≤ b.error then ⟨p % 2 ^ 16, error rnd clk bitrate n, n⟩ else b

/-- the loop (can_bit_timings.hpp:73-92) -/
def best (rnd : ℚ → ℚ) (clk bitrate w : Nat) : Best :=
  [14, 15, 16, 17, 18, 19, 20].foldl (pass rnd clk bitrate w) ⟨0, 10000, 0⟩

/-- `0.275f`, the nearest float -/
def c275 : ℚ := 4613735 / 16777216

/-- `calculateBestConfig` (can_bit_timings.hpp:71-98) -/
def bestConfig (rnd : ℚ → ℚ) (clk bitrate w : Nat) : Config :=
  let b := best rnd clk bitrate w
  let bs2 := roundU rnd (rnd (c275 * rnd (b.n + 1 : Nat)))
  ⟨b.n - bs2, bs2, b.prescaler, b.error⟩

/-- `getPrescaler`, which returns `uint8_t` (can_bit_timings.hpp:106) -/
def getPrescaler (c : Config) : Nat := c.prescaler % 2 ^ 8

/-- The template compiles: the assertions (can_bit_timings.hpp:114-130), with `tol` the tolerance. -/
def compiles (w w1 w2 : Nat) (tol : ℚ) (c : Config) : Prop :=
  c.error ≤ tol ∧ 0 < getPrescaler c ∧ getPrescaler c ≤ 2 ^ w ∧ c.bs1 ≤ 2 ^ w1 ∧ c.bs2 ≤ 2 ^ w2

instance (w w1 w2 : Nat) (tol : ℚ) (c : Config) : Decidable (compiles w w1 w2 tol c) := by unfold compiles; infer_instance

/-- `BTR` of the bxCAN in normal mode (stm32/can.hpp.in:113-124, stm32/can.cpp.in:143-148) -/
def btr (c : Config) : BitVec 32 :=
  (BitVec.ofNat 32 (c.bs2 - 1) <<< 20) ||| (BitVec.ofNat 32 (c.bs1 - 1) <<< 16) ||| BitVec.ofNat 32 (getPrescaler c - 1)

/-- `NBTP` of the FDCAN (stm32-fdcan/can.cpp.in:172-176, sam-mcan/can_impl.hpp:178-182) -/
def nbtp (c : Config) : BitVec 32 :=
  BitVec.ofNat 32 (c.bs2 - 1) ||| (BitVec.ofNat 32 (c.bs1 - 1) <<< 8) ||| (BitVec.ofNat 32 (c.prescaler - 1) <<< 16)

/-- `DBTP` of the FDCAN (stm32-fdcan/can.cpp.in:181-186, sam-mcan/can_impl.hpp:187-192) -/
def dbtp (c : Config) : BitVec 32 :=
  (BitVec.ofNat 32 (c.bs2 - 1) <<< 4) ||| (BitVec.ofNat 32 (c.bs1 - 1) <<< 8) ||| (BitVec.ofNat 32 (c.prescaler - 1) <<< 16)

/-! ### MCP2515 -/

/-- `CanBitTimingConfiguration` (mcp2515_bit_timings.hpp:27-33) -/
structure Mcp where
  sjw : Nat
  prop : Nat
  ps1 : Nat
  ps2 : Nat
  prescaler : Nat
  deriving DecidableEq

def mcpSjw (clk bitrate : Nat) : Nat :=
  if clk = 8000000 then 1 else if clk = 16000000 then 1 else if clk = 20000000 then (if bitrate = 1000000 then 1 else 3) else 0

def mcpProp (clk bitrate : Nat) : Nat :=
  if clk = 8000000 then 1 else if clk = 16000000 then (if bitrate = 1000000 then 1 else 3) else
  if clk = 20000000 then (if bitrate = 1000000 then 3 else 5) else 0

def mcpPs1 (clk bitrate : Nat) : Nat :=
  if clk = 8000000 then (if bitrate = 1000000 then 1 else 4) else if clk = 16000000 then (if bitrate = 1000000 then 4 else 8) else
  if clk = 20000000 then (if bitrate = 1000000 then 4 else 8) else 0

def mcpPs2 (clk bitrate : Nat) : Nat :=
  if clk = 8000000 then (if bitrate = 1000000 then 1 else 2) else if clk = 16000000 then (if bitrate = 1000000 then 2 else 4) else
  if clk = 20000000 then (if bitrate = 1000000 then 2 else 4) else 0

/-- `calculateBestConfig` (mcp2515_bit_timings.hpp:35-66) -/
def mcpConfig (clk bitrate : Nat) : Mcp :=
  let sjw := mcpSjw clk bitrate
  let prop := mcpProp clk bitrate
  let ps1 := mcpPs1 clk bitrate
  let ps2 := mcpPs2 clk bitrate
  ⟨sjw, prop, ps1, ps2, clk / (bitrate * (sjw + prop + ps1 + ps2)) % 2 ^ 8⟩

/-- The assertions (mcp2515_bit_timings.hpp:77-90).  The quotients of small numbers in the last two are compared as rationals; 3/4 and 4/5 (both sides rounded alike) included. -/
def mcpCompiles (clk bitrate : Nat) : Prop :=
  let c := mcpConfig clk bitrate
  let sum := c.sjw + c.prop + c.ps1 + c.ps2
  (1 ≤ c.sjw ∧ c.sjw ≤ 4) ∧ (1 ≤ c.prop ∧ c.prop ≤ 8) ∧ (1 ≤ c.ps1 ∧ c.ps1 ≤ 8) ∧ (1 ≤ c.ps2 ∧ c.ps2 ≤ 8) ∧
  (2 ≤ c.prescaler ∧ c.prescaler ≤ 128) ∧ c.ps2 ≤ c.prop + c.ps1 ∧ clk / c.prescaler / sum = bitrate ∧
  3 * sum ≤ 4 * (c.sjw + c.prop + c.ps1) ∧ 5 * (c.sjw + c.prop + c.ps1) ≤ 4 * sum

instance (clk bitrate : Nat) : Decidable (mcpCompiles clk bitrate) := by unfold mcpCompiles; infer_instance

/-- `CNF1`, `CNF2`, `CNF3` (mcp2515_impl.hpp:60-64) -/
def mcpCnf (c : Mcp) : BitVec 8 × BitVec 8 × BitVec 8 :=
  ((BitVec.ofNat 8 (c.sjw - 1) <<< 6) ||| (BitVec.ofNat 8 (c.prescaler / 2 - 1) &&& 0x3f#8),
   (1#8 <<< 7) ||| (BitVec.ofNat 8 (c.ps1 - 1) <<< 3) ||| BitVec.ofNat 8 (c.prop - 1),
   BitVec.ofNat 8 (c.ps2 - 1))

end Modm.CanTiming
