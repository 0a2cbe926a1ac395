import Mathlib.Logic.Function.Basic

/-!
# Timers of STM32

Model of `/repo/src/modm/platform/timer/stm32/general_purpose.hpp.in`, `general_purpose.cpp.in`,
`general_purpose_base.hpp.in`, `basic.hpp.in`, `advanced.hpp.in`, `advanced.cpp.in` and
`advanced_base.hpp.in`: the period, the channels, the compare values, the dead time, the idle states
and the acknowledged flags.

Simplified: registers are read and written without other accesses in between.  The positions of the
fields are the ones of the headers of the vendor (`OC1M` is `0x10070`, with its fourth bit
`OC1M_3 = 0x10000`, as in all families that have the combined modes).  Channels are in the range that the
timer has (`1..4`, or `1..6` for an extended advanced timer); other numbers are not modelled.
`setMode`, the slave and master modes and the interrupt vectors are left out.
-/

set_option autoImplicit false

namespace Modm.Stm32Timer

/-! ## Period -/

/-- `int64_t`: the value, or none when the calculation overflows (undefined behaviour). -/
def int64 (x : Int) : Option Int := if -2 ^ 63 ≤ x ∧ x < 2 ^ 63 then some x else none

/-- Conversion to `uint32_t`. -/
def toU32 (x : Int) : Nat := (x % 2 ^ 32).toNat

/-- `const uint32_t cycles = duration.count() * SystemClock::TimerN * Period::num / Period::den;`
(general_purpose.hpp.in:204-205, basic.hpp.in:129, advanced.hpp.in:188) for a duration that counts in
`int64_t`.  The division truncates. -/
def cyclesOf (count : Int) (freq : Nat) (num den : Nat) : Option Nat := do
  let a ← int64 (count * freq)
  let b ← int64 (a * num)
  pure (toU32 (b.tdiv den))

/-- The width of the counter: `Value` is `uint16_t` or `uint32_t`. -/
inductive Width where
  | w16 | w32
deriving DecidableEq, Repr

/-- `std::numeric_limits<Value>::max()`. -/
def Width.max : Width → Nat
  | .w16 => 65535
  | .w32 => 4294967295

/-- The prescaler of `setPeriod` (general_purpose.hpp.in:206-215): 64 bits wide for 32-bit timers, 32 bits
wide for the others, stored in 16 bits. -/
def prescalerOf (w : Width) (cycles : Nat) : Nat :=
  match w with
  | .w32 => ((cycles + w.max - 1) / w.max) % 2 ^ 16
  | .w16 => ((cycles + w.max - 1) % 2 ^ 32 / w.max) % 2 ^ 16

/-- The registers that determine the period. -/
structure Base where
  psc : Nat
  arr : Nat
deriving DecidableEq, Repr

/-- `setPrescaler` (general_purpose.hpp.in:166-171): the register has 16 bits. -/
def setPrescaler (b : Base) (prescaler : Nat) : Base := { b with psc := (prescaler + 2 ^ 16 - 1) % 2 ^ 16 }

/-- `getPrescaler` (general_purpose.hpp.in:173-177). -/
def getPrescaler (b : Base) : Nat := (b.psc + 1) % 2 ^ 16

/-- `setOverflow` (general_purpose.hpp.in:179-183). -/
def setOverflow (b : Base) (overflow : Nat) : Base := { b with arr := overflow }

/-- The tail of `setPeriod` (general_purpose.hpp.in:206-227): none when the prescaler is zero, as
`cycles / prescaler` is undefined then.  `cycles / prescaler - 1` is calculated in 32 bits and stored in
a `Value`. -/
def setCycles (w : Width) (b : Base) (cycles : Nat) : Option (Base × Nat) :=
  let prescaler := prescalerOf w cycles
  if prescaler = 0 then none
  else
    let overflow := (cycles / prescaler + 2 ^ 32 - 1) % 2 ^ 32 % (w.max + 1)
    some (setOverflow (setPrescaler b prescaler) overflow, overflow)

/-- `setPeriod<SystemClock>(duration)` (general_purpose.hpp.in:200-227, basic.hpp.in:126-142,
advanced.hpp.in:185-201).  The update event that applies the registers is part of the hardware, see
`Stm32TimerSpec.tick`. -/
def setPeriod (w : Width) (b : Base) (count : Int) (freq num den : Nat) : Option (Base × Nat) := do
  let cycles ← cyclesOf count freq num den
  setCycles w b cycles

/-! ## Channels -/

abbrev Word := BitVec 32

/-- The registers of the channels.  `words` are the words from `CCR1` on: `CCR1` to `CCR4` are the words 0
to 3, `BDTR` is word 4 (offsets 0x34 to 0x44 in the reference manuals); `CCR5` and `CCR6` are further behind. -/
structure Regs where
  cr2 : Word := 0
  ccmr1 : Word := 0
  ccmr2 : Word := 0
  ccmr3 : Word := 0
  ccer : Word := 0
  words : Nat → Word := fun _ => 0
  ccr5 : Word := 0
  ccr6 : Word := 0

/-- `OutputCompareMode` (general_purpose_base.hpp.in:109-180). -/
inductive Mode where
  | inactive | highOnMatch | lowOnMatch | toggle | forceInactive | forceActive | pwm | pwm2
  | combined1 | combined2 | asymmetric1 | asymmetric2
deriving DecidableEq, Repr

def oc1m0 : Word := 0x10
def oc1m1 : Word := 0x20
def oc1m2 : Word := 0x40
def oc1m3 : Word := 0x10000
/-- `TIM_CCMR1_OC1M`. -/
def oc1m : Word := 0x10070
/-- `TIM_CCMR1_OC1PE`. -/
def oc1pe : Word := 0x8

/-- The constants of `OutputCompareMode` (general_purpose_base.hpp.in:112-179). -/
def Mode.value : Mode → Word
  | .inactive => 0
  | .highOnMatch => oc1m0
  | .lowOnMatch => oc1m1
  | .toggle => oc1m1 ||| oc1m0
  | .forceInactive => oc1m2
  | .forceActive => oc1m2 ||| oc1m0
  | .pwm => oc1m2 ||| oc1m1
  | .pwm2 => oc1m2 ||| oc1m1 ||| oc1m0
  | .combined1 => oc1m3 ||| oc1m2
  | .combined2 => oc1m3 ||| oc1m2 ||| oc1m0
  | .asymmetric1 => oc1m3 ||| oc1m2 ||| oc1m1
  | .asymmetric2 => oc1m3 ||| oc1m2 ||| oc1m1 ||| oc1m0

/-- `flags <<= offset; flags |= CCMRn & ~(mask << offset);` -/
def merge (old flags mask : Word) (offset : Nat) : Word := (flags <<< offset) ||| (old &&& ~~~(mask <<< offset))

/-- The choice of the register of a channel (counted from 0) in all `configure…Channel` functions, e.g.
general_purpose.cpp.in:183-199 and advanced.cpp.in:183-212; only extended advanced timers have `CCMR3`. -/
def updateCcmr (extended : Bool) (r : Regs) (channel : Nat) (flags mask : Word) : Regs :=
  if channel ≤ 1 then { r with ccmr1 := merge r.ccmr1 flags mask (8 * channel) }
  else if extended = false ∨ channel ≤ 3 then { r with ccmr2 := merge r.ccmr2 flags mask (8 * (channel - 2)) }
  else { r with ccmr3 := merge r.ccmr3 flags mask (8 * (channel - 4)) }

/-- `CCER &= ~(mask << (channel * 4))`. -/
def clearCcer (r : Regs) (channel : Nat) (mask : Word) : Regs := { r with ccer := r.ccer &&& ~~~(mask <<< (channel * 4)) }

/-- `CCER |= flags << (channel * 4)`. -/
def setCcer (r : Regs) (channel : Nat) (flags : Word) : Regs := { r with ccer := r.ccer ||| (flags <<< (channel * 4)) }

/-- `setCompareValue` (general_purpose.hpp.in:679-683, advanced.hpp.in:529-543), the channel counted from 1. -/
def setCompareValue (extended : Bool) (r : Regs) (channel : Nat) (value : Word) : Regs :=
  if extended then
    if channel ≤ 4 then { r with words := Function.update r.words (channel - 1) value }
    else if channel = 5 then { r with ccr5 := value }
    else if channel = 6 then { r with ccr6 := value }
    else r
  else { r with words := Function.update r.words (channel - 1) value }

/-- `getCompareValue` (general_purpose.hpp.in:694-698, advanced.hpp.in:553-557), the same for all timers. -/
def getCompareValue (r : Regs) (channel : Nat) : Word := r.words (channel - 1)

/-- Positions in `CCER`: `CC1E`, `CC1P`, `CC1NE`, `CC1NP`. -/
def cc1e : Word := 0x1
def cc1p : Word := 0x2
def cc1ne : Word := 0x4
def cc1np : Word := 0x8

/-- `configureOutputChannel(channel, mode, compareValue, out, enableComparePreload)` of the general purpose
timers (general_purpose.cpp.in:164-204). -/
def configureOutputGp (r : Regs) (channel : Nat) (mode : Mode) (compare : Word) (out preload : Bool) : Regs :=
  let c := channel - 1
  let r := clearCcer r c (cc1np ||| cc1p ||| cc1e)
  let r := setCompareValue false r (c + 1) compare
  let flags := if preload then mode.value ||| oc1pe else mode.value
  let r := updateCcmr false r c flags 0xff
  if mode ≠ .inactive ∧ out = true then setCcer r c cc1e else r

/-- `configureOutputChannel(channel, mode, compareValue, out)` of the advanced timers
(advanced.cpp.in:168-217). -/
def configureOutputAdv (extended : Bool) (r : Regs) (channel : Nat) (mode : Mode) (compare : Word) (out : Bool) : Regs :=
  let c := channel - 1
  let r := clearCcer r c 0xf
  let r := setCompareValue extended r (c + 1) compare
  let r := updateCcmr extended r c (mode.value ||| oc1pe) 0xff
  if mode ≠ .inactive ∧ out = true then setCcer r c cc1e else r

/-- `PinState`, `OutputComparePolarity` and `OutputComparePreload` (general_purpose_base.hpp.in:183-230). -/
def pinState (b : Bool) : Word := if b then 1 else 0
def polarity (low : Bool) : Word := if low then cc1p else 0
def preloadFlag (b : Bool) : Word := if b then oc1pe else 0

/-- `configureOutputChannel(channel, mode, out, polarity, out_n, polarity_n, preload)`
(general_purpose.cpp.in:218-260, advanced.cpp.in:232-284): `lowP` and `lowN` say `ActiveLow`. -/
def configureOutputFull (extended : Bool) (r : Regs) (channel : Nat) (mode : Mode) (out lowP outN lowN preload : Bool) : Regs :=
  let c := channel - 1
  let r := clearCcer r c 0xf
  let r := updateCcmr extended r c (mode.value ||| preloadFlag preload) 0xff
  setCcer r c ((polarity lowN <<< 2) ||| (pinState outN <<< 2) ||| polarity lowP ||| pinState out)

/-- `configureOutputChannel(channel, mode, compareValue, out, polarity, out_n, polarity_n, preload)`
(general_purpose.cpp.in:206-216, advanced.cpp.in:219-230). -/
def configureOutputCompare (extended : Bool) (r : Regs) (channel : Nat) (mode : Mode) (compare : Word)
    (out lowP outN lowN preload : Bool) : Regs :=
  let r := clearCcer r (channel - 1) 0xf
  let r := setCompareValue extended r channel compare
  configureOutputFull extended r channel mode out lowP outN lowN preload

/-- `configureOutputChannel(channel, modeOutputPorts)` (advanced.cpp.in:286-330). -/
def configureOutputRaw (extended : Bool) (r : Regs) (channel : Nat) (modeOutputPorts : Word) : Regs :=
  let c := channel - 1
  let r := updateCcmr extended r c (modeOutputPorts &&& 0x70) oc1m
  { r with ccer := ((modeOutputPorts &&& 0xf) <<< (c * 4)) ||| (r.ccer &&& ~~~((0xf : Word) <<< (c * 4))) }

/-- `setInvertedPwm`, `setNormalPwm`, `forceInactive` and `forceActive` (general_purpose.hpp.in:495-643) with
the mode `Pwm2`, `Pwm`, `ForceInactive` and `ForceActive`. -/
def switchMode (r : Regs) (channel : Nat) (mode : Mode) : Regs := updateCcmr false r (channel - 1) mode.value oc1m

def setInvertedPwm (r : Regs) (channel : Nat) : Regs := switchMode r channel .pwm2
def setNormalPwm (r : Regs) (channel : Nat) : Regs := switchMode r channel .pwm
def forceInactive (r : Regs) (channel : Nat) : Regs := switchMode r channel .forceInactive
def forceActive (r : Regs) (channel : Nat) : Regs := switchMode r channel .forceActive

/-- `InputCapturePolarity` (general_purpose_base.hpp.in:211-216). -/
inductive Edge where
  | rising | falling | both
deriving DecidableEq, Repr

def Edge.value : Edge → Word
  | .rising => 0
  | .falling => cc1p
  | .both => cc1np ||| cc1p

/-- `TIM_CR2_TI1S`. -/
def ti1s : Word := 0x80

/-- `configureInputChannel(channel, input, prescaler, polarity, filter, xor_ch1_3)`
(general_purpose.cpp.in:119-161, advanced.cpp.in:110-165); `input` and `prescaler` are the values of
`InputCaptureMapping` (1 to 3) and `InputCapturePrescaler` (0 to 3). -/
def configureInput (extended : Bool) (r : Regs) (channel : Nat) (input prescaler : BitVec 2) (edge : Edge)
    (filter : BitVec 8) (xor13 : Bool) : Regs :=
  let c := channel - 1
  let r := clearCcer r c (cc1np ||| cc1p ||| cc1e)
  let flags := input.setWidth 32 ||| (prescaler.setWidth 32 <<< 2) ||| ((filter.setWidth 32 &&& 0xf) <<< 4)
  let r := updateCcmr extended r c flags 0xff
  let r := if c = 0 then
      (if xor13 then { r with cr2 := r.cr2 ||| ti1s } else { r with cr2 := r.cr2 &&& ~~~ti1s })
    else r
  setCcer r c (cc1e ||| edge.value)

/-- `configureInputChannel(channel, filter)` (general_purpose.cpp.in:90-117, advanced.cpp.in:81-108). -/
def configureFilter (r : Regs) (channel : Nat) (filter : BitVec 8) : Regs :=
  let c := channel - 1
  let r := clearCcer r c cc1e
  let r := updateCcmr false r c ((filter.setWidth 32 &&& 0xf) <<< 4) 0xf0
  setCcer r c cc1e

/-- `isChannelConfiguredAsInput` (general_purpose.cpp.in:281-304) of a timer with four channels:
`CC1S`, `CC2S`, `CC3S`, `CC4S` are `0x3`, `0x300`, `0x3`, `0x300`. -/
def isChannelConfiguredAsInput (r : Regs) (channel : Nat) : Bool :=
  match channel with
  | 1 => r.ccmr1 &&& 0x3 != 0
  | 2 => r.ccmr1 &&& 0x300 != 0
  | 3 => r.ccmr2 &&& 0x3 != 0
  | 4 => r.ccmr2 &&& 0x300 != 0
  | _ => false

/-! ## Dead time, idle states, flags -/

/-- `DeadTimeResolution` (general_purpose_base.hpp.in:234-241). -/
inductive Resolution where
  | step1 | step2 | step8 | step16
deriving DecidableEq, Repr

def Resolution.value : Resolution → Word
  | .step1 => 0
  | .step2 => 0x80
  | .step8 => 0x80 ||| 0x40
  | .step16 => 0x80 ||| 0x40 ||| 0x20

/-- The mask in `setDeadTime` (advanced.hpp.in:375-390). -/
def Resolution.bitmask : Resolution → BitVec 8
  | .step1 => 0x7f
  | .step2 => 0x3f
  | .step8 => 0x1f
  | .step16 => 0x1f

/-- `setDeadTime(resolution, deadTime)` (advanced.hpp.in:372-395, general_purpose.hpp.in:355-378) on the
register `BDTR`. -/
def setDeadTime (bdtr : Word) (resolution : Resolution) (deadTime : BitVec 8) : Word :=
  (bdtr &&& ~~~(0xff : Word)) ||| ((deadTime &&& resolution.bitmask).setWidth 32 ||| resolution.value)

/-- `setDeadTime(deadTime)` (advanced.hpp.in:354-361). -/
def setDeadTimeRaw (bdtr : Word) (deadTime : BitVec 8) : Word := (bdtr &&& ~~~(0xff : Word)) ||| deadTime.setWidth 32

/-- `OutputIdleState::Set` is `TIM_CR2_OIS1` (advanced_base.hpp.in:120-124). -/
def idleValue (set : Bool) : Word := if set then 0x100 else 0

/-- `setOutputIdleState` (advanced.hpp.in:324-335) on the register `CR2`. -/
def setOutputIdleState (cr2 : Word) (channel : Nat) (idle idleN : Bool) : Word :=
  let c := channel - 1
  let flags := cr2 &&& ((idleValue true <<< (c * 2)) ||| (idleValue true <<< (c * 2 + 1)))
  let flags := flags ||| (idleValue idle <<< (c * 2))
  flags ||| (idleValue idleN <<< (c * 2 + 1))

/-- The word that `acknowledgeInterruptFlags` writes to `SR` (general_purpose.hpp.in:747-753,
advanced.hpp.in:614-620). -/
def acknowledgeWord (flags : Word) : Word := ~~~flags

end Modm.Stm32Timer
