import Verif.Model.Stm32Timer

/-! # What users expect of the timers of STM32

The hardware as the reference manuals describe it: when the counter of a timer has its update event, and
which bits of the registers belong to which channel. -/

set_option autoImplicit false

namespace Stm32TimerSpec

open Modm.Stm32Timer

/-! ## Time base -/

/-- The two counters of the hardware. -/
structure Hw where
  pre : Nat
  cnt : Nat
deriving DecidableEq, Repr

/-- One cycle of the clock of the timer in up-counting mode: the prescaler counts `0 … PSC`, the counter
`0 … ARR`, with an update event when it wraps.  With `ARR = 0` the counter is blocked. -/
def tick (b : Base) (h : Hw) : Hw × Bool :=
  if b.arr = 0 then (h, false)
  else if h.pre < b.psc then (⟨h.pre + 1, h.cnt⟩, false)
  else if h.cnt < b.arr then (⟨0, h.cnt + 1⟩, false)
  else (⟨0, 0⟩, true)

/-- The counters after `n` cycles, from an update event on. -/
def after (b : Base) : Nat → Hw
  | 0 => ⟨0, 0⟩
  | n + 1 => (tick b (after b n)).1

/-- There is an update event at the end of the `n`-th cycle (counted from 1) after an update event. -/
def updateAt (b : Base) (n : Nat) : Bool := match n with
  | 0 => false
  | k + 1 => (tick b (after b k)).2

/-- The timer has update events exactly every `p` cycles. -/
def HasPeriod (b : Base) (p : Nat) : Prop := ∀ n, updateAt b n = true ↔ 0 < n ∧ p ∣ n

/-! ## Channels -/

/-- The register that configures a channel. -/
def ccmr (r : Regs) (channel : Nat) : Word :=
  if channel ≤ 2 then r.ccmr1 else if channel ≤ 4 then r.ccmr2 else r.ccmr3

/-- Where the fields of a channel begin: odd channels are in the low byte (and bits 16…), even ones in the
next byte (and bits 24…). -/
def base (channel : Nat) : Nat := if channel % 2 = 1 then 0 else 8

/-- Bit `k` of the configuration of a channel, `k` is 0 to 7 or 16. -/
def bit (r : Regs) (channel k : Nat) : Bool := (ccmr r channel).getLsbD (base channel + k)

/-- The bits a channel has. -/
def Own (k : Nat) : Prop := k < 8 ∨ k = 16

/-- `OCxM[3:0]` as a number. -/
def modeOf (r : Regs) (channel : Nat) : Nat :=
  (bit r channel 4).toNat + 2 * (bit r channel 5).toNat + 4 * (bit r channel 6).toNat + 8 * (bit r channel 16).toNat

/-- The numbers of the modes in the reference manuals. -/
def number : Mode → Nat
  | .inactive => 0 | .highOnMatch => 1 | .lowOnMatch => 2 | .toggle => 3
  | .forceInactive => 4 | .forceActive => 5 | .pwm => 6 | .pwm2 => 7
  | .combined1 => 12 | .combined2 => 13 | .asymmetric1 => 14 | .asymmetric2 => 15

/-- `CCxS[1:0]`: 0 is an output. -/
def selection (r : Regs) (channel : Nat) : Nat := (bit r channel 0).toNat + 2 * (bit r channel 1).toNat

/-- `ICxPSC[1:0]`. -/
def capturePrescaler (r : Regs) (channel : Nat) : Nat := (bit r channel 2).toNat + 2 * (bit r channel 3).toNat

/-- `ICxF[3:0]`. -/
def captureFilter (r : Regs) (channel : Nat) : Nat :=
  (bit r channel 4).toNat + 2 * (bit r channel 5).toNat + 4 * (bit r channel 6).toNat + 8 * (bit r channel 7).toNat

/-- `OCxPE`. -/
def preloaded (r : Regs) (channel : Nat) : Bool := bit r channel 3

/-- Bit `k` of the four bits of a channel in `CCER`: enabled, active low, complementary output enabled,
complementary output active low. -/
def out (r : Regs) (channel k : Nat) : Bool := r.ccer.getLsbD (4 * (channel - 1) + k)

/-- The compare value of a channel. -/
def compareOf (r : Regs) (channel : Nat) : Word :=
  if channel ≤ 4 then r.words (channel - 1) else if channel = 5 then r.ccr5 else r.ccr6

/-- How many channels a timer has. -/
def channels (extended : Bool) : Nat := if extended then 6 else 4

/-- Nothing of another channel has changed. -/
def OthersSame (r r' : Regs) (channel : Nat) : Prop :=
  ∀ c, 1 ≤ c → c ≤ 6 → c ≠ channel →
    (∀ k, Own k → bit r' c k = bit r c k) ∧ (∀ k, k < 4 → out r' c k = out r c k) ∧ compareOf r' c = compareOf r c

/-- The dead time in cycles of the dead time clock for the byte `DTG`, from the reference manual.  (The comment
at advanced.hpp.in:345-353 has other offsets; the names of `DeadTimeResolution` are the ones of the manual for
a dead time clock of 8 MHz, i.e. cycles of 125 ns.) -/
def deadTime (dtg : Nat) : Nat :=
  if dtg < 128 then dtg
  else if dtg < 192 then (dtg % 64 + 64) * 2
  else if dtg < 224 then (dtg % 32 + 32) * 8
  else (dtg % 32 + 32) * 16

/-- Where a range of dead times begins and its step, in units of 125 ns: `From16usWith250nsStep` begins at
128 units with a step of 2 units, and so on. -/
def rangeStart : Resolution → Nat
  | .step1 => 0 | .step2 => 128 | .step8 => 256 | .step16 => 512
def rangeStep : Resolution → Nat
  | .step1 => 1 | .step2 => 2 | .step8 => 8 | .step16 => 16
/-- How many values a range has. -/
def rangeSize : Resolution → Nat
  | .step1 => 128 | .step2 => 64 | .step8 => 32 | .step16 => 32

/-- Where the idle state of an output of a channel is in `CR2`: `OISx` and `OISxN`. -/
def idleBit (channel : Nat) (complementary : Bool) : Nat := 8 + 2 * (channel - 1) + complementary.toNat

/-- The register `SR`: writing a zero clears a flag, writing a one leaves it. -/
def writeSr (sr word : Word) : Word := sr &&& word

end Stm32TimerSpec
