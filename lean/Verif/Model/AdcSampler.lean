import Mathlib.Init
set_option autoImplicit false

/-!
# `modm::AdcSampler` (`src/modm/driver/adc/adc_sampler.hpp`, `adc_sampler_impl.hpp`)

The interrupt of the converter runs `sampleAdc`; `getValue` is given to it as an argument.  Conversions which are
started are recorded with the channel that was set.  What is outside of the arrays `map` and `data`, which have
`Channels` elements, gives `none`.  The flags of the converter are not modelled.
-/

namespace Modm.AdcSampler

/-- `Channels`, `Oversamples` and `AdcInterrupt::Resolution`. -/
structure Cfg where
  channels : Nat
  over : Nat
  res : Nat

/-- `totalSamples` (`adc_sampler.hpp:44`), a `uint32_t`. -/
def Cfg.total (c : Cfg) : Nat := (c.over * c.channels) % 2 ^ 32

/-- The bits of `SampleType` (lines 46-52). -/
def Cfg.sampleBits (c : Cfg) : Nat := if c.total < 2 ^ 16 then (if c.total < 256 then 8 else 16) else 32

/-- The bits of `DataType` (lines 55-61); `modm::pow` (`math/utils/misc.hpp:52-56`) and the product are `uint32_t`. -/
def Cfg.dataBits (c : Cfg) : Nat :=
  let p := (2 ^ c.res % 2 ^ 32 * c.over) % 2 ^ 32
  if p < 2 ^ 16 then (if p < 256 then 8 else 16) else 32

/-- The static members (lines 96-101), and the channels of the conversions started, in order. -/
structure St where
  samples : Nat
  index : Nat
  newData : Bool
  data : Nat → Nat
  started : List Nat

/-- `setChannel(map[index]); startConversion();` -/
def convert (c : Cfg) (map : Nat → Nat) (s : St) : Option St :=
  if s.index < c.channels then some { s with started := s.started ++ [map s.index] } else none

def setData (s : St) (i v : Nat) : St := { s with data := fun k => if k = i then v else s.data k }

/-- `initialize` (`adc_sampler_impl.hpp:38-49`) with an array of the caller. -/
def init (data : Nat → Nat) : St := ⟨0, 0, false, data, []⟩

/-- Lines 59-62: the element is set to zero at the beginning, then the value is added. -/
def addSample (c : Cfg) (v : Nat) (s : St) : St :=
  let s := if s.samples ≤ c.channels then setData s s.index 0 else s
  setData s s.index ((s.data s.index + v) % 2 ^ c.dataBits)

/-- `sampleAdc` (lines 51-97); `v` is `AdcInterrupt::getValue()`. -/
def sampleAdc (c : Cfg) (map : Nat → Nat) (v : Nat) (s : St) : Option St :=
  if s.index < c.channels then
    if c.over > 1 then
      let s := addSample c v s
      let s := { s with samples := (s.samples + 1) % 2 ^ c.sampleBits }
      if s.samples ≤ c.total then
        let s := { s with index := (s.index + 1) % 256 }
        let s := if s.index ≥ c.channels then { s with index := 0 } else s
        convert c map s
      else
        some { s with
          data := fun k => if k < c.channels then s.data k / c.over else s.data k
          samples := 0
          index := 0
          newData := true }
    else
      let s := setData s s.index (v % 2 ^ c.dataBits)
      let s := { s with index := (s.index + 1) % 256 }
      if s.index < c.channels then convert c map s
      else some { s with index := 0, newData := true }
  else none

/-- `startReadout` (lines 99-111). -/
def startReadout (c : Cfg) (map : Nat → Nat) (s : St) : Option (Bool × St) :=
  if s.samples > 0 then some (false, s)
  else (convert c map { s with newData := false, index := 0 }).map (fun s => (true, s))

/-- `n` interrupts; the `k`-th reads `v k`. -/
def interrupts (c : Cfg) (map : Nat → Nat) (v : Nat → Nat) (s : St) : Nat → Option St
  | 0 => some s
  | n + 1 => (interrupts c map v s n).bind (sampleAdc c map (v n))

end Modm.AdcSampler
