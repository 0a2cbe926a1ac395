import Mathlib.Logic.Function.Basic

set_option autoImplicit false

/-!
Model of the drivers of touch screens: src/modm/driver/touch (touch2046, ads7843, ft6x06).

The numbers are bounded natural numbers and integers; conversions to `uint16_t` are written out; `none` is undefined behaviour
(overflow of `int`, which has 32 bits).  Waiting for the bus and the delays are left out.
-/

namespace Modm.Touch

abbrev Byte := BitVec 8

/-! ## The converter TSC2046 (XPT2046, ADS7843) after its data sheet -/

/-- What the converter will send next, and the power-down bits of the last command.  A byte with the start bit 7 begins a conversion; its result of
12 bits comes behind one clock of busy: in the low seven bits of the next byte and the high five bits of the one after it. -/
structure Converter where
  pending : List Nat := []
  powerDown : Nat := 0

/-- One byte at time `k`.  `adc k c` is the result of a conversion of the input with the number `c` (bits 4-6) at time `k`, in differential mode with
12 bits (bits 2 and 3 are 0); the other modes are not used and measure 0. -/
def Converter.byte (adc : Nat → Nat → Nat) (s : Converter) (k : Nat) (c : Byte) : Nat × Converter :=
  let out := s.pending.headD 0
  if c.getLsbD 7 then
    let v := if c.getLsbD 3 || c.getLsbD 2 then 0 else adc k (c.toNat / 16 % 8)
    (out, ⟨[v / 32, v * 8 % 256], c.toNat % 4⟩)
  else (out, ⟨s.pending.tail, s.powerDown⟩)

/-- A transfer of the bytes `tx`, the first one at time `k`: the bytes received -/
def Converter.transfer (adc : Nat → Nat → Nat) : Converter → Nat → List Byte → List Nat × Converter
  | s, _, [] => ([], s)
  | s, k, c :: l =>
    let r := s.byte adc k c
    let q := Converter.transfer adc r.2 (k + 1) l
    (r.1 :: q.1, q.2)

/-! ## Touch2046 -/

def measureZ1 : Byte := 0xB1
def measureZ2 : Byte := 0xC1
def measureX : Byte := 0xD1
def measureY : Byte := 0x91
def powerdown : Byte := 0b11111100

/-- `bufferWrite`, touch2046.hpp:109-123 -/
def bufferWrite : List Byte :=
  [measureZ1, 0, measureZ2, 0, measureY, 0, measureX, 0, measureY, 0, measureX, 0, measureY, 0, measureX &&& powerdown, 0, 0]

/-- `modm::fromBigEndian(bufferRead[i]) >> 3`; `bytes` is the memory of `bufferRead` -/
def reading (bytes : List Nat) (i : Nat) : Nat := (bytes.getD (2 * i) 0 * 256 + bytes.getD (2 * i + 1) 0) / 8

/-- `getRawValues`, touch2046_impl.hpp:19-48: x, y, z and the state of the converter; `first` is the byte of the buffer before the received ones -/
def getRawValues (adc : Nat → Nat → Nat) (s : Converter) (k first : Nat) : (Nat × Nat × Nat) × Converter :=
  let t := s.transfer adc k bufferWrite
  let b := first :: t.1
  let z := (4095 + 65536 + reading b 1 - reading b 2) % 65536
  let y := (reading b 3 + reading b 5 + reading b 7) % 65536
  let x := (reading b 4 + reading b 6 + reading b 8) % 65536
  ((x, y, z), t.2)

/-- `Calibration`, touch2046.hpp:51-61 -/
structure Calibration where
  offsetX : Int := 0
  offsetY : Int := 0
  factorX : Int := 1000000
  factorY : Int := 1000000
  maxX : Nat := 240
  maxY : Nat := 320
  thresholdZ : Nat := 1500

/-- One coordinate in `getTouchPosition`, touch2046_impl.hpp:67-74: `std::min<uint16_t>(static_cast<int32_t>(x * factor) / 1'000'000 + offset, max)` -/
def scale (raw : Nat) (factor offset : Int) (limit : Nat) : Option Nat :=
  let p := raw * factor
  if p < -2 ^ 31 ∨ 2 ^ 31 ≤ p then none
  else some (min ((p.tdiv 1000000 + offset) % 65536).toNat limit)

/-- `getTouchPosition`, touch2046_impl.hpp:60-79 -/
def getTouchPosition (cal : Calibration) (adc : Nat → Nat → Nat) (s : Converter) (k first : Nat) : Option (Nat × Nat) :=
  let r := (getRawValues adc s k first).1
  match scale r.1 cal.factorX cal.offsetX cal.maxX, scale r.2.1 cal.factorY cal.offsetY cal.maxY with
  | some x, some y => some (x, y)
  | _, _ => none

/-- `isTouched`, touch2046_impl.hpp:51-57 -/
def isTouched (cal : Calibration) (adc : Nat → Nat → Nat) (s : Converter) (k first : Nat) : Bool :=
  decide ((getRawValues adc s k first).1.2.2 > cal.thresholdZ)

/-! ## ADS7843 -/

/-- `readData`, ads7843_impl.hpp:92-111 -/
def readData (adc : Nat → Nat → Nat) (s : Converter) (k : Nat) (command : Byte) : Nat × Converter :=
  let t := s.transfer adc k [command, 0, 0]
  ((t.1.getD 1 0 * 256 + t.1.getD 2 0) / 8 % 4096, t.2)

/-- `threshold`, ads7843.hpp:63 -/
def threshold : Nat := 2

/-- `abs(a - b)` of two `uint16_t` -/
def dist (a b : Nat) : Nat := if a ≤ b then b - a else a - b

/-- `getAverage`, ads7843_impl.hpp:29-60: `none` is the result false -/
def getAverage (b : Nat → Nat) : Option Nat :=
  let t0 := (b 0 + b 1 + b 2) / 3
  let t1 := (b 3 + b 4 + b 5) / 3
  let t2 := (b 6 + b 7 + b 8) / 3
  let m0 := dist t0 t1
  let m1 := dist t1 t2
  let m2 := dist t2 t0
  if m0 > threshold ∧ m1 > threshold ∧ m2 > threshold then none
  else if m0 < m1 then
    if m2 < m0 then some ((t0 + t2) / 2) else some ((t0 + t1) / 2)
  else if m2 < m1 then some ((t0 + t2) / 2)
  else some ((t1 + t2) / 2)

/-- The loop in `read`, ads7843_impl.hpp:73-78, from `count` on with at most `9 - count` passes: the samples and the count at the end; `sample i` are the
results of `readX` and `readY`, `pen i` is `Int::read()` after it -/
def collect (sample : Nat → Nat × Nat) (pen : Nat → Bool) : Nat → Nat → Nat
  | 0, count => count
  | fuel + 1, count => if !pen count && decide (count + 1 < 9) then collect sample pen fuel (count + 1) else count + 1

/-- `read`, ads7843_impl.hpp:65-90: the new value of `*point` if the result is true -/
def readPoint (sample : Nat → Nat × Nat) (pen : Nat → Bool) : Option (Nat × Nat) :=
  if collect sample pen 9 0 = 9 then
    match getAverage fun i => (sample i).1, getAverage fun i => (sample i).2 with
    | some x, some y => some (x, y)
    | _, _ => none
  else none

/-! ## FT6x06 -/

/-- `readTouches`, ft6x06_impl.hpp:41-54, with `read`, ft6x06_impl.hpp:72-81: the result and the new data; the chip sends the registers from the address
on that it was given; `ack` is the result of the transaction -/
def readTouches (regs : Nat → Byte) (ack : Bool) (data : List Byte) : Bool × List Byte :=
  let reg := 0x01
  let buffer := (List.range 14).map fun i => regs (reg + i)
  if ack then (true, buffer) else (false, data)

structure Contact where
  event : Byte
  x : Nat
  id : Nat
  y : Nat
deriving DecidableEq

/-- `Data::getTouch`, ft6x06.hpp:137-154; `none` is the result false -/
def getTouch (data : List Byte) (index : Nat) : Option Contact :=
  if index ≥ 2 then none
  else
    let d := fun i => data.getD (2 + index * 6 + i) 0
    some ⟨d 0 &&& 0xc0, ((d 0 &&& 0x0f) ++ d 1).toNat, (d 2 >>> 4).toNat, ((d 2 &&& 0x0f) ++ d 3).toNat⟩

/-- `Data::getGesture` and `Data::getPoints`, ft6x06.hpp:131-135 -/
def getGesture (data : List Byte) : Byte := data.getD 0 0
def getPoints (data : List Byte) : Nat := (data.getD 1 0).toNat

end Modm.Touch
