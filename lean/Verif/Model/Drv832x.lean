import Mathlib.Logic.Function.Basic

/-!
The driver for the gate drivers DRV832x: registers in memory and in the device.

Models `/repo/src/modm/driver/motor/drv832x_spi_impl.hpp` and `drv832x_spi.hpp`.  The registers 2 to 6 can be written.
While a transfer runs, other threads may call the accessors.
-/

set_option autoImplicit false

namespace Model.Drv832x

/-- drv832x_spi.hpp:334-347: the registers in memory, which were accessed, and the registers of the device. -/
structure St where
  shadow : Nat → BitVec 16
  accessed : BitVec 8
  device : Nat → BitVec 11

/-- drv832x_spi.hpp:355-374: an accessor sets a bit and returns a reference, through which the value is changed. -/
def access (s : St) (c : Nat × BitVec 16) : St :=
  { s with accessed := s.accessed ||| (1#8 <<< c.1), shadow := Function.update s.shadow c.1 c.2 }

/-- drv832x_spi_impl.hpp:137-140: the two bytes of a write. -/
def frame (address : Nat) (data : BitVec 16) : BitVec 8 × BitVec 8 :=
  (0#8 ||| (BitVec.ofNat 8 address <<< 3) ||| (((data >>> 8) &&& 0b111#16).setWidth 8), (data &&& 0xff#16).setWidth 8)

/-- drv832x_spi_impl.hpp:163-166: the two bytes of a read. -/
def readFrame (address : Nat) : BitVec 8 × BitVec 8 := ((1#8 <<< 7) ||| (BitVec.ofNat 8 address <<< 3), 0#8)

/-- The device (data sheet): bit 7 is one for a read, four bits of address, eleven bits of data; it always answers with
the register. -/
def transfer (device : Nat → BitVec 11) (f : BitVec 8 × BitVec 8) : (Nat → BitVec 11) × (BitVec 8 × BitVec 8) :=
  let address := (f.1.extractLsb' 3 4).toNat
  let old := device address
  let answer := ((old.extractLsb' 8 3).setWidth 8, old.extractLsb' 0 8)
  if f.1.getLsbD 7 then (device, answer)
  else (Function.update device address (f.1.extractLsb' 0 3 ++ f.2), answer)

/-- drv832x_spi_impl.hpp:125-149: `writeData()`; the changes `env` happen during the transfer. -/
def writeData (s : St) (address : Nat) (data : BitVec 16) (env : List (Nat × BitVec 16)) : St :=
  env.foldl access { s with device := (transfer s.device (frame address data)).1 }

/-- drv832x_spi_impl.hpp:151-176: `readData()`. -/
def readData (s : St) (address : Nat) : BitVec 16 :=
  let answer := (transfer s.device (readFrame address)).2
  answer.2.setWidth 16 ||| ((answer.1 &&& 0b111#8).setWidth 16 <<< 8)

/-- drv832x_spi_impl.hpp:101-121: a step of `commit()`. -/
def commitOne (env : Nat → List (Nat × BitVec 16)) (s : St) (r : Nat) : St :=
  if s.accessed &&& (1#8 <<< r) ≠ 0#8 then writeData s r (s.shadow r) (env r) else s

/-- drv832x_spi_impl.hpp:98-122: `commit()`. -/
def commit (env : Nat → List (Nat × BitVec 16)) (s : St) : St :=
  { [2, 3, 4, 5, 6].foldl (commitOne env) s with accessed := 0#8 }

end Model.Drv832x
