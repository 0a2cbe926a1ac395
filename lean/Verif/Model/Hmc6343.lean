import Mathlib.Logic.Function.Basic
/-!
The compass HMC6343 and its driver.

Models `/repo/src/modm/driver/inertial/hmc6343.hpp:122-366` and `hmc6343_impl.hpp:24-149`.  Calls run to their ends one after another, and
each transfer may fail.  The compass is taken from the data sheet: a command is followed by a read of what it posts.  Left out: the
time-outs between transfers, and the commands that change modes.
-/

set_option autoImplicit false

namespace Model.Hmc6343

abbrev Byte := BitVec 8

structure State where
  /-- What the compass posts after a command. -/
  post : Byte → Nat → Byte
  eeprom : Nat → Byte
  /-- The compass: the bytes it sends when read. -/
  pending : Nat → Byte
  /-- Does the compass acknowledge, for each transfer from the next one on? -/
  ack : Nat → Bool
  /-- hmc6343.hpp:364: `buffer[4]`. -/
  buffer : Nat → Byte
  /-- hmc6343.hpp:180: `data[21]` of `Data`. -/
  data : Nat → Byte

/-- The compass: bytes are received. -/
def receive (s : State) : List Byte → State
  | [cmd] => { s with pending := s.post cmd }
  | [cmd, reg] => if cmd = 0xe1#8 then { s with pending := fun _ => s.eeprom reg.toNat } else s
  | [cmd, reg, value] => if cmd = 0xf1#8 then { s with eeprom := Function.update s.eeprom reg.toNat value } else s
  | _ => s

/-- `startWrite(buffer, n)`, to its end. -/
def startWrite (s : State) (n : Nat) : State × Bool :=
  let ok := s.ack 0
  let s := { s with ack := fun k => s.ack (k + 1) }
  if ok then (receive s ((List.range n).map s.buffer), true) else (s, false)

/-- hmc6343_impl.hpp:27-40: `writeCommand()`. -/
def writeCommand (s : State) (cmd : Byte) : State × Bool := startWrite { s with buffer := Function.update s.buffer 0 cmd } 1

/-- hmc6343_impl.hpp:43-59: `writeRegister()`. -/
def writeRegister (s : State) (reg value : Byte) : State × Bool :=
  let b := Function.update (Function.update (Function.update s.buffer 0 0xf1#8) 1 reg) 2 value
  startWrite { s with buffer := b } 3

/-- hmc6343_impl.hpp:62-81: `writeRegister()` with 16 bits; the value of the second is read from the buffer after the first. -/
def writeRegister16 (s : State) (reg : Byte) (value : BitVec 16) : State × Bool :=
  let b := Function.update (Function.update s.buffer 2 (value.setWidth 8)) 3 ((value >>> 8).setWidth 8)
  let r := writeRegister { s with buffer := b } reg (b 2)
  if r.2 then writeRegister r.1 (reg + 1#8) (r.1.buffer 3) else (r.1, false)

/-- hmc6343_impl.hpp:84-107: `readRegister()`: a value if it is true. -/
def readRegister (s : State) (reg : Byte) : State × Option Byte :=
  let b := Function.update (Function.update s.buffer 0 0xe1#8) 1 reg
  let r := startWrite { s with buffer := b } 2
  if r.2 then
    let ok := r.1.ack 0
    let t := { r.1 with ack := fun k => r.1.ack (k + 1) }
    if ok then (t, some (t.pending 0)) else (t, none)
  else (r.1, none)

/-- hmc6343_impl.hpp:110-130: `readRegister()` with 16 bits: both bytes go to the buffer. -/
def readRegister16 (s : State) (reg : Byte) : State × Option (BitVec 16) :=
  match readRegister s reg with
  | (s, none) => (s, none)
  | (s, some l) =>
    let s := { s with buffer := Function.update s.buffer 2 l }
    match readRegister s (reg + 1#8) with
    | (s, none) => (s, none)
    | (s, some h) =>
      let s := { s with buffer := Function.update s.buffer 3 h }
      (s, some (s.buffer 3 ++ s.buffer 2))

/-- hmc6343_impl.hpp:133-149: `readPostData()`. -/
def readPostData (s : State) (cmd : Byte) (offset size : Nat) : State × Bool :=
  let r := writeCommand s cmd
  if r.2 then
    let ok := r.1.ack 0
    let t := { r.1 with ack := fun k => r.1.ack (k + 1) }
    if ok then ({ t with data := fun i => if offset ≤ i ∧ i < offset + size then t.pending (i - offset) else t.data i }, true) else (t, false)
  else (r.1, false)

/-- hmc6343.hpp:219-221,306-323: the calls that read data. -/
def readOperationMode (s : State) : State × Bool := readPostData s 0x65#8 20 1
def readAcceleration (s : State) : State × Bool := readPostData s 0x40#8 0 6
def readMagneticField (s : State) : State × Bool := readPostData s 0x45#8 6 6
def readHeading (s : State) : State × Bool := readPostData s 0x50#8 12 6
def readTilt (s : State) : State × Bool := readPostData s 0x55#8 14 6

/-- hmc6343.hpp:227-257: the calls that write and read the EEPROM. -/
def setMeasurementRate (s : State) (rate : Byte) : State × Bool := writeRegister s 0x05#8 rate
def setDeviationAngle (s : State) (angle : BitVec 16) : State × Bool := writeRegister16 s 0x0a#8 angle
def setVariationAngle (s : State) (angle : BitVec 16) : State × Bool := writeRegister16 s 0x0c#8 angle
def setIIRFilter (s : State) (filter : Byte) : State × Bool := writeRegister s 0x14#8 (filter &&& 0x0f#8)
def getDeviceId (s : State) : State × Option (BitVec 16) := readRegister16 s 0x06#8
def getIIRFilter (s : State) : State × Option Byte := readRegister s 0x14#8

/-- hmc6343.hpp:182-187: `swapData()`. -/
def swapData (s : State) (index : Nat) : BitVec 16 := s.data (2 * index) ++ s.data (2 * index + 1)

end Model.Hmc6343
