import Mathlib.Logic.Function.Basic
/-!
The colour sensor TCS3414 and its driver.

Models `/repo/src/modm/driver/color/tcs3414.hpp:128-213` (`Data`, `initialize()`, `setGain()`, `setIntegrationTime()`, `readColor()`) and
`tcs3414_impl.hpp:26-56`.  Calls run to their ends one after another.  The sensor is taken from the data sheet: a command with the
block protocol is followed by a number of bytes, which the sensor does not use, and by data for registers with increasing addresses;
reading a block gives a number of bytes first.
-/

set_option autoImplicit false

namespace Model.Tcs3414

abbrev Byte := BitVec 8

structure State where
  /-- The registers of the sensor, the number of bytes it sends first, and whether it acknowledges. -/
  regs : Nat → Byte
  count : Byte
  present : Bool
  /-- tcs3414.hpp:213: `buffer[3]`. -/
  buffer : Nat → Byte
  /-- tcs3414.hpp:154: `data[10]` of `Data`, and what follows it in memory. -/
  mem : Nat → Byte

/-- The sensor: data are written to registers with increasing addresses. -/
def store (regs : Nat → Byte) : Nat → List Byte → (Nat → Byte)
  | _, [] => regs
  | a, b :: bs => store (Function.update regs a b) (a + 1) bs

/-- The sensor: bytes are received; bit 7 of the first is set in a command, bits 5 and 6 the protocol. -/
def receive (regs : Nat → Byte) : List Byte → (Nat → Byte)
  | cmd :: _count :: data => if cmd &&& 0xe0#8 = 0xc0#8 then store regs (cmd &&& 0x1f#8).toNat data else regs
  | _ => regs

/-- The sensor: the byte `i` of a block read. -/
def send (s : State) (cmd : Byte) (i : Nat) : Byte := if i = 0 then s.count else s.regs ((cmd &&& 0x1f#8).toNat + (i - 1))

/-- tcs3414_impl.hpp:25-40: `writeRegister()`. -/
def writeRegister (s : State) (address value : Byte) : State × Bool :=
  let buffer := Function.update s.buffer 0 (0x80#8 ||| 0x40#8 ||| address)
  let buffer := Function.update buffer 2 value
  let s := { s with buffer := buffer }
  if s.present then ({ s with regs := receive s.regs ((List.range 2).map s.buffer) }, true) else (s, false)

/-- tcs3414_impl.hpp:42-56: `readRegisters()` to the place `at'` of the memory. -/
def readRegisters (s : State) (address : Byte) (at' count : Nat) : State × Bool :=
  let s := { s with buffer := Function.update s.buffer 0 (0x80#8 ||| 0x40#8 ||| address) }
  if s.present then
    ({ s with mem := fun i => if at' ≤ i ∧ i < at' + count then send s (s.buffer 0) (i - at') else s.mem i }, true)
  else (s, false)

/-- tcs3414.hpp:174-176: `initialize()`. -/
def init (s : State) : State × Bool := writeRegister s 0x00#8 0b11#8

/-- tcs3414.hpp:178-186: `setGain()`, `configure()`. -/
def setGain (s : State) (gain prescaler : Byte) : State × Bool := writeRegister s 0x07#8 (gain ||| prescaler)

/-- tcs3414.hpp:189-196: `setIntegrationTime()`. -/
def setIntegrationTime (s : State) (mode time : Byte) : State × Bool := writeRegister s 0x01#8 (mode ||| time)

/-- tcs3414.hpp:200-202: `readColor()`: `sizeof(data.data)` bytes from `data.data + 1` on. -/
def readColor (s : State) : State × Bool := readRegisters s 0x10#8 1 10

/-- tcs3414.hpp:149-151: `getValue()`. -/
def getValue (s : State) (index : Nat) : BitVec 16 := s.mem (2 + 2 * index + 1) ++ s.mem (2 + 2 * index)

/-- tcs3414.hpp:135-142: `getClear()`, `getRed()`, `getGreen()`, `getBlue()`. -/
def getClear (s : State) : BitVec 16 := getValue s 3
def getRed (s : State) : BitVec 16 := getValue s 1
def getGreen (s : State) : BitVec 16 := getValue s 0
def getBlue (s : State) : BitVec 16 := getValue s 2

end Model.Tcs3414
