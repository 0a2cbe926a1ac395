import Mathlib.Logic.Function.Basic
/-!
The colour sensor TCS3472 and its driver.

Models `/repo/src/modm/driver/color/tcs3472.hpp:32-252` (registers, modes, `Data` and the calls defined there) and `tcs3472_impl.hpp:21-140`.
Calls run to their ends one after another, and each transfer may fail.  The sensor is taken from the data sheet: bits 5 and 6 of a
command are the protocol (0: the same register, 1: increasing addresses, 3: a special function, of which 6 clears the interrupt).
-/

set_option autoImplicit false

namespace Model.Tcs3472

abbrev Byte := BitVec 8

structure State where
  regs : Nat → Byte
  interrupt : Bool
  /-- Does the sensor acknowledge, for each transfer from the next one on? -/
  ack : Nat → Bool
  /-- tcs3472.hpp:171: `data[8]` of `Data`. -/
  data : Nat → Byte

/-- The sensor: a command with data. -/
def receive (s : State) : List Byte → State
  | [cmd] => if cmd = 0xe6#8 then { s with interrupt := false } else s
  | [cmd, value] => if cmd &&& 0xe0#8 = 0x80#8 then { s with regs := Function.update s.regs (cmd &&& 0x1f#8).toNat value } else s
  | _ => s

/-- The sensor: byte `i` that is read after a command. -/
def send (s : State) (cmd : Byte) (i : Nat) : Byte :=
  if cmd &&& 0xe0#8 = 0xa0#8 then s.regs ((cmd &&& 0x1f#8).toNat + i) else s.regs (cmd &&& 0x1f#8).toNat

/-- `runTransaction()` of a transfer that writes. -/
def transfer (s : State) (bytes : List Byte) : State × Bool :=
  let ok := s.ack 0
  let s := { s with ack := fun n => s.ack (n + 1) }
  if ok then (receive s bytes, true) else (s, false)

/-- tcs3472_impl.hpp:113-125: `writeRegister()`. -/
def writeRegister (s : State) (address value : Byte) : State × Bool := transfer s [0x80#8 ||| address, value]

/-- Two calls; the second only if the first one returns true. -/
def both (a : State × Bool) (b : State → State × Bool) : State × Bool := if a.2 then b a.1 else (a.1, false)

/-- tcs3472_impl.hpp:27-43: `setInterruptLowThreshold()`. -/
def setInterruptLowThreshold (s : State) (t : BitVec 16) : State × Bool :=
  both (writeRegister s 0x04#8 (t.setWidth 8)) fun s => writeRegister s 0x05#8 ((t >>> 8).setWidth 8)

/-- tcs3472_impl.hpp:45-60: `setInterruptHighThreshold()`. -/
def setInterruptHighThreshold (s : State) (t : BitVec 16) : State × Bool :=
  both (writeRegister s 0x06#8 (t.setWidth 8)) fun s => writeRegister s 0x07#8 ((t >>> 8).setWidth 8)

/-- tcs3472_impl.hpp:62-77: `setWaitTime()`. -/
def setWaitTime (s : State) (time : Byte) (long : Bool) : State × Bool :=
  both (writeRegister s 0x0d#8 (if long then 1#8 <<< 1 else 0#8)) fun s => writeRegister s 0x03#8 time

/-- tcs3472.hpp:195-197,205-212,227-229: `setGain()`, `setIntegrationTime()`, `initialize()`, `setInterruptPersistenceFilter()`. -/
def setGain (s : State) (gain : Byte) : State × Bool := writeRegister s 0x0f#8 gain
def setIntegrationTime (s : State) (time : Byte) : State × Bool := writeRegister s 0x01#8 time
def init (s : State) (flags : Byte) : State × Bool := writeRegister s 0x00#8 flags
def setInterruptPersistenceFilter (s : State) (v : Byte) : State × Bool := writeRegister s 0x0c#8 v

/-- tcs3472_impl.hpp:79-94: `configure()`. -/
def configure (s : State) (gain time : Byte) : State × Bool := both (setGain s gain) fun s => setIntegrationTime s time

/-- tcs3472_impl.hpp:98-110: `reloadInterrupt()`. -/
def reloadInterrupt (s : State) : State × Bool := transfer s [0x80#8 ||| 0x66#8]

/-- tcs3472.hpp:237-239: `readColor()`, and tcs3472_impl.hpp:127-140: `readRegisters()`. -/
def readColor (s : State) : State × Bool :=
  let ok := s.ack 0
  let s := { s with ack := fun n => s.ack (n + 1) }
  if ok then ({ s with data := fun i => if i < 8 then send s (0x80#8 ||| 0x20#8 ||| 0x14#8) i else s.data i }, true) else (s, false)

/-- tcs3472.hpp:166-168: `getValue()`. -/
def getValue (s : State) (index : Nat) : BitVec 16 := s.data (2 * index + 1) ++ s.data (2 * index)

/-- tcs3472.hpp:151-159: `getClear()`, `getRed()`, `getGreen()`, `getBlue()`. -/
def getClear (s : State) : BitVec 16 := getValue s 0
def getRed (s : State) : BitVec 16 := getValue s 1
def getGreen (s : State) : BitVec 16 := getValue s 2
def getBlue (s : State) : BitVec 16 := getValue s 3

/-- tcs3472.hpp:121-128: `Enable`. -/
def POWER_ON : Byte := 1#8 <<< 0
def ADC_ENABLE : Byte := 1#8 <<< 1
def WAIT_ENABLE : Byte := 1#8 <<< 3
def INTERRUPT_ENABLE : Byte := 1#8 <<< 4

/-- tcs3472.hpp:190-192: `Enable_PollingMode`, `Enable_InterruptMode`, `Enable_InterruptMode_Waittime`. -/
def pollingMode : Byte := POWER_ON ||| ADC_ENABLE
def interruptMode : Byte := pollingMode ||| INTERRUPT_ENABLE
def interruptModeWaittime : Byte := interruptMode ||| INTERRUPT_ENABLE

end Model.Tcs3472
