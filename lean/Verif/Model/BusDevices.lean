import Mathlib.Logic.Function.Basic

set_option autoImplicit false

/-!
Model of drivers of simple devices on a bus: the multiplexer PCA9548A and the channels of `I2cMultiplexer`, the LED controller PCA9685, the angle
sensor AS5047 and the digital to analogue converter MCP4922.

The devices are modelled after their data sheets.  A transaction has a result; a device that does not acknowledge does not change.  Simplified: a
transaction that fails fails at the address, so that no part of it reaches the device.
-/

namespace Modm.BusDevices

abbrev Byte := BitVec 8

/-! ## PCA9548A -/

/-- The register of the chip (a bit for each connected channel) and the members of the driver, driver/gpio/pca9548a.hpp:44-45 -/
structure Mux where
  chip : Byte
  current : Byte
  buffer : Byte

/-- `writeCommandRegister`, driver/gpio/pca9548a_impl.hpp:52-68; `ack` is the result of the transaction -/
def Mux.writeCommandRegister (s : Mux) (v : Byte) (ack : Bool) : Bool × Mux :=
  if s.current = v then (true, s)
  else (ack, ⟨if ack then v else s.chip, v, v⟩)

/-- `readCommandRegister`, driver/gpio/pca9548a_impl.hpp:39-50: the result, the value stored in the argument, and the state -/
def Mux.readCommandRegister (s : Mux) (ack : Bool) : Bool × Byte × Mux :=
  (ack, s.buffer, ⟨s.chip, s.buffer, if ack then s.chip else s.buffer⟩)

/-- `setActiveChannel`, driver/gpio/pca9548a_impl.hpp:25-37 -/
def Mux.setActiveChannel (s : Mux) (channel : Nat) (ack : Bool) : Bool × Mux :=
  if channel ≥ 8 then (false, s) else s.writeCommandRegister ((1 : Byte) <<< channel) ack

/-- `I2cMultiplexerChannel::start`, architecture/interface/i2c_multiplexer.hpp:95-107: the channels that the transaction reaches, `none` if it is not started -/
def Mux.start (s : Mux) (channel : Nat) (ack : Bool) : Option Byte × Mux :=
  let r := s.setActiveChannel channel ack
  if r.1 = false then (none, r.2) else (some r.2.chip, r.2)

inductive MuxOp where
  | write (v : Byte) (ack : Bool)
  | read (ack : Bool)
  | start (channel : Nat) (ack : Bool)

def Mux.op (s : Mux) : MuxOp → Mux
  | .write v a => (s.writeCommandRegister v a).2
  | .read a => (s.readCommandRegister a).2.2
  | .start c a => (s.start c a).2

/-! ## PCA9685 -/

/-- The registers of the chip -/
abbrev Regs := Nat → Byte

/-- One byte to the register `a`: the registers 0xFA to 0xFD are those of all sixteen channels at once -/
def store (r : Regs) (a : Nat) (b : Byte) : Regs :=
  if 0xfa ≤ a ∧ a ≤ 0xfd then fun i => if 6 ≤ i ∧ i < 0x46 ∧ (i - 6) % 4 = a - 0xfa then b else r i
  else Function.update r a b

/-- A transaction: the bytes go to the registers from `a` on if the bit AI of MODE1 is set, else all to `a` -/
def transaction (r : Regs) (a : Nat) : List Byte → Regs
  | [] => r
  | b :: l =>
    let r' := store r a b
    transaction r' (if r' 0 &&& 0x20 = 0 then a else a + 1) l

/-- `initialize`, driver/pwm/pca9685_impl.hpp:23-55; `ack` are the results of the transactions -/
def pcaInitialize (r : Regs) (mode1 mode2 : Byte) (ack : Nat → Bool) : Bool × Regs :=
  if !ack 0 then (false, r)
  else
    let r := transaction r 0x00 [mode1 ||| 0x20]
    if !ack 1 then (false, r)
    else
      let r := transaction r 0x01 [mode2]
      if !ack 2 then (false, r) else (true, transaction r 0xfa [0x00, 0x00])

/-- `setChannel`, driver/pwm/pca9685_impl.hpp:57-75 -/
def setChannel (r : Regs) (channel : Nat) (value : BitVec 16) (ack : Bool) : Bool × Regs :=
  if channel ≥ 16 then (false, r)
  else if ack then (true, transaction r ((0x08 + 4 * channel) % 256) [value.setWidth 8, (value >>> 8).setWidth 8 &&& 0x0f])
  else (false, r)

/-- `setAllChannels`, driver/pwm/pca9685_impl.hpp:77-91 -/
def setAllChannels (r : Regs) (value : BitVec 16) (ack : Bool) : Bool × Regs :=
  if ack then (true, transaction r 0xfc [value.setWidth 8, (value >>> 8).setWidth 8 &&& 0x0f]) else (false, r)

/-- The output of the channel at tick `t` of 4096 after the data sheet: the bits 4 of the high bytes are full off and full on; `none` if both counts are
the same, which the data sheet excludes -/
def output (r : Regs) (channel t : Nat) : Option Bool :=
  let on := (r (0x07 + 4 * channel)).toNat % 16 * 256 + (r (0x06 + 4 * channel)).toNat
  let off := (r (0x09 + 4 * channel)).toNat % 16 * 256 + (r (0x08 + 4 * channel)).toNat
  if (r (0x09 + 4 * channel)).getLsbD 4 then some false
  else if (r (0x07 + 4 * channel)).getLsbD 4 then some true
  else if on < off then some (decide (on ≤ t ∧ t < off))
  else if off < on then some (decide (t < off ∨ on ≤ t))
  else none

inductive PwmOp where
  | one (channel : Nat) (value : BitVec 16) (ack : Bool)
  | all (value : BitVec 16) (ack : Bool)

def pwmOp (r : Regs) : PwmOp → Regs
  | .one c v a => (setChannel r c v a).2
  | .all v a => (setAllChannels r v a).2

/-! ## AS5047 -/

/-- `as5047_setMsbToEvenParity`, driver/encoder/as5047.hpp:30-39 -/
def setMsbToEvenParity (num : BitVec 16) : BitVec 16 :=
  let par := 0x7fff &&& num
  let par := par ^^^ (par >>> 8)
  let par := par ^^^ (par >>> 4)
  let par := par ^^^ (par >>> 2)
  let par := par ^^^ (par >>> 1)
  ((par &&& 1) <<< 15) ||| (0x7fff &&& num)

/-- A read command, driver/encoder/as5047.hpp:72-82 -/
def readCommand (address : BitVec 16) : BitVec 16 := setMsbToEvenParity ((1 : BitVec 16) <<< 14 ||| address)

/-- Whether a frame has even parity -/
def evenParity (w : BitVec 16) : Bool := !((List.range 16).foldl (fun p i => p ^^ w.getLsbD i) false)

/-- The answer of the chip to a command, which comes with the next frame: bit 15 is the parity, bit 14 the error flag.  A command with an odd parity and
one whose bit 14 is not set (a write command) are not answered by a value. -/
def asAnswer (regs : BitVec 14 → BitVec 14) (error : Bool) (command : BitVec 16) : BitVec 16 :=
  let bad := error || !evenParity command
  let v : BitVec 16 := if evenParity command && command.getLsbD 14 then (regs (command.setWidth 14)).setWidth 16 else 0
  setMsbToEvenParity (v ||| (if bad then (1 : BitVec 16) <<< 14 else 0))

/-- `readout`, driver/encoder/as5047_impl.hpp:28-53: the stored data; the two transfers are sent and received with the high byte first -/
def asReadout (regs : BitVec 14 → BitVec 14) (error : Bool) : BitVec 16 :=
  let command := readCommand 0x3FFE
  let out1 : Byte := command.setWidth 8
  let out0 : Byte := (command >>> 8).setWidth 8
  let answer := asAnswer regs error (out0 ++ out1)
  let in0 : Byte := (answer >>> 8).setWidth 8
  let in1 : Byte := answer.setWidth 8
  in1.setWidth 16 ||| (in0.setWidth 16 <<< 8)

/-- `getAngleRaw`, driver/encoder/as5047.hpp:103-108 -/
def getAngleRaw (data : BitVec 16) : Nat := (data &&& 0x3fff).toNat

/-- `getAngleDeg`, driver/encoder/as5047.hpp:95-100, with rational numbers instead of floats: numerator and denominator -/
def getAngleDeg (data : BitVec 16) : Nat × Nat := (getAngleRaw data * 360, 16383)

/-! ## MCP4922 -/

/-- One channel: 12 bits, and whether it has the gain 2, is buffered, is switched on -/
structure Dac where
  value : Nat
  double : Bool
  buffered : Bool
  active : Bool
deriving DecidableEq

/-- The input registers and the outputs of the two channels -/
structure Dacs where
  inputA : Dac
  inputB : Dac
  outA : Dac
  outB : Dac

/-- A word of 16 bits, taken over when the chip select goes high; nothing changes if there were not 16 clocks -/
def Dacs.word (s : Dacs) (bytes : List Byte) : Dacs :=
  match bytes with
  | [h, l] =>
    let d : Dac := ⟨h.toNat % 16 * 256 + l.toNat, !h.getLsbD 5, h.getLsbD 6, h.getLsbD 4⟩
    if h.getLsbD 7 then { s with inputB := d } else { s with inputA := d }
  | _ => s

/-- `writeRegister`, driver/dac/mcp4922_impl.hpp:68-78 -/
def Dacs.writeRegister (s : Dacs) (v : BitVec 16) : Dacs := s.word [(v >>> 8).setWidth 8, (v &&& 0xff).setWidth 8]

def SHDN : BitVec 16 := (1 : BitVec 16) <<< 12
def GA : BitVec 16 := (1 : BitVec 16) <<< 13
def BUF : BitVec 16 := (1 : BitVec 16) <<< 14
def CHANNEL_B : BitVec 16 := (1 : BitVec 16) <<< 15

/-- `setChannelA`, driver/dac/mcp4922_impl.hpp:32-42 -/
def Dacs.setChannelA (s : Dacs) (value : BitVec 16) (doubleGain : Bool) : Dacs :=
  if doubleGain then s.writeRegister (BUF ||| SHDN ||| (value &&& 0x0fff)) else s.writeRegister (GA ||| BUF ||| SHDN ||| (value &&& 0x0fff))

/-- `setChannelB`, driver/dac/mcp4922_impl.hpp:44-54 -/
def Dacs.setChannelB (s : Dacs) (value : BitVec 16) (doubleGain : Bool) : Dacs :=
  if doubleGain then s.writeRegister (CHANNEL_B ||| BUF ||| SHDN ||| (value &&& 0x0fff)) else s.writeRegister (CHANNEL_B ||| GA ||| BUF ||| SHDN ||| (value &&& 0x0fff))

/-- `update`, driver/dac/mcp4922_impl.hpp:57-65: the outputs take over the input registers when LDAC goes low -/
def Dacs.update (s : Dacs) : Dacs := { s with outA := s.inputA, outB := s.inputB }

inductive DacOp where
  | a (value : BitVec 16) (doubleGain : Bool)
  | b (value : BitVec 16) (doubleGain : Bool)
  | update

def Dacs.op (s : Dacs) : DacOp → Dacs
  | .a v g => s.setChannelA v g
  | .b v g => s.setChannelB v g
  | .update => s.update

end Modm.BusDevices
