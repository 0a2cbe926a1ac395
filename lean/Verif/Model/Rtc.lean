import Mathlib.Logic.Function.Basic

/-!
# Real time clocks: MCP7941x and DS1302

Model of `/repo/src/modm/driver/rtc/mcp7941x.hpp`, `mcp7941x_impl.hpp`, `ds1302.hpp` and `ds1302_impl.hpp`.

Simplified: an I²C transaction of the MCP7941x is one step that succeeds or fails as a whole; resumable
functions run without interruption.  Delays of the DS1302 have no effect.  The chips are modelled beside
the drivers (see `Spec/Rtc.lean` for what is expected): the clock does not tick during the calls.
-/

set_option autoImplicit false

namespace Modm.Rtc

abbrev Byte := BitVec 8

/-! ## MCP7941x -/

/-- `DateTime` (mcp7941x.hpp:30-39). -/
structure DateTime where
  days : Byte
  months : Byte
  years : Byte
  seconds : Byte
  minutes : Byte
  hours : Byte
deriving DecidableEq, Repr

/-- `decodeBcd` (mcp7941x.hpp:64-68); the result is truncated to eight bits. -/
def decodeBcd (bcd : Byte) : Byte := BitVec.ofNat 8 (bcd.toNat / 16 * 10 + bcd.toNat % 16)

/-- `encodeBcd` (mcp7941x.hpp:70-74). -/
def encodeBcd (decimal : Byte) : Byte := BitVec.ofNat 8 (decimal.toNat / 10 * 16 + decimal.toNat % 10)

/-- The chip: its registers from address 0 on.  Bit 5 of register 3 (`OSCRUN`) tells whether the oscillator runs
and cannot be written. -/
structure Mcp where
  mem : Nat → Byte
  running : Bool

/-- A write transaction: the address, then bytes to consecutive registers. -/
def Mcp.write (m : Mcp) (addr : Nat) (bytes : List Byte) : Mcp :=
  { m with mem := fun i => if addr ≤ i then (bytes[i - addr]?).getD (m.mem i) else m.mem i }

/-- A read of one register. -/
def Mcp.read (m : Mcp) (i : Nat) : Byte :=
  if i = 3 then (m.mem 3 &&& ~~~(0x20 : Byte)) ||| (if m.running then 0x20 else 0) else m.mem i

/-- `setDateTime` (mcp7941x_impl.hpp:43-64); `ok1` and `ok2` tell whether the two transactions are acknowledged. -/
def setDateTime (m : Mcp) (dt : DateTime) (ok1 ok2 : Bool) : Mcp × Bool :=
  if ok1 then
    let m := m.write 0 [0x00, encodeBcd dt.minutes, encodeBcd dt.hours, 0x08, encodeBcd dt.days, encodeBcd dt.months, encodeBcd dt.years]
    if ok2 then (m.write 0 [encodeBcd dt.seconds ||| 0x80], true) else (m, false)
  else (m, false)

/-- `getDateTime` (mcp7941x_impl.hpp:24-41). -/
def getDateTime (m : Mcp) (ok : Bool) : Option DateTime :=
  if ok then some
    { seconds := decodeBcd (m.read 0 &&& 0x7f)
      minutes := decodeBcd (m.read 1)
      hours := decodeBcd (m.read 2 &&& 0x3f)
      days := decodeBcd (m.read 4)
      months := decodeBcd (m.read 5 &&& 0x1f)
      years := decodeBcd (m.read 6) }
  else none

/-- `oscillatorRunning` (mcp7941x_impl.hpp:66-76). -/
def oscillatorRunning (m : Mcp) (ok : Bool) : Bool :=
  if ok then decide (0 < (m.read 3 ||| 0x20).toNat) else false

/-! ## DS1302: the chip -/

/-- What the chip does between `CE` high and `CE` low. -/
inductive Phase where
  /-- `CE` is low -/
  | idle
  /-- receives the command, these bits so far -/
  | command (rx : List Bool)
  /-- receives data for this register, these bits so far -/
  | write (reg : Nat) (rx : List Bool)
  /-- sends this register (again and again), this many bits so far -/
  | read (reg : Nat) (n : Nat)
  /-- sends all registers, this many bits so far -/
  | burst (n : Nat)
  /-- anything else (RAM, trickle charger, burst write) -/
  | other
deriving Repr

/-- Data sheet of the DS1302: eight clock registers, the last one is the write protection. -/
structure Chip where
  regs : Nat → Byte
  phase : Phase
  sclk : Bool
  /-- the level on the line `IO`, none when the chip does not drive it -/
  out : Option Bool

/-- The byte of eight bits, the lowest first. -/
def fromBits (rx : List Bool) : Byte := BitVec.ofNat 8 (rx.foldr (fun b n => b.toNat + 2 * n) 0)

/-- The command byte: bit 7 is 1, bit 6 selects the RAM, bits 1 to 5 are the address (31 is a burst), bit 0 reads. -/
def decode (rx : List Bool) : Phase :=
  match rx with
  | [rd, a0, a1, a2, a3, a4, ram, one] =>
    if one = false ∨ ram = true then .other
    else
      let a := a0.toNat + 2 * a1.toNat + 4 * a2.toNat + 8 * a3.toNat + 16 * a4.toNat
      if a = 31 then (if rd then .burst 0 else .other)
      else if a < 8 then (if rd then .read a 0 else .write a [])
      else .other
  | _ => .command rx

/-- A rising edge of `SCLK` with the level on `IO`: the chip takes a bit. -/
def Chip.rise (c : Chip) (io : Bool) : Chip :=
  match c.phase with
  | .command rx => { c with sclk := true, phase := decode (rx ++ [io]) }
  | .write reg rx =>
    if rx.length = 7 then
      { c with sclk := true, phase := .other,
               regs := if reg = 7 ∨ (c.regs 7).getLsbD 7 = false then Function.update c.regs reg (fromBits (rx ++ [io])) else c.regs }
    else { c with sclk := true, phase := .write reg (rx ++ [io]) }
  | _ => { c with sclk := true }

/-- A falling edge of `SCLK`: the chip puts out the next bit. -/
def Chip.fall (c : Chip) : Chip :=
  match c.phase with
  | .read reg n => { c with sclk := false, phase := .read reg (n + 1), out := some ((c.regs reg).getLsbD (n % 8)) }
  | .burst n => { c with sclk := false, phase := .burst (n + 1), out := some ((c.regs (n / 8 % 8)).getLsbD (n % 8)) }
  | _ => { c with sclk := false }

/-! ## DS1302: the driver -/

/-- The chip and the pin `Io` of the driver: its direction and output latch. -/
structure St where
  chip : Chip
  output : Bool
  latch : Bool

def ceSet (s : St) : St := { s with chip := { s.chip with phase := .command [] } }
def ceReset (s : St) : St := { s with chip := { s.chip with phase := .idle, out := none } }
/-- `Sclk::set()`: an edge only if the line was low. -/
def sclkSet (s : St) : St :=
  if s.chip.sclk then s else { s with chip := s.chip.rise (if s.output then s.latch else (s.chip.out.getD false)) }
/-- `Sclk::reset()`: an edge only if the line was high. -/
def sclkReset (s : St) : St := if s.chip.sclk then { s with chip := s.chip.fall } else s
/-- `Io::read()`; `z` is the level when nobody drives the line. -/
def ioRead (z : Bool) (s : St) : Bool := if s.output then s.latch else s.chip.out.getD z

/-- One round of the loop of `writeByte` (ds1302_impl.hpp:33-42). -/
def writeRound (s : St) (byte : Byte) : St × Byte :=
  let s := sclkReset s
  let s := { s with latch := byte.getLsbD 0 }
  let s := sclkSet s
  (s, byte >>> 1)

def writeLoop : Nat → St → Byte → St
  | 0, s, _ => s
  | n + 1, s, byte => writeLoop n (writeRound s byte).1 (writeRound s byte).2

/-- `writeByte` (ds1302_impl.hpp:26-44). -/
def writeByte (s : St) (byte : Byte) : St := writeLoop 8 { s with output := true } byte

/-- `write` (ds1302_impl.hpp:46-60). -/
def write (s : St) (addr data : Byte) : St :=
  let s := ceSet s
  let s := writeByte s addr
  let s := writeByte s data
  let s := sclkReset s
  let s := { s with output := false }
  ceReset s

/-- One round of the loops in `read` and `readRtc` (ds1302_impl.hpp:73-82, 107-118). -/
def readRound (z : Bool) (s : St) (ret : Byte) : St × Byte :=
  let rr := ioRead z s
  let ret := (ret >>> 1) ||| (if rr then 0x80 else 0)
  let s := sclkSet s
  (sclkReset s, ret)

def readLoop (z : Bool) : Nat → St → Byte → St × Byte
  | 0, s, ret => (s, ret)
  | n + 1, s, ret => readLoop z n (readRound z s ret).1 (readRound z s ret).2

/-- `read` (ds1302_impl.hpp:62-87). -/
def read (z : Bool) (s : St) (addr : Byte) : St × Byte :=
  let s := ceSet s
  let s := writeByte s addr
  let s := { s with output := false }
  let r := readLoop z 8 s 0
  (ceReset r.1, r.2)

/-- The outer loop of `readRtc` (ds1302_impl.hpp:104-120). -/
def readBytes (z : Bool) : Nat → St → St × List Byte
  | 0, s => (s, [])
  | n + 1, s =>
    let r := readLoop z 8 s 0
    let q := readBytes z n r.1
    (q.1, r.2 :: q.2)

/-- `readRtc` (ds1302_impl.hpp:90-123). -/
def readRtc (z : Bool) (s : St) : St × List Byte :=
  let s := ceSet s
  let s := writeByte s 0xbf
  let s := { s with output := false }
  let s := sclkReset s
  let r := readBytes z 8 s
  (ceReset r.1, r.2)

/-- `initialize` (ds1302_impl.hpp:17-24) of a chip that has been switched on. -/
def init (regs : Nat → Byte) (latch : Bool) : St :=
  { chip := { regs := regs, phase := .idle, sclk := false, out := none }, output := false, latch := latch }

/-- `writeProtect` and `enableOscillator` (ds1302.hpp:138-148). -/
def writeProtect (s : St) (wp : Bool) : St := write s 0x8e (if wp then 0x80 else 0x00)
def enableOscillator (s : St) : St := write s 0x80 0x00

/-! ## DS1302: the data -/

/-- `doubleBcdToDecimal` (ds1302.hpp:99-105). -/
def doubleBcdToDecimal (val : Byte) : Nat := ((val &&& 0x70).toNat / 16 * 10 + (val &&& 0x0f).toNat) % 256

/-- The getters of `Data` (ds1302.hpp:34-91), `data` are the eight bytes. -/
def getSeconds (data : Nat → Byte) : Nat := doubleBcdToDecimal (data 0)
def getMinutes (data : Nat → Byte) : Nat := doubleBcdToDecimal (data 1)
def is24hours (data : Nat → Byte) : Bool := !(data 2).getLsbD 7
def isPm (data : Nat → Byte) : Bool := (data 2).getLsbD 5
def getHours (data : Nat → Byte) : Nat :=
  if is24hours data then doubleBcdToDecimal (data 2) else doubleBcdToDecimal (data 2 &&& 0x1f)
def getDate (data : Nat → Byte) : Nat := doubleBcdToDecimal (data 3)
def getMonth (data : Nat → Byte) : Nat := doubleBcdToDecimal (data 4)
def getDayOfWeek (data : Nat → Byte) : Nat := (data 5).toNat
def getYear (data : Nat → Byte) : Nat := (data 6).toNat
def isWriteProtected (data : Nat → Byte) : Bool := (data 7).getLsbD 7

end Modm.Rtc
