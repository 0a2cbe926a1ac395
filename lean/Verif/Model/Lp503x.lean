import Mathlib.Logic.Function.Basic
/-!
The LED driver LP5030/LP5036 with 30 or 36 channels.

Models `/repo/src/modm/driver/pwm/lp503x_impl.hpp.in:21-181` and `/repo/src/modm/driver/pwm/lp503x.hpp.in:21-233` (with the option
`multichannel_write`).  Each transaction on the bus either happens as a whole (`ok`) or fails and changes nothing.  The chip (data
sheet) has registers of eight bits; bytes of a transaction are written one after another, to consecutive addresses if the bit
AutoIncrement of DeviceConfig1 is set and otherwise all to the same one; writing 0xff to Reset restores the defaults.
-/

set_option autoImplicit false

namespace Model.Lp503x

abbrev Regs := Nat → BitVec 8

/-- Data sheet: the values after power-on and reset. -/
def defaults : Regs := fun a => if a = 0x01 then 0x3C#8 else if a = 0x04 then 0xFF#8 else if 0x08 ≤ a ∧ a < 0x14 then 0xFF#8 else 0#8

/-- Data sheet: one byte arrives. -/
def writeByte (r : Regs) (a : Nat) (v : BitVec 8) : Regs :=
  if a = 0x38 then (if v = 0xff#8 then defaults else r) else Function.update r a v

/-- Data sheet: a write transaction: the address and the bytes that follow. -/
def chipWrite (r : Regs) (a : Nat) : List (BitVec 8) → Regs
  | [] => r
  | v :: vs => chipWrite (writeByte r a v) (if (r 0x01).getLsbD 3 then a + 1 else a) vs

/-- lp503x_impl.hpp.in:155-163: `writeRegister()`. -/
def writeRegister (r : Regs) (ok : Bool) (reg : Nat) (v : BitVec 8) : Regs × Bool :=
  if ok then (chipWrite r reg [v], true) else (r, false)

/-- lp503x_impl.hpp.in:167-181: `writeRegisters()` with the buffer of `Channels + 1` bytes (lp503x.hpp.in:229). -/
def writeRegisters (channels : Nat) (r : Regs) (ok : Bool) (reg : Nat) (vs : List (BitVec 8)) : Regs × Bool :=
  if vs.length + 1 > channels + 1 then (r, false)
  else if ok then (chipWrite r reg vs, true) else (r, false)

/-- lp503x_impl.hpp.in:56-59: `setConfiguration()`. -/
def setConfiguration (r : Regs) (ok : Bool) (c : BitVec 8) : Regs × Bool := writeRegister r ok 0x01 (c ||| 0x08#8)

/-- lp503x_impl.hpp.in:28-38 and lp503x.hpp.in:98-102: `initialize()`. -/
def initializeChip (r : Regs) (ok1 ok2 : Bool) : Regs × Bool :=
  let p := writeRegister r ok1 0x38 0xff#8
  if p.2 = false then (p.1, false) else setConfiguration p.1 ok2 0x36#8

/-- lp503x_impl.hpp.in:42-45: `enable()`. -/
def enable (r : Regs) (ok : Bool) : Regs × Bool := writeRegister r ok 0x00 0x40#8

/-- lp503x_impl.hpp.in:49-52: `disable()`. -/
def disable (r : Regs) (ok : Bool) : Regs × Bool := writeRegister r ok 0x00 0#8

/-- lp503x_impl.hpp.in:63-73: `setChannelBrightness()`; the address is a byte. -/
def setChannelBrightness (channels : Nat) (r : Regs) (ok : Bool) (ch v : BitVec 8) : Regs × Bool :=
  let reg := (0x14#8 + ch).toNat
  if ch.toNat ≥ channels then (r, false) else writeRegister r ok reg v

/-- lp503x_impl.hpp.in:78-90: `setChannelBrightnessValues()`. -/
def setChannelBrightnessValues (channels : Nat) (r : Regs) (ok : Bool) (start : BitVec 8) (vs : List (BitVec 8)) : Regs × Bool :=
  if vs.length = 0 ∨ start.toNat + vs.length > channels then (r, false)
  else writeRegisters channels r ok (0x14#8 + start).toNat vs

/-- lp503x_impl.hpp.in:95-105: `setLedGroupBrightness()`. -/
def setLedGroupBrightness (channels : Nat) (r : Regs) (ok : Bool) (i v : BitVec 8) : Regs × Bool :=
  let reg := (0x08#8 + i).toNat
  if i.toNat ≥ channels / 3 then (r, false) else writeRegister r ok reg v

/-- lp503x_impl.hpp.in:109-117: `setBankModeEnabled()`. -/
def setBankModeEnabled (r : Regs) (ok : Bool) (m : BitVec 16) : Regs × Bool :=
  if ok then (chipWrite r 0x02 [(m &&& 0xff#16).setWidth 8, ((m &&& 0xf00#16) >>> 8).setWidth 8], true) else (r, false)

/-- lp503x_impl.hpp.in:121-124: `setBankABrightness()`. -/
def setBankABrightness (r : Regs) (ok : Bool) (v : BitVec 8) : Regs × Bool := writeRegister r ok 0x05 v

/-- lp503x_impl.hpp.in:128-131: `setBankBBrightness()`. -/
def setBankBBrightness (r : Regs) (ok : Bool) (v : BitVec 8) : Regs × Bool := writeRegister r ok 0x06 v

/-- lp503x_impl.hpp.in:135-138: `setBankCBrightness()`. -/
def setBankCBrightness (r : Regs) (ok : Bool) (v : BitVec 8) : Regs × Bool := writeRegister r ok 0x07 v

/-- lp503x_impl.hpp.in:142-145: `setBankBrightness()`. -/
def setBankBrightness (r : Regs) (ok : Bool) (v : BitVec 8) : Regs × Bool := writeRegister r ok 0x04 v

/-- Calls by the user; `ok` says whether the transaction succeeds. -/
inductive Op where
  | initialise (ok1 ok2 : Bool)
  | enable (ok : Bool)
  | disable (ok : Bool)
  | configure (ok : Bool) (c : BitVec 8)
  | channel (ok : Bool) (ch v : BitVec 8)
  | channels (ok : Bool) (start : BitVec 8) (vs : List (BitVec 8))
  | group (ok : Bool) (i v : BitVec 8)
  | bankMode (ok : Bool) (m : BitVec 16)
  | bankA (ok : Bool) (v : BitVec 8)
  | bankB (ok : Bool) (v : BitVec 8)
  | bankC (ok : Bool) (v : BitVec 8)
  | bankBrightness (ok : Bool) (v : BitVec 8)

def step (n : Nat) (r : Regs) : Op → Regs × Bool
  | .initialise a b => initializeChip r a b
  | .enable ok => enable r ok
  | .disable ok => disable r ok
  | .configure ok c => setConfiguration r ok c
  | .channel ok ch v => setChannelBrightness n r ok ch v
  | .channels ok s vs => setChannelBrightnessValues n r ok s vs
  | .group ok i v => setLedGroupBrightness n r ok i v
  | .bankMode ok m => setBankModeEnabled r ok m
  | .bankA ok v => setBankABrightness r ok v
  | .bankB ok v => setBankBBrightness r ok v
  | .bankC ok v => setBankCBrightness r ok v
  | .bankBrightness ok v => setBankBrightness r ok v

/-- The calls in order: the registers and the results returned. -/
def run (n : Nat) : Regs → List Op → Regs × List Bool
  | r, [] => (r, [])
  | r, op :: ops => ((run n (step n r op).1 ops).1, (step n r op).2 :: (run n (step n r op).1 ops).2)

/-- Data sheet: what an output shows: its colour value and the brightness by which it is multiplied; nothing while the chip is disabled. -/
def shown (r : Regs) (ch : Nat) : Option (BitVec 8 × BitVec 8) :=
  if (r 0x00).getLsbD 6 = false then none
  else if (if ch / 3 < 8 then (r 0x02).getLsbD (ch / 3) else (r 0x03).getLsbD (ch / 3 - 8)) then some (r (0x05 + ch % 3), r 0x04)
  else some (r (0x14 + ch), r (0x08 + ch / 3))

end Model.Lp503x
