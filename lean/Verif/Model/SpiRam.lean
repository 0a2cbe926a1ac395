import Mathlib.Logic.Function.Basic
/-!
The serial RAM on an SPI bus.

Models `/repo/src/modm/driver/storage/spi_ram_impl.hpp:61-164` and `spi_ram.hpp:140-147`.  The chip is in sequential mode (after
`initialize()`): the address of 15 bits counts up and wraps.  A byte on the bus does nothing if the chip is not selected or held.
-/

set_option autoImplicit false

namespace Model.SpiRam

structure Chip where
  selected : Bool
  held : Bool
  cmd : Option (BitVec 8)
  hi : Option (BitVec 8)
  addr : Option (BitVec 15)
  mem : BitVec 15 → BitVec 8

/-- `Cs`: the falling edge begins a command. -/
def csReset (c : Chip) : Chip :=
  if c.selected then c else { c with selected := true, cmd := none, hi := none, addr := none }

def csSet (c : Chip) : Chip := { c with selected := false }

/-- spi_ram.hpp:140-147: the instructions. -/
def READ : BitVec 8 := 0x03#8
def WRITE : BitVec 8 := 0x02#8

/-- `Spi::write()`: a byte on the bus and the answer of the chip (data sheet of 23K256). -/
def exchange (c : Chip) (b : BitVec 8) : Chip × BitVec 8 :=
  if c.selected = false ∨ c.held then (c, 0xff#8)
  else match c.cmd, c.hi, c.addr with
    | none, _, _ => ({ c with cmd := some b }, 0xff#8)
    | some _, none, _ => ({ c with hi := some b }, 0xff#8)
    | some _, some h, none => ({ c with addr := some ((h ++ b).setWidth 15) }, 0xff#8)
    | some k, some _, some a =>
      if k = 0x03#8 then ({ c with addr := some (a + 1#15) }, c.mem a)
      else if k = 0x02#8 then ({ c with addr := some (a + 1#15), mem := Function.update c.mem a b }, 0xff#8)
      else (c, 0xff#8)

/-- spi_ram_impl.hpp:62-70: `startRead()`. -/
def startRead (c : Chip) (address : BitVec 16) : Chip :=
  let c := csReset c
  let c := (exchange c READ).1
  let c := (exchange c ((address >>> 8).setWidth 8)).1
  (exchange c ((address &&& 0xff#16).setWidth 8)).1

/-- spi_ram_impl.hpp:73-81: `startWrite()`. -/
def startWrite (c : Chip) (address : BitVec 16) : Chip :=
  let c := csReset c
  let c := (exchange c WRITE).1
  let c := (exchange c ((address >>> 8).setWidth 8)).1
  (exchange c ((address &&& 0xff#16).setWidth 8)).1

/-- spi_ram_impl.hpp:92-99: `write()`. -/
def write (c : Chip) : List (BitVec 8) → Chip
  | [] => c
  | b :: bs => write (exchange c b).1 bs

/-- spi_ram_impl.hpp:110-117: `read()`. -/
def read (c : Chip) : Nat → Chip × List (BitVec 8)
  | 0 => (c, [])
  | n + 1 =>
    let (c, b) := exchange c 0#8
    let (c, bs) := read c n
    (c, b :: bs)

/-- spi_ram_impl.hpp:120-125: `suspend()`. -/
def suspend (c : Chip) : Chip := { c with held := true }

/-- spi_ram_impl.hpp:128-133: `resume()`. -/
def resume (c : Chip) : Chip := { c with held := false }

/-- spi_ram_impl.hpp:136-142: `finish()`. -/
def finish (c : Chip) : Chip := csSet (resume c)

/-- spi_ram_impl.hpp:145-153: `writeData()`. -/
def writeData (c : Chip) (address : BitVec 16) (data : List (BitVec 8)) : Chip := finish (write (startWrite c address) data)

/-- spi_ram_impl.hpp:156-164: `readData()`. -/
def readData (c : Chip) (address : BitVec 16) (size : Nat) : Chip × List (BitVec 8) :=
  let (c, data) := read (startRead c address) size
  (finish c, data)

end Model.SpiRam
