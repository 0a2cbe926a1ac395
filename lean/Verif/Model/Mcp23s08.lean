import Mathlib.Logic.Function.Basic
/-!
The port expander MCP23S08 and its driver.

Models `/repo/src/modm/driver/gpio/mcp23s08.hpp:30-82` and `mcp23s08_impl.hpp:30-104`, byte by byte with the chip select.  The
expander is taken from the data sheet: a frame is its address with the direction, a register, and data; the register is
incremented after each byte of data, and writing GPIO writes OLAT.  Left out: delays and the interrupt pin.
-/

set_option autoImplicit false

namespace Model.Mcp23s08

abbrev Byte := BitVec 8

structure State where
  /-- The registers of the expander. -/
  regs : Nat → Byte
  /-- Levels from outside. -/
  pins : Byte
  selected : Bool
  /-- Bytes received in this frame, the newest first. -/
  frame : List Byte

/-- The expander: what a register reads as.  0x09 is GPIO, 0x00 IODIR, 0x01 IPOL, 0x0a OLAT. -/
def value (s : State) (r : Nat) : Byte :=
  if r = 9 then (s.pins &&& s.regs 0 ||| s.regs 10 &&& ~~~s.regs 0) ^^^ s.regs 1 else s.regs r

/-- The expander: the register the next byte of data is for. -/
def pointer (frame : List Byte) : Nat :=
  match frame.reverse with
  | _ :: r :: data => r.toNat + data.length
  | _ => 0

/-- The SPI with the expander: a byte is exchanged. -/
def spi (s : State) (b : Byte) : State × Byte :=
  if !s.selected then (s, 0xff#8)
  else
    let n := s.frame.length
    let p := pointer s.frame
    let op := s.frame.reverse.head?
    let answer := if n ≥ 2 ∧ op = some 0x41#8 then value s p else 0xff#8
    let regs := if n ≥ 2 ∧ op = some 0x40#8 then Function.update s.regs (if p = 9 then 10 else p) b else s.regs
    ({ s with regs := regs, frame := b :: s.frame }, answer)

def csReset (s : State) : State := { s with selected := true, frame := [] }
def csSet (s : State) : State := { s with selected := false }

/-- mcp23s08.hpp:77: `deviceAddress`; hpp:71-75: `WRITE`, `READ`. -/
def deviceAddress : Byte := 0x40#8
def WRITE : Byte := 0#8
def READ : Byte := 1#8

/-- mcp23s08_impl.hpp:43-47,56-60,64-68,97-101: a frame that writes a register. -/
def writeFrame (s : State) (r b : Byte) : State :=
  let s := csReset s
  let s := (spi s (deviceAddress ||| WRITE)).1
  let s := (spi s r).1
  let s := (spi s b).1
  csSet s

/-- mcp23s08_impl.hpp:30-50: `initialize()`. -/
def init (s : State) : State := writeFrame (csSet s) 0x05#8 (1#8 <<< 2)

/-- mcp23s08_impl.hpp:52-71: `configure()`. -/
def configure (s : State) (inputMask pullupMask : Byte) : State :=
  let s := writeFrame s 0x00#8 inputMask
  writeFrame s 0x06#8 pullupMask

/-- mcp23s08_impl.hpp:77-91: `read()`. -/
def read (s : State) : State × Byte :=
  let s := csReset s
  let s := (spi s (deviceAddress ||| READ)).1
  let s := (spi s 0x09#8).1
  let r := spi s 0x00#8
  (csSet r.1, r.2)

/-- mcp23s08_impl.hpp:93-104: `write()`. -/
def write (s : State) (output : Byte) : State := writeFrame s 0x09#8 output

inductive Op where
  | init
  | configure (inputMask pullupMask : Byte)
  | read
  | write (output : Byte)
  /-- The levels from outside change. -/
  | outside (pins : Byte)

def step (s : State) : Op → State × Option Byte
  | .init => (init s, none)
  | .configure i p => (configure s i p, none)
  | .read => let r := read s; (r.1, some r.2)
  | .write o => (write s o, none)
  | .outside p => ({ s with pins := p }, none)

def run (s : State) : List Op → State × List (Option Byte)
  | [] => (s, [])
  | o :: os => let r := step s o; let q := run r.1 os; (q.1, r.2 :: q.2)

/-- The expander after a reset: all pins are inputs. -/
def powerOn (pins : Byte) : State := ⟨fun r => if r = 0 then 0xff#8 else 0#8, pins, false, []⟩

end Model.Mcp23s08
