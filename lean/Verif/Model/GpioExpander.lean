import Verif.Model.BitOps
import Mathlib.Logic.Function.Basic

set_option autoImplicit false

/-!
Model of the drivers of GPIO expanders `modm::Mcp23x17` (src/modm/driver/gpio/mcp23x17.hpp,
mcp23x17_impl.hpp, mcp23_transport_impl.hpp), `modm::Pca9535` (pca9535.hpp, pca9535_impl.hpp) and
`modm::Pca8574` (pca8574.hpp, pca8574_impl.hpp), each together with the registers of its chip, and of the
wrappers `modm::GpioExpanderPin` and `modm::GpioExpanderPort`
(src/modm/architecture/interface/gpio_expander.hpp).

A resumable function is one step here: it is run to its end.  A transfer is acknowledged (`ok`) and done, or is not
and leaves the chip as it was; transfers broken off between two bytes are not modelled.  The chips are modelled from
their data sheets as far as the drivers use them: registers, their addresses, power-on values, what a pin does.

`Mcp23x17::writePort` (mcp23x17_impl.hpp:171-186) is not modelled: it calls `clear` on a `modm::Flags`, which has no
such member (src/modm/architecture/interface/register.hpp:282-395).
-/

namespace Modm.GpioExpander

/-! ### `modm::Flags` (register.hpp:329-395): sets of pins -/

/-- `Flags::set` (register.hpp:334-336). -/
def Flags.set {w : Nat} (a b : BitVec w) : BitVec w := a ||| b
/-- `Flags::reset` (register.hpp:341-343). -/
def Flags.reset {w : Nat} (a b : BitVec w) : BitVec w := a &&& ~~~b
/-- `Flags::toggle` (register.hpp:348-350). -/
def Flags.toggle {w : Nat} (a b : BitVec w) : BitVec w := a ^^^ b
/-- `Flags::update` (register.hpp:358-363). -/
def Flags.update {w : Nat} (a b : BitVec w) (v : Bool) : BitVec w := if v then a ||| b else a &&& ~~~b
/-- `Flags::any` (register.hpp:384-386). -/
def Flags.any {w : Nat} (a b : BitVec w) : Bool := decide (a &&& b ≠ 0)
/-- `Flags::all` (register.hpp:381-383). -/
def Flags.all {w : Nat} (a b : BitVec w) : Bool := decide (a &&& b = b)

/-! ### MCP23017 and MCP23S17 -/

/-- Two bytes in a row, the lower first. -/
def word (f : Nat → BitVec 8) (a : Nat) : BitVec 16 := f (a + 1) ++ f a

/-- Writes two bytes in a row, the lower first. -/
def putWord (f : Nat → BitVec 8) (a : Nat) (v : BitVec 16) : Nat → BitVec 8 :=
  Function.update (Function.update f a (v.extractLsb' 0 8)) (a + 1) (v.extractLsb' 8 8)

/-- The driver (its union of `Memory` and `buffer`, mcp23x17.hpp:249-284) and the registers of the chip, by the
addresses mcp23x17.hpp:28-42. -/
structure Mcp where
  buffer : Nat → BitVec 8
  chip : Nat → BitVec 8

namespace Mcp

/-- Places of the members of `Memory` (mcp23x17.hpp:266-277); the same as the addresses of the registers. -/
abbrev IODIR : Nat := 0x00
abbrev IPOL : Nat := 0x02
abbrev GPINTEN : Nat := 0x04
abbrev DEFVAL : Nat := 0x06
abbrev INTCON : Nat := 0x08
abbrev IOCON : Nat := 0x0A
abbrev GPPU : Nat := 0x0C
abbrev INTF : Nat := 0x0E
abbrev GPIO : Nat := 0x12
abbrev OLAT : Nat := 0x14

/-- The chip takes one byte at an address: writing GPIO changes the output latch, INTF and INTCAP are read only
(data sheet; IOCON.BANK and SEQOP are 0). -/
def chipWrite (f : Nat → BitVec 8) (a : Nat) (b : BitVec 8) : Nat → BitVec 8 :=
  if a = 0x12 ∨ a = 0x13 then Function.update f (a + 2) b
  else if 0x0E ≤ a ∧ a ≤ 0x11 then f
  else Function.update f a b

/-- Levels of the wires: outputs are driven by the latch, the others by what is connected (`ext`). -/
def wires (f : Nat → BitVec 8) (ext : BitVec 16) : BitVec 16 :=
  (ext &&& word f IODIR) ||| (word f OLAT &&& ~~~ word f IODIR)

/-- The chip gives the byte at an address; GPIO shows the wires, inverted where IPOL says so (data sheet). -/
def chipRead (f : Nat → BitVec 8) (ext : BitVec 16) (a : Nat) : BitVec 8 :=
  if a = 0x12 then (wires f ext ^^^ word f IPOL).extractLsb' 0 8
  else if a = 0x13 then (wires f ext ^^^ word f IPOL).extractLsb' 8 8
  else f a

/-- `Transport::write` (mcp23_transport_impl.hpp:26-38 for I2C, 88-105 for SPI): one byte. -/
def write (ok : Bool) (reg : Nat) (v : BitVec 8) (s : Mcp) : Mcp :=
  if ok then { s with chip := chipWrite s.chip reg v } else s

/-- `Transport::write16` (mcp23_transport_impl.hpp:40-53, 107-125): the lower byte first; the chip counts up. -/
def write16 (ok : Bool) (reg : Nat) (v : BitVec 16) (s : Mcp) : Mcp :=
  if ok then
    { s with chip := chipWrite (chipWrite s.chip reg (v.extractLsb' 0 8)) (reg + 1) (v.extractLsb' 8 8) }
  else s

/-- `Transport::read(reg, buffer + off, len)` (mcp23_transport_impl.hpp:55-66, 127-146). -/
def read (ok : Bool) (ext : BitVec 16) (reg off len : Nat) (s : Mcp) : Mcp :=
  if ok then
    { s with buffer := fun k => if off ≤ k ∧ k < off + len then chipRead s.chip ext (reg + (k - off)) else s.buffer k }
  else s

/-- `Memory::Memory()` (mcp23x17.hpp:252-264): all pins are inputs, everything else is 0. -/
def fresh : Nat → BitVec 8 := fun k => if k < 2 then 0xff else 0

/-- The constructor (mcp23x17_impl.hpp:17-21), with whatever the chip holds. -/
def construct (chip : Nat → BitVec 8) : Mcp := { buffer := fresh, chip := chip }

/-- `initialize()` (mcp23x17_impl.hpp:23-43); `ack k` tells whether the `k`-th transfer is acknowledged.  What the
writes return is not looked at. -/
def init (ack : Nat → Bool) (ext : BitVec 16) (s : Mcp) : Mcp × Bool :=
  let s := { s with buffer := fresh }
  let s := write (ack 0) IOCON (s.buffer IOCON) s
  let s := write16 (ack 1) IODIR (word s.buffer IODIR) s
  let s := write16 (ack 2) IPOL (word s.buffer IPOL) s
  let s := write16 (ack 3) GPINTEN (word s.buffer GPINTEN) s
  let s := write16 (ack 4) DEFVAL (word s.buffer DEFVAL) s
  let s := write16 (ack 5) INTCON (word s.buffer INTCON) s
  let s := write16 (ack 6) GPPU (word s.buffer GPPU) s
  let s := write16 (ack 7) GPIO (word s.buffer GPIO) s
  let s := write16 (ack 8) OLAT (word s.buffer OLAT) s
  let s := read (ack 9) ext INTF 14 4 s
  (read (ack 10) ext IODIR 0 22 s, ack 10)

/-- The calls. -/
inductive Call where
  | setOutput (pins : BitVec 16)
  | setInput (pins : BitVec 16)
  | set (pins : BitVec 16)
  | reset (pins : BitVec 16)
  | toggle (pins : BitVec 16)
  | update (pins : BitVec 16) (value : Bool)
  | setPullUp (pins : BitVec 16)
  | resetPullUp (pins : BitVec 16)
  | setInvertInput (pins : BitVec 16)
  | resetInvertInput (pins : BitVec 16)
  | readInput
  deriving DecidableEq

/-- Changes a member of `Memory`. -/
def modify (off : Nat) (f : BitVec 16 → BitVec 16) (s : Mcp) : Mcp :=
  { s with buffer := putWord s.buffer off (f (word s.buffer off)) }

/-- One call (mcp23x17_impl.hpp:46-169, mcp23x17.hpp:174-176). -/
def step (c : Call) (ok : Bool) (ext : BitVec 16) (s : Mcp) : Mcp :=
  match c with
  | .setOutput pins =>
      let s := modify IODIR (Flags.reset · pins) s
      write16 ok IODIR (word s.buffer IODIR) s
  | .setInput pins =>
      let s := modify IODIR (Flags.set · pins) s
      let s := modify OLAT (Flags.reset · pins) s
      write16 ok IODIR (word s.buffer IODIR) s
  | .set pins =>
      let s := modify OLAT (Flags.set · (pins &&& ~~~ word s.buffer IODIR)) s
      write16 ok GPIO (word s.buffer OLAT) s
  | .reset pins =>
      let s := modify OLAT (Flags.reset · (pins &&& ~~~ word s.buffer IODIR)) s
      write16 ok GPIO (word s.buffer OLAT) s
  | .toggle pins =>
      let s := modify OLAT (Flags.toggle · (pins &&& ~~~ word s.buffer IODIR)) s
      write16 ok GPIO (word s.buffer OLAT) s
  | .update pins v =>
      let s := modify OLAT (Flags.update · (pins &&& ~~~ word s.buffer IODIR) v) s
      write16 ok GPIO (word s.buffer OLAT) s
  | .setPullUp pins =>
      let s := modify GPPU (Flags.set · pins) s
      write16 ok GPPU (word s.buffer GPPU) s
  | .resetPullUp pins =>
      let s := modify GPPU (Flags.reset · pins) s
      write16 ok GPPU (word s.buffer GPPU) s
  | .setInvertInput pins =>
      let s := modify IPOL (Flags.set · pins) s
      write16 ok IPOL (word s.buffer IPOL) s
  | .resetInvertInput pins =>
      let s := modify IPOL (Flags.reset · pins) s
      write16 ok IPOL (word s.buffer IPOL) s
  | .readInput => read ok ext GPIO 18 2 s

/-- A row of calls, each with the fate of its transfer and what is connected to the pins at that time. -/
def run (l : List (Call × Bool × BitVec 16)) (s : Mcp) : Mcp := l.foldl (fun s c => step c.1 c.2.1 c.2.2 s) s

/-- `isSet(pin)` (mcp23x17.hpp:135-140), for the pin with this number. -/
def isSet (s : Mcp) (i : Nat) : Bool := Flags.any (word s.buffer OLAT) (BitVec.twoPow 16 i)

/-- `getDirection(pin)` (mcp23x17.hpp:142-149): is it an output? -/
def isOutput (s : Mcp) (i : Nat) : Bool := !Flags.any (word s.buffer IODIR) (BitVec.twoPow 16 i)

/-- `read(pin)` (mcp23x17.hpp:167-172). -/
def readPin (s : Mcp) (i : Nat) : Bool := Flags.any (word s.buffer GPIO) (BitVec.twoPow 16 i)

/-- What the chip does with a pin: `some level` if it drives it. -/
def drives (s : Mcp) (i : Nat) : Option Bool :=
  if (word s.chip IODIR).getLsbD i then none else some ((word s.chip OLAT).getLsbD i)

/-- `GpioExpanderPin::setOutput(bool value)` (gpio_expander.hpp:214-218) of a pin of this expander:
`set(value)` only. -/
def pinSetOutput (i : Nat) (v : Bool) (ok : Bool) (ext : BitVec 16) (s : Mcp) : Mcp :=
  step (.update (BitVec.twoPow 16 i) v) ok ext s

end Mcp

/-! ### PCA9535 -/

/-- The driver (`Memory`, pca9535.hpp:228-253) and the registers of the chip; pairs of registers are one value here
(the chip changes between the two registers of a pair, data sheet). -/
structure Pca9535 where
  input : BitVec 16
  output : BitVec 16
  polarity : BitVec 16
  configuration : BitVec 16
  chipOutput : BitVec 16
  chipPolarity : BitVec 16
  chipConfiguration : BitVec 16

namespace Pca9535

/-- The constructor (pca9535_impl.hpp:17-21, pca9535.hpp:231-240) with a chip that has just been powered: its pins are
inputs and its output register is all ones (data sheet). -/
def powerOn : Pca9535 :=
  { input := 0, output := 0, polarity := 0, configuration := 0,
    chipOutput := 0xffff, chipPolarity := 0, chipConfiguration := 0xffff }

/-- `writeMemory` (pca9535_impl.hpp:148-158): the command and the two bytes of the value at `index`. -/
inductive Index where
  | output | polarity | configuration

def writeMemory (ok : Bool) (index : Index) (s : Pca9535) : Pca9535 :=
  if ok then
    match index with
    | .output => { s with chipOutput := s.output }
    | .polarity => { s with chipPolarity := s.polarity }
    | .configuration => { s with chipConfiguration := s.configuration }
  else s

/-- The calls. -/
inductive Call where
  | setOutput (pins : BitVec 16)
  | setInput (pins : BitVec 16)
  | set (pins : BitVec 16)
  | reset (pins : BitVec 16)
  | toggle (pins : BitVec 16)
  | update (pins : BitVec 16) (value : Bool)
  | writePort (data : BitVec 16)
  | setInvertInput (pins : BitVec 16)
  | resetInvertInput (pins : BitVec 16)
  | readInput
  deriving DecidableEq

/-- One call (pca9535_impl.hpp:23-172). -/
def step (c : Call) (ok : Bool) (ext : BitVec 16) (s : Pca9535) : Pca9535 :=
  match c with
  | .setOutput pins => writeMemory ok .configuration { s with configuration := Flags.reset s.configuration pins }
  | .setInput pins => writeMemory ok .configuration { s with configuration := Flags.set s.configuration pins }
  | .set pins => writeMemory ok .output { s with output := Flags.set s.output pins }
  | .reset pins => writeMemory ok .output { s with output := Flags.reset s.output pins }
  | .toggle pins => writeMemory ok .output { s with output := Flags.toggle s.output pins }
  | .update pins v => writeMemory ok .output { s with output := Flags.update s.output pins v }
  | .writePort data => writeMemory ok .output { s with output := data }
  | .setInvertInput pins => writeMemory ok .polarity { s with polarity := Flags.set s.polarity pins }
  | .resetInvertInput pins => writeMemory ok .polarity { s with polarity := Flags.reset s.polarity pins }
  | .readInput =>
      if ok then
        { s with input := ((ext &&& s.chipConfiguration) ||| (s.chipOutput &&& ~~~ s.chipConfiguration)) ^^^
                          s.chipPolarity }
      else s

/-- A row of calls. -/
def run (l : List (Call × Bool × BitVec 16)) (s : Pca9535) : Pca9535 :=
  l.foldl (fun s c => step c.1 c.2.1 c.2.2 s) s

/-- `isSet(pin)` (pca9535.hpp:116-121). -/
def isSet (s : Pca9535) (i : Nat) : Bool := Flags.any s.output (BitVec.twoPow 16 i)

/-- `getDirection(pin)` (pca9535.hpp:123-130): is it an output? -/
def isOutput (s : Pca9535) (i : Nat) : Bool := !Flags.any s.configuration (BitVec.twoPow 16 i)

/-- What the chip does with a pin. -/
def drives (s : Pca9535) (i : Nat) : Option Bool :=
  if s.chipConfiguration.getLsbD i then none else some (s.chipOutput.getLsbD i)

/-- `GpioExpanderPin::setOutput(bool value)` (gpio_expander.hpp:214-218). -/
def pinSetOutput (i : Nat) (v : Bool) (ok : Bool) (ext : BitVec 16) (s : Pca9535) : Pca9535 :=
  step (.update (BitVec.twoPow 16 i) v) ok ext s

end Pca9535

/-! ### PCA8574 -/

/-- The driver (pca8574.hpp:170-173) and the one register of the chip: a pin with a 0 is pulled low, a pin with a 1 is
released (weak pull-up). -/
structure Pca8574 where
  direction : BitVec 8
  output : BitVec 8
  input : BitVec 8
  chip : BitVec 8

namespace Pca8574

/-- The constructor (pca8574_impl.hpp:17-22) with a chip that has just been powered. -/
def powerOn : Pca8574 := { direction := 0xff, output := 0xff, input := 0xff, chip := 0xff }

/-- `writePort` (pca8574_impl.hpp:90-100). -/
def writePort (ok : Bool) (value : BitVec 8) (s : Pca8574) : Pca8574 :=
  let s := { s with output := value }
  if ok then { s with chip := s.output } else s

/-- The calls. -/
inductive Call where
  | setOutput (pins : BitVec 8)
  | setInput (pins : BitVec 8)
  | set (pins : BitVec 8)
  | reset (pins : BitVec 8)
  | toggle (pins : BitVec 8)
  | update (pins : BitVec 8) (value : Bool)
  | writePort (data : BitVec 8)
  | readInput
  deriving DecidableEq

/-- One call (pca8574.hpp:73-79, 119-121; pca8574_impl.hpp:24-116). -/
def step (c : Call) (ok : Bool) (ext : BitVec 8) (s : Pca8574) : Pca8574 :=
  match c with
  | .setOutput pins => { s with direction := Flags.set s.direction pins }
  | .setInput pins =>
      let s := { s with direction := Flags.reset s.direction pins, output := Flags.set s.output pins }
      writePort ok s.output s
  | .set pins =>
      let s := { s with output := Flags.set s.output pins }
      writePort ok s.output s
  | .reset pins =>
      let s := { s with output := Flags.reset s.output (pins &&& s.direction) }
      writePort ok s.output s
  | .toggle pins =>
      let s := { s with output := Flags.toggle s.output (pins &&& s.direction) }
      writePort ok s.output s
  | .update pins v =>
      let s := { s with output := Flags.update s.output (pins &&& s.direction) v }
      writePort ok s.output s
  | .writePort data => writePort ok data s
  | .readInput => if ok then { s with input := ext &&& s.chip } else s

/-- A row of calls. -/
def run (l : List (Call × Bool × BitVec 8)) (s : Pca8574) : Pca8574 :=
  l.foldl (fun s c => step c.1 c.2.1 c.2.2 s) s

/-- `isSet(pin)` (pca8574.hpp:93-98). -/
def isSet (s : Pca8574) (i : Nat) : Bool := Flags.any s.output (BitVec.twoPow 8 i)

/-- Does the chip pull this pin low? -/
def pullsLow (s : Pca8574) (i : Nat) : Bool := !s.chip.getLsbD i

end Pca8574

/-! ### `GpioExpanderPort` (gpio_expander.hpp:338-474) -/

namespace Port

/-- `dataMask` (gpio_expander.hpp:358, 426), converted to `PortType`. -/
def dataMask (w width : Nat) : BitVec w := BitVec.ofNat w (2 ^ width - 1)

/-- `portMask` (gpio_expander.hpp:359, 427). -/
def portMask (w start width : Nat) : BitVec w := dataMask w width <<< start

/-- `write(data)` (gpio_expander.hpp:390-396): the value given to `writePort`; `outputs` is `getOutputs()`. -/
def write {w : Nat} (start width : Nat) (outputs data : BitVec w) : BitVec w :=
  let data := (data &&& dataMask w width) <<< start
  (outputs &&& ~~~ portMask w start width) ||| data

/-- `read()` (gpio_expander.hpp:382-388); `inputs` is `getInputs()` after `readInput()`. -/
def read {w : Nat} (start width : Nat) (inputs : BitVec w) : BitVec w :=
  (inputs &&& portMask w start width) >>> start

/-- `StartIndexReversed` (gpio_expander.hpp:420): computed with the 32 bit type of `sizeof`, kept in 8 bits. -/
def startReversed (w start width : Nat) : Nat :=
  ((w / 2 + (2 ^ 32 - start) + (2 ^ 32 - width) + w / 2) % 2 ^ 32) % 256

/-- `write(data)` with reversed bits (gpio_expander.hpp:459-465); `rev` is `modm::bitReverse` for `PortType`. -/
def writeReversed {w : Nat} (rev : BitVec w → BitVec w) (start width : Nat) (outputs data : BitVec w) : BitVec w :=
  let data := rev (data <<< startReversed w start width)
  (outputs &&& ~~~ portMask w start width) ||| (data &&& portMask w start width)

/-- `read()` with reversed bits (gpio_expander.hpp:451-457). -/
def readReversed {w : Nat} (rev : BitVec w → BitVec w) (start width : Nat) (inputs : BitVec w) : BitVec w :=
  rev (inputs &&& portMask w start width) >>> startReversed w start width

end Port

end Modm.GpioExpander
