import Mathlib.Logic.Function.Basic

/-!
Text on character displays: `CharacterDisplay` (src/modm/ui/display), the
drivers of the HD44780 with one and with two controllers and of the ST7036
(src/modm/driver/display).

The controller (`Chip`) follows the data sheet of the HD44780: address counter,
both memories, the interface of four or eight lines and the busy time.  It is
the environment of the driver, not part of the code.  Time is counted in
microseconds and passes only where the code waits; the time of the instructions
of the processor comes in addition and only shortens `busy`.  The shift of the
whole display is left out, the driver has no command for it.
-/

set_option autoImplicit false

namespace CharDisplay

/-- The HD44780: number of lines of the interface, the half of a byte it has
already got, the mode of lines, on, direction, memory addressed, address
counter, both memories, time it is still busy, number of executed bytes. -/
structure Chip where
  mode8 : Bool
  half : Option (BitVec 4)
  two : Bool
  on : Bool
  inc : Bool
  cg : Bool
  ac : Nat
  ddram : Nat → BitVec 8
  cgram : Nat → BitVec 8
  busy : Nat
  count : Nat

/-- Wiring and speed: eight data lines or four, what the controller sees on
lines that are not connected, and how long the `n`-th byte keeps it busy. -/
structure Cfg where
  eight : Bool
  float : BitVec 4
  dur : Nat → Bool → BitVec 8 → Nat

/-- The address counter after an access to the display memory (data sheet): with
two lines 0x00-0x27 and 0x40-0x67, with one 0x00-0x4F. -/
def nextAddr (two inc : Bool) (a : Nat) : Nat :=
  if inc then
    if two then if a = 0x27 then 0x40 else if a = 0x67 then 0 else a + 1
    else if a = 0x4F then 0 else a + 1
  else
    if two then if a = 0 then 0x67 else if a = 0x40 then 0x27 else a - 1
    else if a = 0 then 0x4F else a - 1

/-- Moves the address counter by one. -/
def Chip.move (c : Chip) (inc : Bool) : Chip :=
  { c with ac := if c.cg then (if inc then c.ac + 1 else c.ac + 63) % 64 else nextAddr c.two inc c.ac }

/-- What a byte does (data sheet, table of instructions). -/
def Chip.effect (c : Chip) (rs : Bool) (b : BitVec 8) : Chip :=
  if rs then
    (if c.cg then { c with cgram := Function.update c.cgram c.ac b }
     else { c with ddram := Function.update c.ddram c.ac b }).move c.inc
  else if b.getLsbD 7 then { c with ac := b.toNat % 128, cg := false }
  else if b.getLsbD 6 then { c with ac := b.toNat % 64, cg := true }
  else if b.getLsbD 5 then { c with mode8 := b.getLsbD 4, two := b.getLsbD 3 }
  else if b.getLsbD 4 then (if b.getLsbD 3 then c else c.move (b.getLsbD 2))
  else if b.getLsbD 3 then { c with on := b.getLsbD 2 }
  else if b.getLsbD 2 then { c with inc := b.getLsbD 1 }
  else if b.getLsbD 1 then { c with ac := 0, cg := false }
  else if b.getLsbD 0 then { c with ddram := fun _ => 0x20#8, ac := 0, cg := false, inc := true }
  else c

/-- Execution of a byte, keeping the controller busy. -/
def Chip.exec (g : Cfg) (c : Chip) (rs : Bool) (b : BitVec 8) : Chip :=
  { c.effect rs b with busy := g.dur c.count rs b, count := c.count + 1 }

/-- A pulse of the enable line with `d` on the data lines.  The controller must
not be busy. -/
def Chip.writePulse (g : Cfg) (c : Chip) (rs : Bool) (d : BitVec 8) : Option Chip :=
  if c.busy ≠ 0 then none
  else if c.mode8 then some (c.exec g rs d)
  else match c.half with
    | none => some { c with half := some (d.extractLsb' 4 4) }
    | some h => some ({ c with half := none }.exec g rs (h ++ d.extractLsb' 4 4))

/-- The controller after `t` microseconds. -/
def Chip.wait (c : Chip) (t : Nat) : Chip := { c with busy := c.busy - t }

/-- Busy flag and address counter. -/
def Chip.status (c : Chip) : BitVec 8 :=
  BitVec.ofBool (c.busy ≠ 0) ++ BitVec.ofNat 7 c.ac

/-- A pulse of the enable line while reading the status; the data are taken a
microsecond after its beginning. -/
def Chip.readPulse (c : Chip) : BitVec 8 × Chip :=
  let c := c.wait 1
  if c.mode8 then (c.status, c)
  else match c.half with
    | none => (c.status.extractLsb' 4 4 ++ 0#4, { c with half := some 0 })
    | some _ => (c.status.extractLsb' 0 4 ++ 0#4, { c with half := none })

/-! ### `Hd44780Base` -/

/-- The data lines with four bits of a port of four pins, which are connected to
the upper four lines. -/
def lines4 (g : Cfg) (n : BitVec 4) : BitVec 8 := n ++ g.float

/-- `Bus::write`, hd44780_base_impl.hpp:188-207 and 243-254. -/
def busWrite (g : Cfg) (c : Chip) (rs : Bool) (b : BitVec 8) : Option Chip :=
  if g.eight then c.writePulse g rs b
  else (c.writePulse g rs (lines4 g (b.extractLsb' 4 4))).bind fun c =>
    c.writePulse g rs (lines4 g (b.extractLsb' 0 4))

/-- `Bus::writeHighNibble`, hd44780_base_impl.hpp:209-215 and 257-263. -/
def highNibble (g : Cfg) (c : Chip) (b : BitVec 8) : Option Chip :=
  if g.eight then c.writePulse g false b
  else c.writePulse g false (lines4 g (b.extractLsb' 4 4))

/-- `Bus::read` of the status, hd44780_base_impl.hpp:217-240 and 265-279. -/
def busRead (g : Cfg) (c : Chip) : BitVec 8 × Chip :=
  let r := c.readPulse
  if g.eight then r
  else
    let r' := r.2.readPulse
    (r.1.extractLsb' 4 4 ++ r'.1.extractLsb' 4 4, r'.2)

/-- `isBusy`, hd44780_base_impl.hpp:159-171: two microseconds more when busy. -/
def isBusy (g : Cfg) (c : Chip) : Bool × Chip :=
  let r := busRead g c
  if r.1 &&& 0x80#8 ≠ 0 then (true, r.2.wait 2) else (false, r.2)

/-- `writeCommand`, `writeRAM`, hd44780_base_impl.hpp:99-122; `rs` tells them
apart.  `writeAddress` (84-96) is `writeCommand` of `0x80 | (address & 0x7f)`. -/
def tryWrite (g : Cfg) (c : Chip) (rs : Bool) (b : BitVec 8) : Option (Bool × Chip) :=
  let r := isBusy g c
  if r.1 then some (false, r.2) else (busWrite g r.2 rs b).map fun c => (true, c)

/-- `while(!writeCommand(…)) ;` with at most `n` turns. -/
def send (g : Cfg) : Nat → Chip → Bool → BitVec 8 → Option Chip
  | 0, _, _, _ => none
  | n + 1, c, rs, b =>
    match tryWrite g c rs b with
    | none => none
    | some (true, c) => some c
    | some (false, c) => send g n c rs b

/-- `while(isBusy()) ;` with at most `n` turns. -/
def waitReady (g : Cfg) : Nat → Chip → Option Chip
  | 0, _ => none
  | n + 1, c =>
    let r := isBusy g c
    if r.1 then waitReady g n r.2 else some r.2

/-- `initialize`, hd44780_base_impl.hpp:22-59. -/
def initBase (g : Cfg) (n : Nat) (c : Chip) (twoLines : Bool) : Option Chip := do
  let c ← highNibble g c 0x30#8
  let c := c.wait 5000
  let c ← highNibble g c 0x30#8
  let c := c.wait 100
  let c ← highNibble g c 0x30#8
  let c ← if g.eight then some c
    else (waitReady g n c).bind fun c => highNibble g c 0x20#8
  let c ← send g n c false
    ((if twoLines then 0x28#8 else 0x20#8) ||| (if g.eight then 0x30#8 else 0x20#8))
  let c ← send g n c false 0x08#8
  let c ← send g n c false 0x01#8
  let c ← send g n c false 0x06#8
  send g n c false 0x0C#8

/-- `for (ii = 0; ii < 8; ++ii) { delay(50us); writeRAM(cg[ii]); }`,
hd44780_base_impl.hpp:179-182: the result of `writeRAM` is not looked at. -/
def cgRows (g : Cfg) (c : Chip) : List (BitVec 8) → Option Chip
  | [] => some c
  | r :: rs =>
    match tryWrite g (c.wait 50) true r with
    | none => none
    | some x => cgRows g x.2 rs

/-! ### `CharacterDisplay`, `Hd44780`, `Hd44780Dual` -/

/-- A display: one controller or two, width and number of lines, the position
of the next character. -/
structure Disp where
  dual : Bool
  width : Nat
  count : Nat
  chips : Bool → Chip
  col : Nat
  line : Nat

/-- The controller for a line, hd44780_impl.hpp:107-113 and 128-134. -/
def Disp.sel (d : Disp) : Bool := d.dual && decide (2 ≤ d.line)

/-- `writeRaw`, hd44780_impl.hpp:34-40 and 103-114. -/
def writeRaw (g : Cfg) (n : Nat) (d : Disp) (ch : BitVec 8) : Option Disp :=
  (send g n (d.chips d.sel) true ch).map fun c =>
    { d with chips := Function.update d.chips d.sel c }

/-- The address of a position, hd44780_impl.hpp:49-52 and 123-126 (`uint8_t`). -/
def address (dual : Bool) (width col line : Nat) : BitVec 8 :=
  if dual then
    if line % 2 = 1 then BitVec.ofNat 8 col + 0x40#8 else BitVec.ofNat 8 col
  else if 2 ≤ line then BitVec.ofNat 8 (col + 0x40 * line) + BitVec.ofNat 8 width
  else BitVec.ofNat 8 (col + 0x40 * line)

/-- `setCursor`, hd44780_impl.hpp:42-55 and 116-135. -/
def setCursor (g : Cfg) (n : Nat) (d : Disp) (col line : Nat) : Option Disp :=
  let d := { d with col := if col ≤ d.width then col else d.width, line := if line ≤ d.count then line else d.count }
  (send g n (d.chips d.sel) false
    (0x80#8 ||| (address d.dual d.width d.col d.line &&& 0x7f#8))).map fun c =>
    { d with chips := Function.update d.chips d.sel c }

/-- `'\n'` in `CharacterDisplay::write`, character_display.cpp:26-34. -/
def newline (g : Cfg) (n : Nat) (d : Disp) : Option Disp :=
  let l := d.line + 1
  setCursor g n d 0 (if l ≥ d.count then 0 else l)

/-- `CharacterDisplay::write`, character_display.cpp:23-42. -/
def write (g : Cfg) (n : Nat) (d : Disp) (ch : BitVec 8) : Option Disp :=
  if ch = 10#8 then newline g n d
  else do
    let d ← if d.col ≥ d.width then newline g n d else some d
    let d ← writeRaw g n d ch
    some { d with col := d.col + 1 }

/-- `clear`, hd44780_impl.hpp:77-84 and 147-158. -/
def clear (g : Cfg) (n : Nat) (d : Disp) : Option Disp := do
  let c ← send g n (d.chips false) false 0x01#8
  let c ← send g n c false 0x02#8
  let d := { d with chips := Function.update d.chips false c }
  if d.dual then
    let c ← send g n (d.chips true) false 0x01#8
    let c ← send g n c false 0x02#8
    some { d with chips := Function.update d.chips true c }
  else some d

/-- `initialize`, hd44780_impl.hpp:25-32 and 95-101. -/
def initDisp (g : Cfg) (n : Nat) (d : Disp) : Option Disp := do
  let c ← initBase g n (d.chips false) (d.dual || decide (d.count ≠ 1))
  let d := { d with chips := Function.update d.chips false c }
  if d.dual then
    let c ← initBase g n (d.chips true) true
    some { d with chips := Function.update d.chips true c }
  else some d

/-- `Hd44780::writeCGRAM`, hd44780_impl.hpp:65-75, with
`Hd44780Base::writeCGRAM`, hd44780_base_impl.hpp:173-184. -/
def writeCGRAM (g : Cfg) (n : Nat) (d : Disp) (ch : BitVec 8) (rows : List (BitVec 8)) :
    Option Disp :=
  if ch > 8#8 then some d
  else do
    let c ← send g n (d.chips false) false (0x40#8 ||| (ch <<< 3))
    let c ← cgRows g c rows
    some { d with chips := Function.update d.chips false c }

/-! ### `St7036` -/

/-- The ST7036 behind SPI: display memory and address counter of the same kind
of controller; it cannot be read, the driver waits long enough. -/
structure St where
  width : Nat
  count : Nat
  ddram : Nat → BitVec 8
  ac : Nat
  col : Nat
  line : Nat

/-- `writeRaw`, st7036_impl.hpp:49-58. -/
def stRaw (s : St) (ch : BitVec 8) : St :=
  { s with ddram := Function.update s.ddram s.ac ch, ac := s.ac + 1 }

/-- `setCursor(uint8_t newLine, uint8_t newColumn)`, st7036_impl.hpp:67-76; the
declaration (st7036.hpp:57-58) and the callers pass the column first. -/
def stCursor (s : St) (newLine newColumn : Nat) : St :=
  { s with col := newColumn, line := newLine, ac := (newColumn + 0x40 * newLine) % 128 }

/-- `CharacterDisplay::write`, character_display.cpp:23-42. -/
def stWrite (s : St) (ch : BitVec 8) : St :=
  let nl (s : St) : St :=
    let l := s.line + 1
    stCursor s 0 (if l ≥ s.count then 0 else l)
  if ch = 10#8 then nl s
  else
    let s := if s.col ≥ s.width then nl s else s
    let s := stRaw s ch
    { s with col := s.col + 1 }

end CharDisplay
