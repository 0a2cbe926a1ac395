import Verif.Model.Mono

set_option autoImplicit false

/-!
Model of the drivers that copy the buffer of a monochrome display to the panel, src/modm/driver/display/: `Ssd1306`, `Sh1106`, `Nokia5110`,
`Ks0108`, `St7565`, `St7586s`, `Max7219Matrix` and `Max7219MatrixHorizontal`, together with the memories of their controllers as the data
sheets describe them.

`none` is undefined behaviour, here an index outside of the buffer.  Simplified: voltages, contrast, delays, busy flags and the pins
are left out; the commands that only concern them are accepted by the controllers and do nothing.  The bytes of one transaction on the
bus arrive in the order in which they are sent.
-/

namespace Modm.Panel

open Modm.Mono

abbrev Byte := BitVec 8

/-- The memory of a controller, by page (or bank) and column -/
abbrev Ram := Nat → Nat → Byte

/-- The memory with one byte changed -/
def Ram.set (m : Ram) (p c : Nat) (v : Byte) : Ram := fun p' c' => if p' = p ∧ c' = c then v else m p' c'

/-- `buffer[r][c]` of `uint8_t buffer[rows][cols]`, monochrome_graphic_display.hpp:76 -/
def fetch (rows cols : Nat) (b : Buf) (r c : Nat) : Option Byte := if r < rows ∧ c < cols then some (b r c) else none

/-! ## SSD1306 and SH1106 -/

/-- The controller: its addressing mode (horizontal or by pages), the windows of columns and pages, the pointer and the memory -/
structure Oled where
  horizontal : Bool
  c0 : Nat
  c1 : Nat
  p0 : Nat
  p1 : Nat
  col : Nat
  page : Nat
  mux : Nat
  on : Bool
  ram : Ram

/-- One command with its arguments (data sheet of the SSD1306, table 9).  The commands of the lower and the higher half of the column
are only obeyed in the mode of pages. -/
def Oled.exec (d : Oled) (cmd : Byte) (args : List Byte) : Oled :=
  match args with
  | [m] =>
    if cmd = 0x20 then { d with horizontal := decide (m &&& 3 = 0) }
    else if cmd = 0xA8 then { d with mux := (m &&& 63).toNat } else d
  | [a, e] =>
    if cmd = 0x21 then { d with c0 := (a &&& 127).toNat, c1 := (e &&& 127).toNat, col := (a &&& 127).toNat }
    else if cmd = 0x22 then { d with p0 := (a &&& 7).toNat, p1 := (e &&& 7).toNat, page := (a &&& 7).toNat } else d
  | _ =>
    if cmd = 0xAF then { d with on := true }
    else if cmd = 0xAE then { d with on := false }
    else if d.horizontal then d
    else if cmd &&& 0xf0 = 0x00 then { d with col := d.col / 16 * 16 + (cmd &&& 15).toNat }
    else if cmd &&& 0xf0 = 0x10 then { d with col := (cmd &&& 15).toNat * 16 + d.col % 16 }
    else if cmd &&& 0xf8 = 0xB0 then { d with page := (cmd &&& 7).toNat } else d

/-- The number of bytes that follow a command: the data sheet, table 9 -/
def Oled.arity (cmd : Byte) : Nat :=
  if cmd = 0x21 ∨ cmd = 0x22 ∨ cmd = 0xA3 then 2
  else if cmd = 0x20 ∨ cmd = 0x81 ∨ cmd = 0xA8 ∨ cmd = 0xD3 ∨ cmd = 0xD5 ∨ cmd = 0xD9 ∨ cmd = 0xDA ∨ cmd = 0xDB ∨ cmd = 0x8D then 1
  else if cmd = 0x26 ∨ cmd = 0x27 then 6
  else if cmd = 0x29 ∨ cmd = 0x2A then 5
  else 0

/-- The bytes of a transaction of commands.  The commands of one transaction are complete: a command whose arguments are missing at
the end is not executed. -/
def Oled.commands : Nat → Oled → List Byte → Oled
  | 0, d, _ => d
  | _ + 1, d, [] => d
  | n + 1, d, c :: l =>
    if l.length < Oled.arity c then d else Oled.commands n (d.exec c (l.take (Oled.arity c))) (l.drop (Oled.arity c))

/-- One byte of data: in the horizontal mode the pointer runs through the window, in the mode of pages only through the columns -/
def Oled.data (d : Oled) (b : Byte) : Oled :=
  let d1 := { d with ram := d.ram.set d.page d.col b }
  if d.horizontal then
    if d.col = d.c1 then { d1 with col := d.c0, page := if d.page = d.p1 then d.p0 else d.page + 1 } else { d1 with col := d.col + 1 }
  else { d1 with col := d.col + 1 }

/-- The bytes of data of a transaction -/
def Oled.datas (d : Oled) (l : List Byte) : Oled := l.foldl Oled.data d

/-- `Ssd1306::writeCommands`, ssd1306_impl.hpp:181-191: one transaction with the control byte `COMMAND_BURST` -/
def writeCommands (d : Oled) (l : List Byte) : Oled := Oled.commands l.length d l

/-- `Ssd1306::initializeMemoryMode`, ssd1306_impl.hpp:76-95 -/
def initializeMemoryMode (d : Oled) : Oled := writeCommands (writeCommands d [0x20, 0x00]) [0x21, 0, 127, 0x22, 0, 7]

/-- `Sh1106::initializeMemoryMode`, sh1106.hpp:63-71 -/
def initializeMemoryModeSh (d : Oled) : Oled := writeCommands d [0x20, 0x02]

/-- `Ssd1306::initialize`, ssd1306_impl.hpp:24-68, with the mode of the class -/
def ssdInitialize (H : Nat) (mode : Oled → Oled) (d : Oled) : Oled :=
  let d := writeCommands d [0xAE, 0xD5, 0x80, 0xA8, 63, 0xD3, 0]
  let d := mode d
  let d := writeCommands d [0x8D, 0x14, 0xA1, 0xC8, 0x40]
  let d := writeCommands d [0xDA, if H = 64 then 0x12 else 0x02, 0x81, 0xCF, 0xD9, 0xF1]
  let d := writeCommands d [0xDB, 0x40, 0x2E, 0xA4, 0xA6]
  writeCommands d [0xAF]

/-- The bytes of the buffer as they lie in the memory: `(uint8_t*)(&this->buffer)` -/
def flat (rows cols : Nat) (b : Buf) : List Byte := (List.range rows).flatMap fun r => (List.range cols).map fun c => b r c

/-- `Ssd1306::update`, `startWriteDisplay`, ssd1306.hpp:110-112, ssd1306_impl.hpp:98-108: the whole buffer in one transaction; `n` bytes
of it arrive, all of them if nothing goes wrong on the bus -/
def ssdUpdate (H : Nat) (b : Buf) (n : Nat) (d : Oled) : Oled := d.datas ((flat (H / 8) 128 b).take n)

/-- A number of updates, each with its buffer -/
def ssdUpdates (H : Nat) (l : List Buf) (d : Oled) : Oled := l.foldl (fun d b => ssdUpdate H b (H / 8 * 128) d) d

/-- One page of `Sh1106::startWriteDisplay`, sh1106.hpp:44-57; `n` bytes of it arrive -/
def shPage (b : Buf) (d : Oled) (page n : Nat) : Oled :=
  (writeCommands d [0x10, 0x02, 0xB0 ||| BitVec.ofNat 8 page]).datas (((List.range 128).map fun c => b page c).take n)

/-- `Sh1106::startWriteDisplay`, sh1106.hpp:35-61; of page `p` the first `n p` bytes arrive -/
def shUpdate (H : Nat) (b : Buf) (n : Nat → Nat) (d : Oled) : Oled := (List.range (H / 8)).foldl (fun d p => shPage b d p (n p)) d

/-! ## Nokia 5110 (PCD8544) -/

/-- The controller PCD8544 with 6 banks of 84 columns: the instruction set, the direction of the pointer, the pointer and the memory -/
structure Pcd where
  extended : Bool
  vertical : Bool
  x : Nat
  y : Nat
  normal : Bool
  ram : Ram

/-- One command (data sheet of the PCD8544, table 1) -/
def Pcd.command (d : Pcd) (c : Byte) : Pcd :=
  if c &&& 0xf8 = 0x20 then { d with extended := c.getLsbD 0, vertical := c.getLsbD 1 }
  else if d.extended then d
  else if c.getLsbD 7 then { d with x := (c &&& 0x7f).toNat }
  else if c &&& 0xf8 = 0x40 then { d with y := (c &&& 7).toNat }
  else if c &&& 0xfa = 0x08 then { d with normal := decide (c = 0x0c) } else d

/-- One byte of data -/
def Pcd.data (d : Pcd) (b : Byte) : Pcd :=
  let d1 := { d with ram := d.ram.set d.y d.x b }
  if d.vertical then
    if d.y = 5 then { d1 with y := 0, x := if d.x = 83 then 0 else d.x + 1 } else { d1 with y := d.y + 1 }
  else
    if d.x = 83 then { d1 with x := 0, y := if d.y = 5 then 0 else d.y + 1 } else { d1 with x := d.x + 1 }

/-- `Nokia5110::initialize`, nokia5110_impl.hpp:19-39 -/
def nokiaInitialize (d : Pcd) : Pcd := ([0x21, 0x13, 0xc2, 0x20 ||| 0x02, 0x0c] : List Byte).foldl Pcd.command d

/-- The pairs `(xx, yy)` in the order of two nested loops -/
def pairs (n m : Nat) : List (Nat × Nat) := (List.range n).flatMap fun x => (List.range m).map fun y => (x, y)

/-- `Nokia5110::update`, nokia5110_impl.hpp:41-57; `f xx yy` is the byte that the loop reads -/
def nokiaUpdate (f : Nat → Nat → Option Byte) (d : Pcd) : Option Pcd :=
  ((pairs 84 6).mapM fun q => f q.1 q.2).map fun l => l.foldl Pcd.data ((d.command 0x80).command 0x40)

/-! ## KS0108 -/

/-- One of the two controllers KS0108 with 8 pages of 64 columns -/
structure Ks where
  page : Nat
  y : Nat
  on : Bool
  start : Nat
  ram : Ram

/-- One command (data sheet of the KS0108B) -/
def Ks.command (d : Ks) (c : Byte) : Ks :=
  if c &&& 0xc0 = 0x40 then { d with y := (c &&& 0x3f).toNat }
  else if c &&& 0xf8 = 0xB8 then { d with page := (c &&& 7).toNat }
  else if c &&& 0xc0 = 0xC0 then { d with start := (c &&& 0x3f).toNat }
  else if c &&& 0xfe = 0x3e then { d with on := c.getLsbD 0 } else d

/-- One byte of data; the column wraps -/
def Ks.data (d : Ks) (b : Byte) : Ks := { d with ram := d.ram.set d.page d.y b, y := (d.y + 1) % 64 }

/-- The commands of `Ks0108::initialize` to both controllers, ks0108_impl.hpp:63-73 -/
def ksInitialize (d : Ks × Ks) : Ks × Ks :=
  ((d.1.command 0x3f).command (0xC0 ||| 0), (d.2.command 0x3f).command (0xC0 ||| 0))

/-- The inner loop of `Ks0108::update`, ks0108_impl.hpp:103-113, from column `i` on for `n` columns -/
def ksColumns (f : Nat → Nat → Option Byte) (page : Nat) : Nat → Nat → Ks × Ks → Option (Ks × Ks)
  | 0, _, d => some d
  | n + 1, i, d => do
    let l ← f i page
    let r ← f (i + 64) page
    ksColumns f page n (i + 1) (d.1.data l, d.2.data r)

/-- The outer loop of `Ks0108::update`, ks0108_impl.hpp:92-114, from page `p` on for `n` pages -/
def ksPages (f : Nat → Nat → Option Byte) : Nat → Nat → Ks × Ks → Option (Ks × Ks)
  | 0, _, d => some d
  | n + 1, p, d => do
    let d' ← ksColumns f p 64 0 (d.1.command (0xB8 ||| BitVec.ofNat 8 p), d.2.command (0xB8 ||| BitVec.ofNat 8 p))
    ksPages f n (p + 1) d'

/-- `Ks0108::update`, ks0108_impl.hpp:80-115; `f i page` is the byte that the loop reads -/
def ksUpdate (f : Nat → Nat → Option Byte) (d : Ks × Ks) : Option (Ks × Ks) :=
  ksPages f 8 0 (d.1.command (0x40 ||| 0), d.2.command (0x40 ||| 0))

/-! ## ST7565 -/

/-- The controller ST7565 with 132 columns: the direction of the segments (ADC), the pointer and the memory -/
structure St where
  adcReverse : Bool
  page : Nat
  col : Nat
  ram : Ram

/-- One command (data sheet of the ST7565R) -/
def St.command (d : St) (c : Byte) : St :=
  if c &&& 0xf0 = 0xB0 then { d with page := (c &&& 15).toNat }
  else if c &&& 0xf0 = 0x10 then { d with col := (c &&& 15).toNat * 16 + d.col % 16 }
  else if c &&& 0xf0 = 0x00 then { d with col := d.col / 16 * 16 + (c &&& 15).toNat }
  else if c &&& 0xfe = 0xA0 then { d with adcReverse := c.getLsbD 0 } else d

/-- One byte of data; the column stops behind the last one, and a byte behind the last column is lost -/
def St.data (d : St) (b : Byte) : St := if d.col < 132 then { d with ram := d.ram.set d.page d.col b, col := d.col + 1 } else d

/-- What the segment `s` shows of a page (data sheet of the ST7565R, figure 4) -/
def St.segment (d : St) (p s : Nat) : Byte := d.ram p (if d.adcReverse then 131 - s else s)

/-- The direction that `St7565::initialize` selects, st7565_impl.hpp:83-91 -/
def stInitialize (topView : Bool) (d : St) : St := d.command (if topView then 0xA0 else 0xA1)

/-- One page of `St7565::update`, st7565_impl.hpp:27-46; `f x y` is the byte that the loop reads -/
def stPage (W : Nat) (topView : Bool) (f : Nat → Nat → Option Byte) (d : St) (y : Nat) : Option St :=
  ((List.range W).mapM fun x => f x y).map fun l =>
    l.foldl St.data (((d.command (0xB0 ||| BitVec.ofNat 8 y)).command 0x10).command (if topView then 0x00 ||| 4 else 0x00))

/-- `St7565::update`, st7565_impl.hpp:21-48 -/
def stUpdate (W H : Nat) (topView : Bool) (f : Nat → Nat → Option Byte) (d : St) : Option St :=
  (List.range (H / 8)).foldlM (stPage W topView f) d

/-! ## ST7586S -/

/-- The loop over the pixels of one line of `St7586s::update`, st7586s_impl.hpp:104-123, for `k` more cells; `i` is the index of the byte
that is read next, `cur` is `currentByte` and `valid` is `validBits` -/
def st7586Line (row : Nat → Option Byte) : Nat → Nat → BitVec 16 → Nat → Option (List Byte)
  | 0, _, _, _ => some []
  | k + 1, i, cur, valid => do
    let b ← if valid < 3 then row i else some 0
    let i' := if valid < 3 then i + 1 else i
    let cur' := if valid < 3 then cur ||| (b.setWidth 16 <<< valid) else cur
    let valid' := if valid < 3 then valid + 8 else valid
    let cell : Byte := (if cur'.getLsbD 0 then 0xC0 else 0) ||| (if cur'.getLsbD 1 then 0x18 else 0) ||| (if cur'.getLsbD 2 then 0x03 else 0)
    let rest ← st7586Line row k i' (cur' >>> 3) (valid' - 3)
    some (cell :: rest)

/-- `St7586s::update`, st7586s_impl.hpp:94-126: the bytes of the data of one line; `x + 2 < Width` holds for `Width / 3` values of `x` -/
def st7586Update (W H : Nat) (b : Buf) (y : Nat) : Option (List Byte) := st7586Line (fun i => fetch H (W / 8) b y i) (W / 3) 0 0 0

/-! ## MAX7219 -/

/-- One chip: the word in its shift register, the digits and the other registers -/
structure Max where
  word : Byte × Byte
  digit : Nat → Byte
  decode : Byte
  intensity : Byte
  scan : Byte
  shutdown : Byte
  test : Byte

/-- A word is shifted into the chain: every chip passes on its word to the next one.  The chips are listed from the one that is
connected to the microcontroller. -/
def shift : Byte × Byte → List Max → List Max
  | _, [] => []
  | w, c :: l => { c with word := w } :: shift c.word l

/-- The rising edge of the chip select (data sheet of the MAX7219, table 2) -/
def latch (c : Max) : Max :=
  let r := c.word.1 &&& 15
  let v := c.word.2
  if 1 ≤ r.toNat ∧ r.toNat ≤ 8 then { c with digit := fun i => if i = r.toNat - 1 then v else c.digit i }
  else if r = 9 then { c with decode := v }
  else if r = 10 then { c with intensity := v &&& 15 }
  else if r = 11 then { c with scan := v &&& 7 }
  else if r = 12 then { c with shutdown := v &&& 1 }
  else if r = 15 then { c with test := v &&& 1 } else c

/-- The words between two edges of the chip select -/
def send (ws : List (Byte × Byte)) (l : List Max) : List Max := (ws.foldl (fun l w => shift w l) l).map latch

/-- `Max7219::setRegister`, max7219.hpp:127-139; the number of chips is the length of the chain -/
def setRegister (reg data : Byte) (l : List Max) : List Max := send (List.replicate l.length (reg, data)) l

/-- `Max7219::setRow`, max7219.hpp:102-112 -/
def setRow (col : Nat) (data : List Byte) (l : List Max) : List Max := send (data.map fun v => (BitVec.ofNat 8 (col + 1), v)) l

/-- `Max7219::setBrightness`, max7219.hpp:119-123 -/
def setBrightness (intensity : Byte) (l : List Max) : List Max := setRegister 0x0A (BitVec.ofNat 8 (intensity.toNat % 16)) l

/-- `Max7219::clear`, max7219.hpp:80-94 -/
def clearChips (l : List Max) : List Max := (List.range 8).foldl (fun l col => setRow col (List.replicate l.length 0) l) l

/-- `Max7219::initializeMatrix`, max7219.hpp:58-78 -/
def initializeMatrix (l : List Max) : List Max :=
  setRegister 0x0C 1 (setBrightness 15 (clearChips (setRegister 0x0F 0 (setRegister 0x09 0 (setRegister 0x0B 7 l)))))

/-- `buf` of `Max7219Matrix::update`, max7219_matrix.hpp:93-111: `buf[idx]` for ascending `idx` -/
def matrixBuf (C R : Nat) (f : Nat → Nat → Option Byte) (ledCol : Nat) : Option (List Byte) :=
  (pairs C R).mapM fun q => f (q.1 * 8 + ledCol) q.2

/-- `Max7219Matrix::update`, max7219_matrix.hpp:86-115; `f column row` is the byte that the loop reads -/
def matrixUpdate (C R : Nat) (f : Nat → Nat → Option Byte) (l : List Max) : Option (List Max) :=
  (List.range 8).foldlM (fun l ledCol => (matrixBuf C R f ledCol).map fun buf => setRow ledCol buf l) l

/-- `buf` of `Max7219MatrixHorizontal::update`, max7219_matrix_horizontal.hpp:85-100: `buf[--idx]`, it is filled from its end -/
def horizontalBuf (C R : Nat) (f : Nat → Nat → Option Byte) (ledCol : Nat) : Option (List Byte) :=
  ((pairs R C).mapM fun q => f q.2 (q.1 * 8 + ledCol)).map List.reverse

/-- `Max7219MatrixHorizontal::update`, max7219_matrix_horizontal.hpp:80-104; `f column line` is the byte that the loop reads -/
def horizontalUpdate (C R : Nat) (f : Nat → Nat → Option Byte) (l : List Max) : Option (List Max) :=
  (List.range 8).foldlM (fun l ledCol => (horizontalBuf C R f ledCol).map fun buf => setRow (7 - ledCol) buf l) l

/-! ## What the loops read -/

/-- `buffer[x][page]` of the displays with vertical bytes: nokia5110_impl.hpp:53, ks0108_impl.hpp:108-112, st7565_impl.hpp:44,
max7219_matrix.hpp:108 -/
def readV (W H : Nat) (b : Buf) (x page : Nat) : Option Byte := fetch (H / 8) W b x page

/-- `buffer[column][line]` of the display with horizontal bytes: max7219_matrix_horizontal.hpp:98 -/
def readH (W H : Nat) (b : Buf) (column line : Nat) : Option Byte := fetch H (W / 8) b column line

end Modm.Panel
