import Verif.Model.Display

set_option autoImplicit false

/-!
Model of the monochrome displays with a buffer, src/modm/ui/display/monochrome_graphic_display_vertical_impl.hpp and
monochrome_graphic_display_horizontal_impl.hpp, and of the text output, src/modm/ui/display/graphic_display_text.cpp.

The buffer is an array of rows of bytes.  `none` is undefined behaviour: an index outside of the array or a shift by a negative
number.  The template parameters are `W` and `H`.
-/

namespace Modm.Mono

open Modm.Display

/-- `buffer[row][column]` -/
abbrev Buf := Nat → Nat → BitVec 8

/-- The buffer with one byte changed -/
def Buf.set (b : Buf) (row column : Nat) (v : BitVec 8) : Buf := fun r c => if r = row ∧ c = column then v else b r c

/-- The index of `buffer[y / 8][x]` and the shift `y % 8`; the divisions of C round towards zero -/
def cellV (W H : Nat) (x y : Int) : Option (Nat × Nat × Nat) :=
  if 0 ≤ y.tdiv 8 ∧ (y.tdiv 8).toNat < H / 8 ∧ 0 ≤ x ∧ x.toNat < W ∧ 0 ≤ y.tmod 8 then some ((y.tdiv 8).toNat, x.toNat, (y.tmod 8).toNat) else none

/-- `MonochromeGraphicDisplayVertical::setPixel`, monochrome_graphic_display_vertical_impl.hpp:99-104 -/
def setPixelV (W H : Nat) (b : Buf) (x y : Int) : Option Buf :=
  if x < W ∧ y < H then (cellV W H x y).map fun (r, c, s) => b.set r c (b r c ||| (1#8 <<< s)) else some b

/-- `MonochromeGraphicDisplayVertical::clearPixel`, monochrome_graphic_display_vertical_impl.hpp:106-111 -/
def clearPixelV (W H : Nat) (b : Buf) (x y : Int) : Option Buf :=
  if x < W ∧ y < H then (cellV W H x y).map fun (r, c, s) => b.set r c (b r c &&& ~~~(1#8 <<< s)) else some b

/-- `MonochromeGraphicDisplayVertical::getPixel`, monochrome_graphic_display_vertical_impl.hpp:113-124 -/
def getPixelV (W H : Nat) (b : Buf) (x y : Int) : Option Bool :=
  if x < W ∧ y < H then (cellV W H x y).map fun (r, c, s) => decide (b r c &&& (1#8 <<< s) ≠ 0#8) else some false

/-- The index of `buffer[y][x / 8]` and the shift `x % 8` -/
def cellH (W H : Nat) (x y : Int) : Option (Nat × Nat × Nat) :=
  if 0 ≤ y ∧ y.toNat < H ∧ 0 ≤ x.tdiv 8 ∧ (x.tdiv 8).toNat < W / 8 ∧ 0 ≤ x.tmod 8 then some (y.toNat, (x.tdiv 8).toNat, (x.tmod 8).toNat) else none

/-- `MonochromeGraphicDisplayHorizontal::setPixel`, monochrome_graphic_display_horizontal_impl.hpp:17-22 -/
def setPixelH (W H : Nat) (b : Buf) (x y : Int) : Option Buf :=
  if x < W ∧ y < H then (cellH W H x y).map fun (r, c, s) => b.set r c (b r c ||| (1#8 <<< s)) else some b

/-- `MonochromeGraphicDisplayHorizontal::clearPixel`, monochrome_graphic_display_horizontal_impl.hpp:24-29 -/
def clearPixelH (W H : Nat) (b : Buf) (x y : Int) : Option Buf :=
  if x < W ∧ y < H then (cellH W H x y).map fun (r, c, s) => b.set r c (b r c &&& ~~~(1#8 <<< s)) else some b

/-- `MonochromeGraphicDisplayHorizontal::getPixel`, monochrome_graphic_display_horizontal_impl.hpp:31-39 -/
def getPixelH (W H : Nat) (b : Buf) (x y : Int) : Option Bool :=
  if x < W ∧ y < H then (cellH W H x y).map fun (r, c, s) => decide (b r c &&& (1#8 <<< s) ≠ 0#8) else some false

/-- A sequence of calls of `setPixel` and `clearPixel` of a vertical display -/
def drawV (W H : Nat) (b : Buf) : List Op → Option Buf
  | [] => some b
  | (v, x, y) :: l => (if v then setPixelV W H b x y else clearPixelV W H b x y).bind fun b => drawV W H b l

/-- A sequence of calls of `setPixel` and `clearPixel` of a horizontal display -/
def drawH (W H : Nat) (b : Buf) : List Op → Option Buf
  | [] => some b
  | (v, x, y) :: l => (if v then setPixelH W H b x y else clearPixelH W H b x y).bind fun b => drawH W H b l

/-- The calls for the pixels of a drawing function -/
def sets (l : List Pixel) : List Op := l.map fun p => (true, p.1, p.2)

/-- The loop of `drawHorizontalLine`, monochrome_graphic_display_vertical_impl.hpp:29-32, for `n` more columns -/
def horizontalLoop (W : Nat) (row : Nat) (byte : BitVec 8) : Nat → Int → Buf → Option Buf
  | 0, _, b => some b
  | n + 1, x, b =>
    if x < W then
      if 0 ≤ x then horizontalLoop W row byte n (x + 1) (b.set row x.toNat (b row x.toNat ||| byte)) else none
    else horizontalLoop W row byte n (x + 1) b

/-- `MonochromeGraphicDisplayVertical::drawHorizontalLine`, monochrome_graphic_display_vertical_impl.hpp:19-34 -/
def drawHorizontalLineV (W H : Nat) (b : Buf) (x y length : Int) : Option Buf :=
  if 0 ≤ y ∧ y < H then horizontalLoop W (y.toNat / 8) (1#8 <<< (y.toNat % 8)) (i16 (x + length) - x).toNat x b else some b

/-- The loop of `drawVerticalLine`, monochrome_graphic_display_vertical_impl.hpp:50-58; `y` has 8 bits and wraps -/
def verticalLoop (H : Nat) (x : Nat) (last : Nat) : Nat → Nat → BitVec 8 → Buf → Option (Nat × BitVec 8 × Buf)
  | 0, _, _, _ => none
  | n + 1, y, byte, b =>
    if y ≠ last then
      if y < H / 8 then verticalLoop H x last n ((y + 1) % 256) 0xff#8 (b.set y x (b y x ||| byte))
      else verticalLoop H x last n ((y + 1) % 256) byte b
    else some (y, byte, b)

/-- `MonochromeGraphicDisplayVertical::drawVerticalLine`, monochrome_graphic_display_vertical_impl.hpp:36-65 -/
def drawVerticalLineV (W H : Nat) (b : Buf) (x y length : Int) : Option Buf :=
  if 0 ≤ x ∧ x < W then
    let endY := Int.bmod (y + length) 256
    let last := (endY.tdiv 8 % 256).toNat
    if y.tmod 8 < 0 then none
    else
      (verticalLoop H x.toNat last 257 (y.tdiv 8 % 256).toNat (0xff#8 <<< (y.tmod 8).toNat) b).map fun (r, byte, b) =>
        if r < H / 8 then b.set r x.toNat (b r x.toNat ||| (byte &&& (0xff#8 >>> (8 - endY.tmod 8).toNat))) else b
  else some b

/-- The loops of the fast part of `drawImageRaw`, monochrome_graphic_display_vertical_impl.hpp:77-91, over a list of `(i, k)` -/
def imageLoop (W H : Nat) (x row width : Int) (data : Nat → BitVec 8) : List (Nat × Nat) → Buf → Option Buf
  | [], b => some b
  | (i, k) :: l, b =>
    let px := u16 (x + i)
    let py := u16 (k + row)
    if px < W ∧ py < H then
      if py < (H / 8 : Nat) then imageLoop W H x row width data l (b.set py.toNat px.toNat (data (i + k * width.toNat))) else none
    else imageLoop W H x row width data l b

/-- `MonochromeGraphicDisplayVertical::drawImageRaw`, monochrome_graphic_display_vertical_impl.hpp:67-97 -/
def drawImageRawV (W H : Nat) (b : Buf) (x y : Int) (width height : Nat) (data : Nat → BitVec 8) : Option Buf :=
  if y.tmod 8 = 0 ∧ height % 8 = 0 then
    imageLoop W H x (u16 (y.tdiv 8)) width data
      ((List.range width).flatMap fun i => (List.range ((height + 7) / 8)).map fun k => (i, k)) b
  else drawV W H b (drawImageRaw x y width height data)

/-- A font: its bytes -/
abbrev Font := List (BitVec 8)

/-- `getStringWidth`, graphic_display_text.cpp:47-65; the index is an `int` -/
def getStringWidth (font : Font) : List (BitVec 8) → Option Nat
  | [] => some 0
  | c :: s =>
    (font[5]?).bind fun vspace => (font[6]?).bind fun first =>
      let i : Int := 8 + ((c.toNat : Int) - first.toNat)
      if i < 0 then none
      else (font[i.toNat]?).bind fun w => (getStringWidth font s).map fun rest => (w.toNat + vspace.toNat + rest) % 65536

/-- What `write(char)` does: the image it draws, as start, width, height and index of the first byte in the font, and the new cursor -/
structure Written where
  image : Option (Int × Int × Nat × Nat × Nat)
  x : Int
  y : Int
  deriving DecidableEq

/-- The sum of the sizes of the characters before, graphic_display_text.cpp:93-96; `n` bytes from index `i`; `offset` has 16 bits -/
def offsetLoop (font : Font) (rows : Nat) : Nat → Nat → Nat → Option Nat
  | 0, _, offset => some offset
  | n + 1, i, offset => (font[i]?).bind fun w => offsetLoop font rows n (i + 1) ((offset + w.toNat * rows) % 65536)

/-- `write(char)`, graphic_display_text.cpp:68-122, for a valid font -/
def write (font : Font) (x y : Int) (c : BitVec 8) : Option Written :=
  (font[3]?).bind fun height => (font[4]?).bind fun hspace => (font[5]?).bind fun vspace =>
    if c = 10#8 then some ⟨none, 0, i16 (y + height.toNat + hspace.toNat)⟩
    else
      (font[6]?).bind fun first => (font[7]?).bind fun count =>
        if first.toNat + count.toNat ≤ c.toNat ∨ c.toNat < first.toNat then some ⟨none, x, y⟩
        else
          let position := (c.toNat - first.toNat + 8) % 256
          let rows := ((height.toNat + 7) / 8) % 256
          (offsetLoop font rows (position - 8) 8 (count.toNat + 8)).bind fun offset =>
            (font[position]?).map fun w =>
              ⟨some (x, y, w.toNat, height.toNat, offset),
                if c.toNat < 128 then i16 (i16 (x + w.toNat) + vspace.toNat) else i16 (x + w.toNat), y⟩

/-- `write(char)` for each character of a string: the cursor afterwards -/
def writeAll (font : Font) (x y : Int) : List (BitVec 8) → Option (Int × Int)
  | [] => some (x, y)
  | c :: s => (write font x y c).bind fun w => writeAll font w.x w.y s

end Modm.Mono
