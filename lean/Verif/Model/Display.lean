set_option autoImplicit false

/-!
Model of the drawing functions of `modm::GraphicDisplay` (src/modm/ui/display/graphic_display.cpp and
graphic_display_fill.cpp).

A drawing function gives the list of the pixels it sets, in order.  Coordinates are `Int` with an explicit conversion
wherever the code stores or passes an `int16_t` or `uint16_t`; `int` and `int_fast16_t` have 32 bits.  A loop that counts through
a range is a list over the range.
-/

namespace Modm.Display

/-- conversion to `int16_t` -/
def i16 (x : Int) : Int := Int.bmod x 65536

/-- conversion to `uint16_t` -/
def u16 (x : Int) : Int := x % 65536

/-- The arguments of `setPixel(int16_t x, int16_t y)` -/
abbrev Pixel := Int × Int

/-- A call of `setPixel` (`true`) or `clearPixel` (`false`) -/
abbrev Op := Bool × Int × Int

/-- The pixel of a call `setPixel(x, y)` with `int` expressions -/
def px (x y : Int) : Pixel := (i16 x, i16 y)

/-- `clearPixel(glcd::Point)`, graphic_display.hpp:127-131 -/
def clearPixelPoint (p : Pixel) : Op := (true, p.1, p.2)

/-- `drawHorizontalLine`, graphic_display.cpp:91-98 -/
def drawHorizontalLine (x y length : Int) : List Pixel :=
  (List.range (i16 (x + length) - x).toNat).map fun (k : Nat) => px (x + k) y

/-- `drawVerticalLine`, graphic_display.cpp:100-107 -/
def drawVerticalLine (x y length : Int) : List Pixel :=
  (List.range (i16 (y + length) - y).toNat).map fun (k : Nat) => px x (y + k)

/-- The loop of `drawLine`, graphic_display.cpp:72-87, for `n` more values of `x` -/
def bresenham (steep : Bool) (deltaX deltaY yStep : Int) : Nat → Int → Int → Int → List Pixel
  | 0, _, _, _ => []
  | n + 1, x, y, error =>
    (if steep then px y x else px x y) ::
      let e := i16 (error - deltaY)
      if e < 0 then bresenham steep deltaX deltaY yStep n (x + 1) (i16 (y + yStep)) (i16 (e + deltaX))
      else bresenham steep deltaX deltaY yStep n (x + 1) y e

/-- The Bresenham part of `drawLine` after the swaps, graphic_display.cpp:60-87 -/
def rasterLine (steep : Bool) (x1 y1 x2 y2 : Int) : List Pixel :=
  let deltaX := i16 (x2 - x1)
  let deltaY := i16 (y2 - y1).natAbs
  bresenham steep deltaX deltaY (if y1 < y2 then 1 else -1) (x2 - x1 + 1).toNat x1 y1 (deltaX.tdiv 2)

/-- The swap of the end points, graphic_display.cpp:54-58 -/
def orderedLine (steep : Bool) (x1 y1 x2 y2 : Int) : List Pixel :=
  if x1 > x2 then rasterLine steep x2 y2 x1 y1 else rasterLine steep x1 y1 x2 y2

/-- `drawLine`, graphic_display.cpp:32-89 -/
def drawLine (x1 y1 x2 y2 : Int) : List Pixel :=
  if x1 = x2 then
    if y1 > y2 then drawVerticalLine x1 y2 (u16 (y1 - y2 + 1)) else drawVerticalLine x1 y1 (u16 (y2 - y1 + 1))
  else if y1 = y2 then
    if x1 > x2 then drawHorizontalLine x2 y1 (u16 (x1 - x2 + 1)) else drawHorizontalLine x1 y1 (u16 (x2 - x1 + 1))
  else if (y2 - y1).natAbs > (x2 - x1).natAbs then orderedLine true y1 x1 y2 x2
  else orderedLine false x1 y1 x2 y2

/-- `drawRectangle`, graphic_display.cpp:109-119 -/
def drawRectangle (x y width height : Int) : List Pixel :=
  let x2 := u16 (x + width - 1)
  let y2 := u16 (y + height - 1)
  drawHorizontalLine x y width ++ drawHorizontalLine x (i16 y2) width ++
    drawVerticalLine x y height ++ drawVerticalLine (i16 x2) y height

/-- `drawCircle4`, graphic_display.cpp:191-201 -/
def drawCircle4 (cx cy x y : Int) : List Pixel :=
  [px (cx + x) (cy + y), px (cx - x) (cy - y)] ++ (if x ≠ 0 then [px (cx - x) (cy + y)] else []) ++
    (if y ≠ 0 then [px (cx + x) (cy - y)] else [])

/-- The loop of `drawCircle`, graphic_display.cpp:172-188; `none` if the fuel does not suffice -/
def circleLoop (cx cy : Int) : Nat → Int → Int → Int → Option (List Pixel)
  | 0, _, _, _ => none
  | n + 1, x, y, error =>
    if x > y then
      let e := i16 (error + y)
      let y' := i16 (y + 1)
      let e := i16 (e + y')
      (if e ≥ 0 then
        let x' := i16 (x - 1)
        circleLoop cx cy n x' y' (i16 (i16 (e - x') - x'))
      else circleLoop cx cy n x y' e).map fun l => drawCircle4 cx cy x y ++ drawCircle4 cx cy y x ++ l
    else some (drawCircle4 cx cy x y)

/-- `drawCircle`, graphic_display.cpp:163-189; the loop makes `y` larger and so ends after `radius` passes at the latest -/
def drawCircle (cx cy radius : Int) : Option (List Pixel) :=
  if radius = 0 then some []
  else circleLoop cx cy (radius.toNat + 1) (i16 radius) 0 (i16 (-radius))

/-- The pixels of one pass of the loop of `drawRoundedRectangle`, graphic_display.cpp:136-144 -/
def corners (x y width height radius x1 y1 : Int) : List Pixel :=
  [px (x + radius - x1) (y + radius - y1), px (x + radius - x1) (y + height - radius + y1),
   px (x + radius - y1) (y + radius - x1), px (x + radius - y1) (y + height - radius + x1),
   px (x + width - radius + x1) (y + radius - y1), px (x + width - radius + x1) (y + height - radius + y1),
   px (x + width - radius + y1) (y + radius - x1), px (x + width - radius + y1) (y + height - radius + x1)]

/-- The loop of `drawRoundedRectangle`, graphic_display.cpp:134-155 -/
def roundedLoop (x y width height radius : Int) : Nat → Int → Int → Int → Option (List Pixel)
  | 0, _, _, _ => none
  | n + 1, x1, y1, f =>
    if x1 ≤ y1 then
      (if f < 0 then roundedLoop x y width height radius n (i16 (x1 + 1)) y1 (i16 (f + (4 * x1 + 6)))
      else roundedLoop x y width height radius n (i16 (x1 + 1)) (i16 (y1 - 1)) (i16 (f + (4 * (x1 - y1) + 10)))).map
        fun l => corners x y width height radius x1 y1 ++ l
    else some []

/-- `drawRoundedRectangle`, graphic_display.cpp:121-161 -/
def drawRoundedRectangle (x y width height radius : Int) : Option (List Pixel) :=
  (roundedLoop x y width height radius (radius.toNat + 2) 0 (i16 radius) (i16 (3 - 2 * radius))).map fun l =>
    (if radius = 0 then drawRectangle x y width height else []) ++ l ++
      drawHorizontalLine (i16 (x + radius)) y (u16 (width - 2 * radius)) ++
      drawHorizontalLine (i16 (x + radius)) (i16 (y + height)) (u16 (width - 2 * radius)) ++
      drawVerticalLine x (i16 (y + radius)) (u16 (height - 2 * radius)) ++
      drawVerticalLine (i16 (x + width)) (i16 (y + radius)) (u16 (height - 2 * radius))

/-- `drawImageRaw`, graphic_display.cpp:269-292; `data` gives the bytes of the image -/
def drawImageRaw (x y : Int) (width height : Nat) (data : Nat → BitVec 8) : List Op :=
  (List.range width).flatMap fun i =>
    (List.range ((height + 7) / 8)).flatMap fun k =>
      (List.range (if height - k * 8 > 8 then 8 else height - k * 8)).map fun j =>
        ((data (i + k * width)).getLsbD j, i16 (x + i), i16 (y + (k * 8 : Nat) + j))

/-- `fillRectangle`, graphic_display_fill.cpp:18-25, on a display of the given size -/
def fillRectangle (displayWidth displayHeight : Nat) (x y width height : Int) : List Pixel :=
  (List.range (min (x + width) displayWidth - u16 x).toNat).flatMap fun (i : Nat) =>
    (List.range (min (y + height) displayHeight - u16 y).toNat).map fun (k : Nat) => px (u16 x + i) (u16 y + k)

/-- The loop of `fillCircle`, graphic_display_fill.cpp:38-54 -/
def fillCircleLoop (cx cy : Int) : Nat → Int → Int → Int → Int → Int → Option (List Pixel)
  | 0, _, _, _, _, _ => none
  | n + 1, f, ddFx, ddFy, x, y =>
    if x < y then
      let y' := if f ≥ 0 then u16 (y - 1) else y
      let ddFy' := if f ≥ 0 then i16 (ddFy + 2) else ddFy
      let f' := if f ≥ 0 then i16 (f + ddFy') else f
      let x' := u16 (x + 1)
      let ddFx' := i16 (ddFx + 2)
      let f'' := i16 (f' + (ddFx' + 1))
      (fillCircleLoop cx cy n f'' ddFx' ddFy' x' y').map fun l =>
        drawVerticalLine (i16 (cx + x')) (i16 (cy - y')) (u16 (2 * y')) ++
        drawVerticalLine (i16 (cx + y')) (i16 (cy - x')) (u16 (2 * x')) ++
        drawVerticalLine (i16 (cx - x')) (i16 (cy - y')) (u16 (2 * y')) ++
        drawVerticalLine (i16 (cx - y')) (i16 (cy - x')) (u16 (2 * x')) ++ l
    else some []

/-- `fillCircle`, graphic_display_fill.cpp:27-55 -/
def fillCircle (cx cy radius : Int) : Option (List Pixel) :=
  (fillCircleLoop cx cy (radius.toNat + 1) (i16 (1 - radius)) 0 (i16 (-2 * radius)) 0 radius).map fun l =>
    drawVerticalLine cx (i16 (cy - radius)) (u16 (2 * radius)) ++ l

end Modm.Display
