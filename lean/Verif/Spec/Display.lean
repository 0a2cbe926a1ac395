set_option autoImplicit false

/-! What is to be seen on a display. -/

namespace Spec.Display

/-- A picture: is the pixel at column `x` and row `y` set? -/
abbrev Canvas := Int → Int → Bool

/-- The picture with one pixel changed -/
def put (c : Canvas) (v : Bool) (x y : Int) : Canvas := fun a b => if a = x ∧ b = y then v else c a b

/-- The picture after a sequence of changes -/
def paint (c : Canvas) : List (Bool × Int × Int) → Canvas
  | [] => c
  | (v, x, y) :: l => paint (put c v x y) l

/-- The point `(x, y)` is not farther from the straight line through `(x1, y1)` and `(x2, y2)` than half a pixel, measured along the
axis in which the line is shorter, and it lies in the box of the two points. -/
def OnLine (x1 y1 x2 y2 x y : Int) : Prop :=
  2 * ((x2 - x1) * (y - y1) - (y2 - y1) * (x - x1)).natAbs ≤ max (x2 - x1).natAbs (y2 - y1).natAbs ∧
  (min x1 x2 ≤ x ∧ x ≤ max x1 x2) ∧ (min y1 y2 ≤ y ∧ y ≤ max y1 y2)

/-- The pixels `l` are a line from `(x1, y1)` to `(x2, y2)`: all of them are on the line, both ends are drawn, each column (or row if the line is
steep) has exactly one pixel, and one can walk along the pixels from neighbour to neighbour. -/
structure IsLine (l : List (Int × Int)) (x1 y1 x2 y2 : Int) : Prop where
  on : ∀ x y, (x, y) ∈ l → OnLine x1 y1 x2 y2 x y
  first : (x1, y1) ∈ l
  last : (x2, y2) ∈ l
  column : (y2 - y1).natAbs ≤ (x2 - x1).natAbs → ∀ x, min x1 x2 ≤ x → x ≤ max x1 x2 → ∃ y, (x, y) ∈ l ∧ ∀ y', (x, y') ∈ l → y' = y
  row : (x2 - x1).natAbs ≤ (y2 - y1).natAbs → ∀ y, min y1 y2 ≤ y → y ≤ max y1 y2 → ∃ x, (x, y) ∈ l ∧ ∀ x', (x', y) ∈ l → x' = x
  walk : ∀ (i : Nat) (h : i + 1 < l.length), (l[i + 1].1 - l[i].1).natAbs ≤ 1 ∧ (l[i + 1].2 - l[i].2).natAbs ≤ 1
  count : l.length = max (x2 - x1).natAbs (y2 - y1).natAbs + 1

/-- Column, row or both: the circle around the origin with radius `r` passes within half a pixel of the point `(x, y)`.  For `x ≥ 1` the first
alternative says `(x - 1/2)² - 1/4 ≤ r² - y² ≤ (x + 1/2)² - 1/4`. -/
def OnCircle (r x y : Int) : Prop :=
  (r * r - y * y - x * x).natAbs ≤ x.natAbs ∨ (r * r - y * y - x * x).natAbs ≤ y.natAbs

/-- The pixels `l` are a circle with the centre `(cx, cy)`: all of them are on it, the pixels mirrored at the axes and the diagonals belong to it as well,
and every row (and so every column) that the circle reaches has pixels. -/
structure IsCircle (l : List (Int × Int)) (cx cy r : Int) : Prop where
  on : ∀ x y, (cx + x, cy + y) ∈ l → OnCircle r x y
  mirror : ∀ x y, (cx + x, cy + y) ∈ l → (cx - x, cy + y) ∈ l ∧ (cx + x, cy - y) ∈ l ∧ (cx + y, cy + x) ∈ l
  row : ∀ y, -r ≤ y → y ≤ r → ∃ x, (cx + x, cy + y) ∈ l
  inside : ∀ x y, (cx + x, cy + y) ∈ l → x.natAbs ≤ r ∧ y.natAbs ≤ r

/-- The border of a rectangle with the upper left corner `(x, y)` -/
def OnBorder (x y w h px py : Int) : Prop :=
  (x ≤ px ∧ px < x + w) ∧ (y ≤ py ∧ py < y + h) ∧ (px = x ∨ px = x + w - 1 ∨ py = y ∨ py = y + h - 1)

/-- The border of a rectangle with `w` columns and `h` rows whose corners are quarters of a circle with the radius `r` -/
def OnRounded (x y w h r a b : Int) : Prop :=
  ((b = y ∨ b = y + h - 1) ∧ x + r ≤ a ∧ a ≤ x + w - 1 - r) ∨ ((a = x ∨ a = x + w - 1) ∧ y + r ≤ b ∧ b ≤ y + h - 1 - r) ∨
  ∃ u v, (0 ≤ u ∧ u ≤ r) ∧ (0 ≤ v ∧ v ≤ r) ∧ OnCircle r u v ∧ (a = x + r - u ∨ a = x + w - 1 - r + u) ∧ (b = y + r - v ∨ b = y + h - 1 - r + v)

/-- The pixels `l` are such a border: nothing else, the straight parts entirely, and the quarters of the circles without leaving out a
column or a row. -/
structure IsRounded (l : List (Int × Int)) (x y w h r : Int) : Prop where
  on : ∀ a b, (a, b) ∈ l → OnRounded x y w h r a b
  horizontal : ∀ a, x + r ≤ a → a ≤ x + w - 1 - r → (a, y) ∈ l ∧ (a, y + h - 1) ∈ l
  vertical : ∀ b, y + r ≤ b → b ≤ y + h - 1 - r → (x, b) ∈ l ∧ (x + w - 1, b) ∈ l
  corner : ∀ u, 0 ≤ u → u ≤ r → ∃ v, (0 ≤ v ∧ v ≤ r) ∧ ∀ a b, (a = x + r - u ∨ a = x + w - 1 - r + u) →
    (b = y + r - v ∨ b = y + h - 1 - r + v) → (a, b) ∈ l
  corner' : ∀ v, 0 ≤ v → v ≤ r → ∃ u, (0 ≤ u ∧ u ≤ r) ∧ ∀ a b, (a = x + r - u ∨ a = x + w - 1 - r + u) →
    (b = y + r - v ∨ b = y + h - 1 - r + v) → (a, b) ∈ l

/-- The picture after an image of `w` columns and `h` rows was put at `(x, y)`: the bytes hold eight rows of one column each, the top row in
the lowest bit, and are stored row of bytes by row of bytes. -/
def withImage (x y : Int) (w h : Nat) (data : Nat → BitVec 8) (c : Canvas) : Canvas := fun px py =>
  if x ≤ px ∧ px < x + w ∧ y ≤ py ∧ py < y + h then
    (data ((px - x).toNat + ((py - y).toNat / 8) * w)).getLsbD ((py - y).toNat % 8)
  else c px py

end Spec.Display
