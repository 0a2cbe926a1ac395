import Verif.Spec.Display

set_option autoImplicit false

/-! What is to be seen on a display of limited size, and where the parts of a font are. -/

namespace Spec.Mono

open Spec.Display

/-- Only the part on the display is to be seen. -/
def clip (W H : Nat) (c : Canvas) : Canvas := fun x y => decide ((0 ≤ x ∧ x < W) ∧ (0 ≤ y ∧ y < H)) && c x y

/-- A display, read with `get`, shows the picture. -/
def Shows (W H : Nat) (get : Int → Int → Option Bool) (c : Canvas) : Prop := ∀ x y, 0 ≤ x → 0 ≤ y → get x y = some (clip W H c x y)

/-- The picture with a set of pixels added -/
def withAll (p : Int → Int → Prop) [∀ x y, Decidable (p x y)] (c : Canvas) : Canvas := fun x y => decide (p x y) || c x y

/-- The width of the character `c` in a font with the given widths, beginning with the character `first` -/
def charWidth (first : Nat) (widths : List Nat) (c : Nat) : Nat := widths.getD (c - first) 0

/-- Where the image of a character begins: after the eight bytes of the header, one byte for each width and the images of the characters before it -/
def glyph (first rows : Nat) (widths : List Nat) (c : Nat) : Nat :=
  8 + widths.length + rows * (widths.take (c - first)).sum

end Spec.Mono
