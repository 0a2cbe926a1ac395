set_option autoImplicit false

/-!
Model of the colours of modm (src/modm/ui/color/rgb565.hpp, rgb.hpp, rgb_impl.hpp).

Unsigned integers are natural numbers, reduced where the code stores them; `bits` is the width of the
component type (`uint8_t` or `uint16_t`).  An overflow of `int` gives `none`.  Left out: brightness, the
conversion from RGB to HSV and `normalizeColor`, which compute with `float`.
-/

namespace Modm.Color

/-- `RgbT<T>` and `HsvT<T>`, as three numbers. -/
structure Rgb where
  red : Nat
  green : Nat
  blue : Nat
  deriving DecidableEq, Repr

/-! ### RGB565 -/

/-- `Rgb565(uint8_t, uint8_t, uint8_t)`, rgb565.hpp:62-64 -/
def make565 (red green blue : Nat) : Nat :=
  ((red &&& 0xF8) <<< 8 ||| (green &&& 0xFC) <<< 3 ||| blue >>> 3) % 65536

/-- `Rgb565(RgbT<U>)`, rgb565.hpp:71-73: the components are converted to `uint8_t`. -/
def to565 (c : Rgb) : Nat := make565 (c.red % 256) (c.green % 256) (c.blue % 256)

/-- `RgbT(Rgb565)`, rgb.hpp:105-109 -/
def of565 (bits color : Nat) : Rgb :=
  { red := ((color >>> 8) &&& 0xF8) % 2 ^ bits
    green := ((color >>> 3) &&& 0xFC) % 2 ^ bits
    blue := (color <<< 3) % 2 ^ bits }

/-- A conversion to `int8_t` -/
def int8 (x : Int) : Int := (x + 128) % 256 - 128

/-- `std::clamp<int8_t>(x, 0, hi)` -/
def clamp (x hi : Int) : Nat := (if x < 0 then 0 else if hi < x then hi else x).toNat

/-- `operator+`, rgb565.hpp:98-110 -/
def add565 (c d : Nat) : Nat :=
  (clamp (int8 ((c >>> 11 : Nat) + (d >>> 11 : Nat))) 31) <<< 11 |||
    (clamp (int8 ((c >>> 5 &&& 0x3F : Nat) + (d >>> 5 &&& 0x3F : Nat))) 63) <<< 5 |||
    clamp (int8 ((c &&& 0x1F : Nat) + (d &&& 0x1F : Nat))) 31

/-- `operator-`, rgb565.hpp:114-126 -/
def sub565 (c d : Nat) : Nat :=
  (clamp (int8 ((c >>> 11 : Nat) - (d >>> 11 : Nat))) 0x1F) <<< 11 |||
    (clamp (int8 ((c >>> 5 &&& 0x3F : Nat) - (d >>> 5 &&& 0x3F : Nat))) 0x3F) <<< 5 |||
    clamp (int8 ((c &&& 0x1F : Nat) - (d &&& 0x1F : Nat))) 0x1F

/-! ### Conversion of the component type -/

/-- `RgbT<uint16_t>(RgbT<uint8_t>)`, rgb.hpp:66-70 -/
def widen (c : Rgb) : Rgb := ⟨c.red <<< 8 % 65536, c.green <<< 8 % 65536, c.blue <<< 8 % 65536⟩

/-- `RgbT<uint8_t>(RgbT<uint16_t>)`, rgb.hpp:75-79 -/
def narrow (c : Rgb) : Rgb := ⟨c.red >>> 8 % 256, c.green >>> 8 % 256, c.blue >>> 8 % 256⟩

/-! ### HSV to RGB -/

/-- The `switch`, rgb_impl.hpp:39-47; without a case the components stay zero. -/
def sector (i v u p : Nat) : Rgb :=
  match i with
  | 0 => ⟨v, u, p⟩
  | 1 => ⟨u, v, p⟩
  | 2 => ⟨p, v, u⟩
  | 3 => ⟨p, u, v⟩
  | 4 => ⟨u, p, v⟩
  | 5 => ⟨v, p, u⟩
  | _ => ⟨0, 0, 0⟩

/-- `uint16_t f`, rgb_impl.hpp:35-36 -/
def fraction (i h6 : Nat) : Nat :=
  let f := (((((i ||| 1) <<< 8 : Nat) : Int) - h6) % 65536).toNat
  if i % 2 = 1 then ((-(f : Int)) % 65536).toNat else f

/-- `RgbT<T>(HsvT<U>)`, rgb_impl.hpp:25-48; `bits` is the width of `T`. -/
def ofHsv (bits hue saturation value : Nat) : Option Rgb :=
  if value * saturation < 2147483648 then
    let vs := value * saturation % 65536
    let h6 := 6 * hue % 65536
    let p := (((((value <<< 8 : Nat) : Int) - vs) / 256) % (2 ^ bits : Nat)).toNat
    let i := (h6 >>> 8) % 2 ^ bits
    let f := fraction i h6
    let u := ((((((value <<< 16 : Nat) : Int) - (vs * f : Nat)) % 4294967296) / 65536) %
      (2 ^ bits : Nat)).toNat
    some (sector i (value % 2 ^ bits) u p)
  else none

end Modm.Color
