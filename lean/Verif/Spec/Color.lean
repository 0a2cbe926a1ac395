set_option autoImplicit false

/-! Colours: the components of a 16 bit colour, and the usual formula for HSV. -/

namespace Spec.Color

def red5 (c : Nat) : Nat := c / 2048
def green6 (c : Nat) : Nat := c / 32 % 64
def blue5 (c : Nat) : Nat := c % 32

/-- One channel of the colour with a hue of `hue / 256` turns, a saturation of `s / 256` and the value
`v`: `V - V * S * max (0, min (k, 4 - k, 1))` with `k = (n + hue / 60°) mod 6`, where `n` is 5 for red, 3 for
green and 1 for blue.  `k` is counted in 256ths. -/
def channel (n hue s v : Nat) : Nat :=
  let k := (n * 256 + 6 * hue) % 1536
  let d := min (min k (1024 - k)) 256
  v * (65536 - s * d) / 65536

end Spec.Color
