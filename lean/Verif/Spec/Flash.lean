set_option autoImplicit false

/-!
# Flash memory of STM32: what the reference manuals say

The layout of the flash memory is a fact about the device, not about the
driver.  It is written down here as the manuals (RM0090, RM0008, RM0444,
RM0440) give it: sizes of the sectors one after the other.  Both the model of
the flash controller and the statements refer to it.
-/

namespace Spec.Flash

/-- Sizes of the twelve sectors of a bank of 1 MiB of STM32F4 in KiB. -/
def bank : List Nat := [16, 16, 16, 16, 64, 128, 128, 128, 128, 128, 128, 128]

/-- Sizes of the sectors of a device with two banks (2 MiB), in bytes. -/
def sectors : List Nat := (bank ++ bank).map (· * 1024)

/-- Begin of sector `n`: all the sectors before it. -/
def secStart (n : Nat) : Nat := (sectors.take n).sum

/-- Length of sector `n`. -/
def secLen (n : Nat) : Nat := sectors.getD n 0

/-- Offset `o` lies in sector `n`. -/
def InSector (n o : Nat) : Prop := secStart n ≤ o ∧ o < secStart n + secLen n

instance (n o : Nat) : Decidable (InSector n o) := inferInstanceAs (Decidable (_ ∧ _))

/-- Offset `o` lies in page `n` of pages of `2 ^ shift` bytes. -/
def InPage (shift n o : Nat) : Prop := n * 2 ^ shift ≤ o ∧ o < (n + 1) * 2 ^ shift

instance (shift n o : Nat) : Decidable (InPage shift n o) := inferInstanceAs (Decidable (_ ∧ _))

end Spec.Flash
