import Mathlib.Data.Rat.Defs
import Mathlib.Algebra.Order.Field.Rat

set_option autoImplicit false

/-!
# What a delay is for

Time is counted in cycles of the processor, which runs at `hz`.
-/

namespace Spec.Delay

/-- the cycles in `n` units of which there are `d` in a second -/
def asked (hz n d : ℕ) : ℚ := n * hz / d

/-- What a counter of cycles of 32 bits shows at time `t`, counted from when it showed `c`. -/
def counter (c : BitVec 32) (t : ℕ) : BitVec 32 := c + BitVec.ofNat 32 t

/-- The times at which something is looked at: the first at most `gap` after `t`, each at most `gap` after the one before. -/
def Looks (gap : ℕ) : ℕ → List ℕ → Prop
  | _, [] => True
  | t, u :: rest => t ≤ u ∧ u ≤ t + gap ∧ Looks gap u rest

/-- a duration in seconds -/
def seconds (count : ℤ) (num den : ℕ) : ℚ := count * num / den

end Spec.Delay
