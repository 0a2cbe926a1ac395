import Mathlib.Data.Int.Notation
import Mathlib.Data.Nat.Notation

set_option autoImplicit false

/-!
# Reading numbers back

What a person or a program at the other end makes of the characters, independent of how they are written.
-/

namespace Spec.IoStream

/-- the value of a digit, upper case -/
def digit (c : BitVec 8) : Option ℕ :=
  if 0x30 ≤ c.toNat ∧ c.toNat ≤ 0x39 then some (c.toNat - 0x30)
  else if 0x41 ≤ c.toNat ∧ c.toNat ≤ 0x46 then some (c.toNat - 0x41 + 10) else none

/-- digits to base `b`, most significant first, with `acc` for those before -/
def number (b : ℕ) : ℕ → List (BitVec 8) → Option ℕ
  | acc, [] => some acc
  | acc, c :: rest => match digit c with
    | some d => if d < b then number b (acc * b + d) rest else none
    | none => none

/-- an integer with an optional sign -/
def integer : List (BitVec 8) → Option ℤ
  | [] => none
  | c :: rest => if c = 0x2d#8 then (if rest = [] then none else (number 10 0 rest).map fun n : ℕ => -(n : ℤ)) else (number 10 0 (c :: rest)).map fun n : ℕ => (n : ℤ)

/-- `cs` shows the number `v` of `bits` bits to base `b`, with all its digits, `per` of them to a byte -/
def Shows (b per bits v : ℕ) (cs : List (BitVec 8)) : Prop := cs.length = bits / 8 * per ∧ number b 0 cs = some v

end Spec.IoStream
