import Mathlib.Algebra.Polynomial.Div
import Mathlib.Data.ZMod.Basic
/-
Independent specification of cyclic redundancy checks: remainder of polynomial division over GF(2).
Reflected convention: the bits of a byte are transmitted least significant bit first and the register holds
the coefficient of X^i in bit `w-1-i`.
-/
set_option autoImplicit false
namespace Spec.Crc
open Polynomial

abbrev F2 := ZMod 2

/-- coefficient 0/1 -/
noncomputable def co (b : Bool) : F2[X] := if b then 1 else 0

/-- polynomial held by a reflected register -/
noncomputable def regPoly {w : Nat} (r : BitVec w) : F2[X] :=
  ∑ i ∈ Finset.range w, co (r.getLsbD (w - 1 - i)) * X ^ i

/-- generator polynomial `X^w + p` where `p` is given in reflected form (e.g. 0x8408, 0xA001, 0xEDB88320) -/
noncomputable def gen {w : Nat} (p : BitVec w) : F2[X] := X ^ w + regPoly p

/-- message polynomial, first transmitted bit is the highest coefficient -/
noncomputable def msgPoly : List Bool → F2[X]
  | [] => 0
  | b :: bs => co b * X ^ bs.length + msgPoly bs

/-- bits of a byte in transmission order -/
def byteBits (b : BitVec 8) : List Bool := (List.range 8).map b.getLsbD

/-- bits of a message in transmission order -/
def bits (m : List (BitVec 8)) : List Bool := m.flatMap byteBits

end Spec.Crc
