import Mathlib.Data.Rat.Floor

set_option autoImplicit false

/-!
# Bit times of CAN controllers as in their manuals

One synchronisation quantum, `seg1` before the sample point, `seg2` after it; a quantum is `div` clocks.
-/

namespace Spec.CanTiming

/-- What is known of rounding to float (24 bits) in the range used. -/
structure FloatRounding (rnd : ℚ → ℚ) : Prop where
  mono : ∀ a b, a ≤ b → rnd a ≤ rnd b
  nat : ∀ n k : ℕ, n ≤ 2 ^ 24 → rnd (n * 2 ^ k : ℕ) = (n * 2 ^ k : ℕ)
  err : ∀ q : ℚ, |rnd q - q| ≤ |q| / 2 ^ 24 + 1 / 2 ^ 100

structure BitTime where
  div : Nat
  seg1 : Nat
  seg2 : Nat
  deriving DecidableEq

/-- clocks of one bit -/
def BitTime.clocks (b : BitTime) : Nat := b.div * (1 + b.seg1 + b.seg2)

/-- bits `lo` to `lo + len` of a register -/
def field {n : Nat} (v : BitVec n) (lo len : Nat) : Nat := v.toNat / 2 ^ lo % 2 ^ len

/-- bxCAN, `CAN_BTR`: BRP 0-9, TS1 16-19, TS2 20-22 (RM0008) -/
def bxCan (v : BitVec 32) : BitTime := ⟨field v 0 10 + 1, field v 16 4 + 1, field v 20 3 + 1⟩

/-- FDCAN and M_CAN, `NBTP`: NTSEG2 0-6, NTSEG1 8-15, NBRP 16-24 -/
def fdcanNominal (v : BitVec 32) : BitTime := ⟨field v 16 9 + 1, field v 8 8 + 1, field v 0 7 + 1⟩

/-- FDCAN and M_CAN, `DBTP`: DTSEG2 4-7, DTSEG1 8-12, DBRP 16-20 -/
def fdcanData (v : BitVec 32) : BitTime := ⟨field v 16 5 + 1, field v 8 5 + 1, field v 4 4 + 1⟩

/-- MCP2515, `CNF1` (SJW 6-7, BRP 0-5), `CNF2` (PHSEG1 3-5, PRSEG 0-2), `CNF3` (PHSEG2 0-2); a quantum is two clocks times `BRP + 1` (data sheet 5.0) -/
def mcp2515 (v : BitVec 8 × BitVec 8 × BitVec 8) : BitTime :=
  ⟨2 * (field v.1 0 6 + 1), (field v.2.1 0 3 + 1) + (field v.2.1 3 3 + 1), field v.2.2 0 3 + 1⟩

/-- the synchronisation jump width of the MCP2515 -/
def mcp2515Sjw (v : BitVec 8 × BitVec 8 × BitVec 8) : Nat := field v.1 6 2 + 1

end Spec.CanTiming
