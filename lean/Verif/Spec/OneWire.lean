set_option autoImplicit false

/-! What a 1-Wire search is about: ROM codes, their check sum and the order of the search. -/

namespace Spec.OneWire

/-- One bit through the shift register of the 1-Wire check sum, polynomial x^8 + x^5 + x^4 + 1 -/
def crcBit (crc : BitVec 8) (b : Bool) : BitVec 8 :=
  if (crc.getLsbD 0 != b) = true then (crc >>> 1) ^^^ 0x8C else crc >>> 1

/-- The check sum of the first `n` bits -/
def crc (bits : Nat → Bool) : Nat → BitVec 8
  | 0 => 0
  | n + 1 => crcBit (crc bits n) (bits n)

/-- The family code is the first byte. -/
def family (rom : BitVec 64) : BitVec 8 := rom.setWidth 8

/-- A ROM code as it is laid down in a device: a family code other than zero, a serial number, and the check sum -/
def Valid (rom : BitVec 64) : Prop := family rom ≠ 0 ∧ crc rom.getLsbD 64 = 0

instance (rom : BitVec 64) : Decidable (Valid rom) := inferInstanceAs (Decidable (_ ∧ _))

/-- The eight bytes of a ROM code -/
def bytes (rom : BitVec 64) : List (BitVec 8) := (List.range 8).map fun i => rom.extractLsb' (8 * i) 8

/-- The order of the search: at the first bit, counted as they are sent, at which two codes differ, `a` has a zero. -/
def Before (a b : BitVec 64) : Prop :=
  ∃ n, n < 64 ∧ (∀ i, i < n → a.getLsbD i = b.getLsbD i) ∧ a.getLsbD n = false ∧ b.getLsbD n = true

/-- The same order for family codes -/
def FamilyBefore (a b : BitVec 64) : Prop :=
  ∃ n, n < 8 ∧ (∀ i, i < n → a.getLsbD i = b.getLsbD i) ∧ a.getLsbD n = false ∧ b.getLsbD n = true

end Spec.OneWire
