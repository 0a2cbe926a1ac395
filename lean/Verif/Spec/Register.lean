set_option autoImplicit false

/-! A register as a number, and a field of it. -/

namespace Spec.Register

/-- The number in `width` bits from `position` on. -/
def field (r position width : Nat) : Nat := r / 2 ^ position % 2 ^ width

end Spec.Register
