/- Independent bit-level specifications. -/
set_option autoImplicit false
namespace Spec.Bits

/-- number of one bits among the lowest `k` bits -/
def onesBelow {w : Nat} (v : BitVec w) : Nat → Nat
  | 0 => 0
  | k + 1 => onesBelow v k + (if v.getLsbD k then 1 else 0)

/-- number of one bits -/
def ones {w : Nat} (v : BitVec w) : Nat := onesBelow v w

end Spec.Bits
