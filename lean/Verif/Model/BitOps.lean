/-
Model of the portable branches of `modm::swap`, `modm::bitReverse`, `modm::leftmostBit`, `modm::bitCount`
(src/modm/math/utils/bit_operation.hpp:37-264, bit_operation.cpp:18-43) and of the endianness helpers for a
little-endian host (endianness.hpp:40-188).
Not modelled: the inline-assembly branches for ARM and AVR.
-/
set_option autoImplicit false
namespace Modm.BitOps

/-- `swap(uint8_t)` (bit_operation.hpp:49). The shifts are done in `int` and truncated. -/
def swap8 (n : BitVec 8) : BitVec 8 := (n <<< 4) ||| (n >>> 4)

/-- `swap(uint16_t)` (bit_operation.hpp:98). -/
def swap16 (n : BitVec 16) : BitVec 16 := (n <<< 8) ||| (n >>> 8)

/-- `swap(uint32_t)` (bit_operation.hpp:133). -/
def swap32 (n : BitVec 32) : BitVec 32 :=
  (n <<< 24) ||| ((n <<< 8) &&& 0xff0000#32) ||| ((n >>> 8) &&& 0xff00#32) ||| (n >>> 24)

/-- `bitReverse(uint8_t)` (bit_operation.hpp:168-171). -/
def bitReverse8 (n : BitVec 8) : BitVec 8 :=
  let n := ((n >>> 1) &&& 0x55#8) ||| ((n <<< 1) &&& 0xaa#8)
  let n := ((n >>> 2) &&& 0x33#8) ||| ((n <<< 2) &&& 0xcc#8)
  swap8 n

/-- `bitReverse(uint16_t)` (bit_operation.hpp:189-193). -/
def bitReverse16 (n : BitVec 16) : BitVec 16 :=
  let n := ((n >>> 1) &&& 0x5555#16) ||| ((n <<< 1) &&& 0xaaaa#16)
  let n := ((n >>> 2) &&& 0x3333#16) ||| ((n <<< 2) &&& 0xcccc#16)
  let n := ((n >>> 4) &&& 0x0f0f#16) ||| ((n <<< 4) &&& 0xf0f0#16)
  swap16 n

/-- `bitReverse(uint32_t)` (bit_operation.hpp:218-224). -/
def bitReverse32 (n : BitVec 32) : BitVec 32 :=
  let n := ((n >>> 1) &&& 0x55555555#32) ||| ((n <<< 1) &&& 0xaaaaaaaa#32)
  let n := ((n >>> 2) &&& 0x33333333#32) ||| ((n <<< 2) &&& 0xcccccccc#32)
  let n := ((n >>> 4) &&& 0x0f0f0f0f#32) ||| ((n <<< 4) &&& 0xf0f0f0f0#32)
  let n := ((n >>> 8) &&& 0x00ff00ff#32) ||| ((n <<< 8) &&& 0xff00ff00#32)
  ((n >>> 16) &&& 0x0000ffff#32) ||| ((n <<< 16) &&& 0xffff0000#32)

/-- `leftmostBitHelper` (bit_operation.hpp:229-233). The result (at most 32) fits `int8_t`. -/
def leftmostBitHelper (value : Nat) : Nat :=
  if _h : value = 0 then 0 else 1 + leftmostBitHelper (value >>> 1)
termination_by value
decreasing_by rw [Nat.shiftRight_eq_div_pow]; omega

/-- `leftmostBit` (bit_operation.hpp:239-243). -/
def leftmostBit (value : BitVec 32) : Int := (leftmostBitHelper value.toNat : Int) - 1

/-- `bitCount(uint8_t)` (bit_operation.cpp:18-26): each assignment truncates to `uint8_t`. -/
def bitCount8 (n : BitVec 8) : Nat :=
  let n := ((n >>> 1) &&& 0x55#8) + (n &&& 0x55#8)
  let n := ((n >>> 2) &&& 0x33#8) + (n &&& 0x33#8)
  let n := ((n >>> 4) + n) &&& 0xf#8
  n.toNat

/-- `bitCount(uint16_t)` (bit_operation.cpp:28-33). -/
def bitCount16 (n : BitVec 16) : Nat :=
  bitCount8 (n.setWidth 8) + bitCount8 ((n >>> 8).setWidth 8)

/-- `bitCount(uint32_t)` (bit_operation.cpp:35-43). -/
def bitCount32 (n : BitVec 32) : Nat :=
  let n := ((n >>> 1) &&& 0x55555555#32) + (n &&& 0x55555555#32)
  let n := ((n >>> 2) &&& 0x33333333#32) + (n &&& 0x33333333#32)
  let n := ((n >>> 4) &&& 0x0f0f0f0f#32) + (n &&& 0x0f0f0f0f#32)
  n.toNat % 255

/-- `toBigEndian`/`fromBigEndian` and the little-endian pair on a little-endian host
(endianness.hpp:41-168). -/
def toBigEndian16 (v : BitVec 16) : BitVec 16 := swap16 v
def fromBigEndian16 (v : BitVec 16) : BitVec 16 := swap16 v
def toBigEndian32 (v : BitVec 32) : BitVec 32 := swap32 v
def fromBigEndian32 (v : BitVec 32) : BitVec 32 := swap32 v

/-- Memory image of a 16/32-bit integer on the little-endian host: byte at address `i`. -/
def memByte {w : Nat} (v : BitVec w) (i : Nat) : BitVec 8 := (v >>> (8 * i)).setWidth 8

end Modm.BitOps
