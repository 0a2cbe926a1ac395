/-
Model of src/modm/math/utils/crc.hpp:25-91 (portable branches; the `__AVR__` library calls are not modelled).
-/
set_option autoImplicit false
namespace Modm.Crc

/-- loop body of `crc8_ccitt_update` (crc.hpp:32-36): `data <<= 1; if (data & 0x80) data ^= 0x07;` -/
def crc8Step (data : BitVec 8) : BitVec 8 :=
  let data := data <<< 1
  if (data &&& 0x80#8) != 0#8 then data ^^^ 0x07#8 else data

/-- apply a loop body `n` times -/
def loop {α : Type} (f : α → α) : Nat → α → α
  | 0, a => a
  | n + 1, a => loop f n (f a)

/-- `crc8_ccitt_update` (crc.hpp:25-39). -/
def crc8_ccitt_update (crc data : BitVec 8) : BitVec 8 := loop crc8Step 8 (data ^^^ crc)

/-- `crc16_ccitt_update` (crc.hpp:41-51): arithmetic is done in `int` and truncated to 16 bits on return;
`data ^= data << 4` truncates to 8 bits. -/
def crc16_ccitt_update (crc : BitVec 16) (data : BitVec 8) : BitVec 16 :=
  let data := data ^^^ crc.setWidth 8
  let data := data ^^^ (data <<< 4)
  ((data.setWidth 16 <<< 8) ||| ((crc >>> 8).setWidth 8).setWidth 16) ^^^
    (data >>> 4).setWidth 16 ^^^ (data.setWidth 16 <<< 3)

/-- loop body of `crc32_update` (crc.hpp:60); `-int32_t(crc & 1)` is all ones or zero. -/
def crc32Step (crc : BitVec 32) : BitVec 32 := (crc >>> 1) ^^^ ((-(crc &&& 1#32)) &&& 0xEDB88320#32)

/-- `crc32_update` (crc.hpp:54-62). -/
def crc32_update (crc : BitVec 32) (data : BitVec 8) : BitVec 32 :=
  loop crc32Step 8 (crc ^^^ data.setWidth 32)

/-- `crc8_ccitt` (crc.hpp:68-74). -/
def crc8_ccitt (m : List (BitVec 8)) : BitVec 8 := m.foldl crc8_ccitt_update 0xFF#8
/-- `crc16_ccitt` (crc.hpp:76-82). -/
def crc16_ccitt (m : List (BitVec 8)) : BitVec 16 := m.foldl crc16_ccitt_update 0xFFFF#16
/-- `crc32` (crc.hpp:85-91). -/
def crc32 (m : List (BitVec 8)) : BitVec 32 := ~~~(m.foldl crc32_update 0xFFFFFFFF#32)

end Modm.Crc
