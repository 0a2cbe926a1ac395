/-!
Packets in the buffer of the inertial sensors IIM-42xxx and ICM-42xxx.

Models `/repo/src/modm/driver/inertial/ixm42xxx_data_impl.hpp` and `ixm42xxx_data.hpp`.  The sensor and the controller
use the same byte order, little endian here.  Reading behind the end of the data is `none`.  Indices are natural
numbers; they fit into `uint16_t`, since the size of the data does.
-/

set_option autoImplicit false

namespace Model.Ixm42

/-- ixm42xxx_data.hpp:186-191: the members of `FifoPacket`. -/
structure Packet where
  header : BitVec 8
  accel : BitVec 16 × BitVec 16 × BitVec 16
  gyro : BitVec 16 × BitVec 16 × BitVec 16
  temp : BitVec 16
  timestamp : BitVec 16
  extension : BitVec 8 × BitVec 8 × BitVec 8
deriving DecidableEq

/-- ixm42xxx_data.hpp:117: the constructor. -/
def blank : Packet := ⟨0, (0, 0, 0), (0, 0, 0), 0, 0, (0, 0, 0)⟩

/-- ixm42xxx_data.hpp:193-203: the bits of the header. -/
def HEADER_MSG : Nat := 7
def HEADER_ACCEL : Nat := 6
def HEADER_GYRO : Nat := 5
def HEADER_20 : Nat := 4
def HEADER_TIMESTAMP_ODR : Nat := 3
def HEADER_TIMESTAMP_FSYNC : Nat := 2

/-- `memcpy()` of two bytes into a number. -/
def half (d : List (BitVec 8)) (i : Nat) : Option (BitVec 16) :=
  match d[i]?, d[i + 1]? with
  | some lo, some hi => some (hi ++ lo)
  | _, _ => none

/-- `memcpy()` of six bytes into three numbers. -/
def three (d : List (BitVec 8)) (i : Nat) : Option (BitVec 16 × BitVec 16 × BitVec 16) :=
  match half d i, half d (i + 2), half d (i + 4) with
  | some a, some b, some c => some (a, b, c)
  | _, _, _ => none

/-- ixm42xxx_data_impl.hpp:72-77. -/
def takeAccel (d : List (BitVec 8)) (p : Packet) (i : Nat) : Option (Packet × Nat) :=
  if p.header.getLsbD HEADER_ACCEL then
    match three d i with
    | some v => some ({ p with accel := v }, i + 6)
    | none => none
  else some (p, i)

/-- ixm42xxx_data_impl.hpp:79-84. -/
def takeGyro (d : List (BitVec 8)) (p : Packet) (i : Nat) : Option (Packet × Nat) :=
  if p.header.getLsbD HEADER_GYRO then
    match three d i with
    | some v => some ({ p with gyro := v }, i + 6)
    | none => none
  else some (p, i)

/-- ixm42xxx_data_impl.hpp:86-98; one byte goes into the lower half of `temp`. -/
def takeTemp (d : List (BitVec 8)) (p : Packet) (i : Nat) : Option (Packet × Nat) :=
  if p.header.getLsbD HEADER_ACCEL || p.header.getLsbD HEADER_GYRO then
    if p.header.getLsbD HEADER_20 then
      match half d i with
      | some v => some ({ p with temp := v }, i + 2)
      | none => none
    else
      match d[i]? with
      | some v => some ({ p with temp := p.temp.extractLsb' 8 8 ++ v }, i + 1)
      | none => none
  else some (p, i)

/-- ixm42xxx_data_impl.hpp:100-105. -/
def takeTime (d : List (BitVec 8)) (p : Packet) (i : Nat) : Option (Packet × Nat) :=
  if p.header.getLsbD HEADER_TIMESTAMP_ODR || p.header.getLsbD HEADER_TIMESTAMP_FSYNC then
    match half d i with
    | some v => some ({ p with timestamp := v }, i + 2)
    | none => none
  else some (p, i)

/-- ixm42xxx_data_impl.hpp:107-112. -/
def takeExtension (d : List (BitVec 8)) (p : Packet) (i : Nat) : Option (Packet × Nat) :=
  if p.header.getLsbD HEADER_20 then
    match d[i]?, d[i + 1]?, d[i + 2]? with
    | some a, some b, some c => some ({ p with extension := (a, b, c) }, i + 3)
    | _, _, _ => none
  else some (p, i)

/-- ixm42xxx_data_impl.hpp:64-122: `parse()`. -/
def parse (d : List (BitVec 8)) (p : Packet) (i : Nat) : Option (Packet × Nat) :=
  match d[i]? with
  | some h =>
    if h.getLsbD HEADER_MSG then some (blank, d.length)
    else do
      let (p, i) ← takeAccel d { p with header := h } (i + 1)
      let (p, i) ← takeGyro d p i
      let (p, i) ← takeTemp d p i
      let (p, i) ← takeTime d p i
      takeExtension d p i
  | none => some (blank, d.length)

/-- ixm42xxx_data.hpp:228-260: a loop over the data with the iterator; at most `n` steps. -/
def loop (d : List (BitVec 8)) : Nat → Packet × Nat → Option (List Packet)
  | 0, _ => none
  | n + 1, (p, i) =>
    if i = d.length ∧ p = blank then some []
    else do
      let next ← parse d p i
      let rest ← loop d n next
      pure (p :: rest)

def visit (d : List (BitVec 8)) : Option (List Packet) :=
  match parse d blank 0 with
  | some s => loop d (d.length + 2) s
  | none => none

/-- ixm42xxx_data_impl.hpp:28-33: an axis of `getAccel()`. -/
def accelAxis (header : BitVec 8) (v : BitVec 16) (e : BitVec 8) : BitVec 32 :=
  if header.getLsbD HEADER_20 then (v.signExtend 32 <<< 2) ||| ((e.signExtend 32 &&& 0xf0#32).sshiftRight 6)
  else v.signExtend 32

/-- ixm42xxx_data_impl.hpp:47-52: an axis of `getGyro()`. -/
def gyroAxis (header : BitVec 8) (v : BitVec 16) (e : BitVec 8) : BitVec 32 :=
  if header.getLsbD HEADER_20 then (v.signExtend 32 <<< 3) ||| (e.signExtend 32 &&& 0x0f#32)
  else v.signExtend 32

end Model.Ixm42
