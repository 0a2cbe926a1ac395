import Verif.Spec.Sab2
/-
Independent description of an RPR frame on the wire: start 0x7e, stuffed content, end 0x7c. Content: destination and source
(16 bits each, low byte first), command, payload, CRC-16 as for SAB2. Stuffing: 0x7e, 0x7c and 0x7d are sent as 0x7d followed
by the byte with bit 5 toggled.
-/
set_option autoImplicit false
namespace Spec.Rpr

def stuff : List (BitVec 8) → List (BitVec 8)
  | [] => []
  | b :: bs => (if b = 0x7e#8 then [0x7d#8, 0x5e#8] else if b = 0x7d#8 then [0x7d#8, 0x5d#8]
      else if b = 0x7c#8 then [0x7d#8, 0x5c#8] else [b]) ++ stuff bs

/-- little-endian bytes of a 16-bit field -/
def le (v : BitVec 16) : List (BitVec 8) := [BitVec.ofNat 8 (v.toNat % 256), BitVec.ofNat 8 (v.toNat / 256)]

/-- content before the checksum -/
def body (destination source : BitVec 16) (command : BitVec 8) (payload : List (BitVec 8)) : List (BitVec 8) :=
  le destination ++ le source ++ command :: payload

/-- the frame with checksum `c` -/
def frame (destination source : BitVec 16) (command : BitVec 8) (payload : List (BitVec 8)) (c : BitVec 16) : List (BitVec 8) :=
  0x7e#8 :: stuff (body destination source command payload ++ le c) ++ [0x7c#8]

/-- kinds of addressing: broadcast, group or individual, given the addresses of a node -/
inductive Kind | broadcast | group | individual | other
  deriving DecidableEq

/-- how a node with these 15-bit addresses sees a destination field -/
def kind (address group destination : BitVec 16) : Kind :=
  if destination.toNat = 65535 then .broadcast
  else if destination.toNat = 32768 + group.toNat then .group
  else if destination.toNat = address.toNat then .individual
  else .other

end Spec.Rpr
