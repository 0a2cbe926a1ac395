import Verif.Spec.Crc
/-
Independent description of a SAB2 frame on the wire (HDLC-like): boundary 0x7e, stuffed content, boundary 0x7e.
Content: header (flags and address), command, payload, CRC-16 (X^16 + X^15 + X^2 + 1, least significant bit first,
start value all ones), low byte first. Stuffing: 0x7e and 0x7d are sent as 0x7d followed by the byte with bit 5 toggled.
-/
set_option autoImplicit false
namespace Spec.Sab2
open Spec.Crc Polynomial

/-- `c` is the CRC-16 of `m` -/
def IsCrc (m : List (BitVec 8)) (c : BitVec 16) : Prop :=
  regPoly c = ((∑ i ∈ Finset.range 16, X ^ i) * X ^ (8 * m.length) + msgPoly (bits m) * X ^ 16) %ₘ
    (X ^ 16 + X ^ 15 + X ^ 2 + 1 : F2[X])

/-- byte stuffing -/
def stuff : List (BitVec 8) → List (BitVec 8)
  | [] => []
  | b :: bs => (if b = 0x7e#8 then [0x7d#8, 0x5e#8] else if b = 0x7d#8 then [0x7d#8, 0x5d#8] else [b]) ++ stuff bs

/-- the content of a frame -/
def IsContent (content : List (BitVec 8)) (header command : BitVec 8) (payload : List (BitVec 8)) : Prop :=
  ∃ c : BitVec 16, IsCrc (header :: command :: payload) c ∧
    content = header :: command :: payload ++ [c.setWidth 8, (c >>> 8).setWidth 8]

/-- removing the stuffing; `esc`: the previous byte was 0x7d -/
def unstuff : Bool → List (BitVec 8) → List (BitVec 8)
  | _, [] => []
  | esc, b :: bs => if b = 0x7d#8 then unstuff true bs else (if esc then b ^^^ 0x20#8 else b) :: unstuff false bs

end Spec.Sab2
