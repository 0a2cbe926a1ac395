import Verif.Spec.Crc
/-
Independent description of a SAB frame on the wire:
sync byte 0x54, number of payload bytes, header (flags and address), command, payload, CRC-8 (X^8 + X^5 + X^4 + 1,
least significant bit first, start value 0) of everything between the sync byte and the CRC.
-/
set_option autoImplicit false
namespace Spec.Sab
open Spec.Crc Polynomial

/-- `c` is the Dallas/Maxim CRC-8 of `m` -/
def IsCrc (m : List (BitVec 8)) (c : BitVec 8) : Prop :=
  regPoly c = (msgPoly (bits m) * X ^ 8) %ₘ (X ^ 8 + X ^ 5 + X ^ 4 + 1 : F2[X])

/-- `f` is the frame with this header, command and payload -/
def IsFrame (f : List (BitVec 8)) (header command : BitVec 8) (payload : List (BitVec 8)) : Prop :=
  payload.length ≤ 32 ∧ ∃ c, IsCrc (BitVec.ofNat 8 payload.length :: header :: command :: payload) c ∧
    f = 0x54#8 :: BitVec.ofNat 8 payload.length :: header :: command :: payload ++ [c]

end Spec.Sab
