import Verif.Model.Amnb

set_option autoImplicit false

/-! What a user of AMNB relies on, without the helpers of the model. -/

namespace Spec.Amnb

open Modm.Amnb

/-- The bytes a line carries once the escapes are undone: `0x7d` announces that bit 5 of the next byte
is inverted. -/
def unescape : List Byte → List Byte
  | [] => []
  | [b] => if b = 0x7d then [] else [b]
  | b :: c :: rest => if b = 0x7d then (c ^^^ 0x20) :: unescape rest else b :: unescape (c :: rest)

/-- A frame: two `0x7e`, then the bytes with `0x7e` and `0x7d` escaped. -/
def frame (bytes : List Byte) : List Byte :=
  0x7e :: 0x7e :: bytes.flatMap fun b =>
    if b = 0x7e then [0x7d, 0x5e] else if b = 0x7d then [0x7d, 0x5d] else [b]

/-- The five length bits of the header on the line (29 to 31 announce a large message); `none` if
the fourth byte of the header is not on the line. -/
def announced (line : List Byte) : Option Nat :=
  (unescape (line.drop 2))[3]?.map fun b => (b &&& 0x1f).toNat

/-- What a node has to do with a complete message. -/
def expected (n : Node) (kind address command : Byte) : List Event :=
  if kind = 0x00 then
    ((List.range n.listeners.length).filter fun i => n.listeners[i]? == some command).map .listener
  else if kind = 0x40 then
    if address = n.own then
      match n.actions.findIdx? (· == command) with
      | some i => [.action i]
      | none => [.noAction]
    else []
  else if n.waiting = some (address, command) then [.response]
  else []

/-- One turn of a receiver: the bytes on the line, the address `new` returns and what is there. -/
structure Turn where
  line : List Byte
  fresh : Nat
  junk : Nat → Byte

/-- The turns of a receiver one after the other; `none` if one of them accesses memory it does not
own. -/
def run (maxHeap : Nat) (wanted : Msg → Bool) : List Turn → Msg → Heap → Option (Msg × Heap)
  | [], m, heap => some (m, heap)
  | t :: ts, m, heap =>
    match receive maxHeap wanted t.fresh t.junk m heap t.line with
    | none => none
    | some (_, m, heap, _) => run maxHeap wanted ts m heap

end Spec.Amnb
