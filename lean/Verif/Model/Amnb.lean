import Verif.Model.Crc

set_option autoImplicit false

/-!
Model of AMNB, the asynchronous multi-node bus (src/modm/communication/amnb/message.hpp.in,
interface.hpp, node.hpp) for a 32 bit little-endian target with heap.

A `Message` is its 32 bytes of memory (message.hpp.in:229-258): byte 0 checksum, 1 address, 2 command,
3 type and length; then the payload of a small message, or, for a large one, bytes 4-5 length, 6-7
checksum of the data, 8-11 the pointer to the data.  The heap maps the address of a block to its
bytes; the first four bytes of a block are the reference counter and padding.  Any access outside
of a live block gives `none`.

Simplifications: the bytes of the line are a list, and a read behind its end is a timeout; the
resumable functions are run to their end; errors of the UART and collisions are not modelled.
-/

namespace Modm.Amnb

open Modm.Crc

abbrev Byte := BitVec 8

/-- `Type`, message.hpp.in:23-30 -/
inductive Kind where
  | broadcast | request | response | error | userError
  deriving DecidableEq, Repr

def Kind.bits : Kind → Byte
  | .broadcast => 0x00
  | .request => 0x40
  | .response => 0x60
  | .error => 0x80
  | .userError => 0xa0

abbrev Msg := List Byte

/-- The fields, message.hpp.in:233-251. -/
def byteAt (m : Msg) (i : Nat) : Byte := m.getD i 0
def address (m : Msg) : Byte := byteAt m 1
def command (m : Msg) : Byte := byteAt m 2
def kindBits (m : Msg) : Byte := byteAt m 3 &&& 0xe0
def largeLength (m : Msg) : Nat := (byteAt m 4).toNat + 256 * (byteAt m 5).toNat
def largeCrc (m : Msg) : BitVec 16 := byteAt m 7 ++ byteAt m 6
def pointer (m : Msg) : Nat :=
  (byteAt m 8).toNat + 256 * (byteAt m 9).toNat + 65536 * (byteAt m 10).toNat +
    16777216 * (byteAt m 11).toNat

/-- `smallLength`, `isLarge`, message.hpp.in:162-170 -/
def smallLength (m : Msg) : Nat := (byteAt m 3 &&& 0x1f).toNat
def isLarge (m : Msg) : Bool := decide (smallLength m > 28)

/-- `headerLength`, `dataLength` (which returns a `uint8_t`), `length`, message.hpp.in:172-181, 82-86 -/
def headerLength (m : Msg) : Nat := if isLarge m then 8 else 4 + min (smallLength m) 28
def dataLength (m : Msg) : Nat := if isLarge m then largeLength m % 256 else 0
def length (m : Msg) : Nat := if isLarge m then largeLength m else min (smallLength m) 28

/-- `crcHeader`, `isHeaderValid`, message.hpp.in:131-132, 150-154 -/
def crcHeader (m : Msg) : Byte := crc8_ccitt ((m.drop 1).take (headerLength m - 1))
def isHeaderValid (m : Msg) : Bool := decide (crcHeader m = byteAt m 0)

/-! ## Building and sending a message -/

/-- `Message(address, command, length, type)` with its payload copied in (message.hpp.in:37-40,
node.hpp:76-84), and `setValid` (message.hpp.in:141-147).  `pointer` are the bytes of the pointer to
the data of a large message. -/
def build (address command : Byte) (kind : Kind) (payload pointer : List Byte) : Msg :=
  let body :=
    if payload.length ≤ 28 then
      [address, command, kind.bits ||| BitVec.ofNat 8 payload.length] ++ payload ++
        List.replicate (28 - payload.length) 0
    else
      let crc := crc16_ccitt (payload.take (payload.length % 256))
      [address, command, kind.bits ||| 0x1f, BitVec.ofNat 8 payload.length,
        BitVec.ofNat 8 (payload.length / 256), crc.setWidth 8, (crc >>> 8).setWidth 8] ++ pointer ++
        List.replicate 20 0
  crcHeader (0 :: body) :: body

def STX : Byte := 0x7e
def DLE : Byte := 0x7d

/-- `write_escaped`, interface.hpp:205-218 -/
def writeEscaped (b : Byte) : List Byte := if b = STX ∨ b = DLE then [DLE, b ^^^ 0x20] else [b]

/-- `transmit`, interface.hpp:116-139; `data` is the data of a large message. -/
def transmit (m : Msg) (data : List Byte) : List Byte :=
  [STX, STX] ++ (m.take (headerLength m)).flatMap writeEscaped ++
    (data.take (dataLength m)).flatMap writeEscaped

/-! ## Receiving -/

inductive Status where
  | ok | mediumEmpty | syncReadFailed | headerReadFailed | headerInvalid | dataReadFailed
  | allocationFailed | dataInvalid
  deriving DecidableEq, Repr

/-- `read_escaped`, interface.hpp:220-230 -/
def readEscaped : List Byte → Option (Byte × List Byte)
  | [] => none
  | [b] => if b = DLE then none else some (b, [])
  | b :: c :: rest => if b = DLE then some (c ^^^ 0x20, rest) else some (b, c :: rest)

/-- The loops of `receiveHeader`, interface.hpp:164-173: `n` bytes from index `i` on. -/
def fill : Nat → Nat → Msg → List Byte → Bool × Msg × List Byte
  | 0, _, m, bs => (true, m, bs)
  | n + 1, i, m, bs =>
    match readEscaped bs with
    | none => (false, m, [])
    | some (b, rest) => fill n (i + 1) (m.set i b) rest

/-- The end of `receiveHeader`, interface.hpp:169-180 -/
def receiveRest (r : Bool × Msg × List Byte) : Status × Msg × List Byte :=
  if r.1 then
    let r := fill (headerLength r.2.1 - 4) 4 r.2.1 r.2.2
    if r.1 then
      if isHeaderValid r.2.1 then (.ok, r.2) else (.headerInvalid, r.2)
    else (.headerReadFailed, r.2)
  else (.headerReadFailed, r.2)

/-- `receiveHeader`, interface.hpp:141-181 -/
def receiveHeader (m : Msg) : List Byte → Status × Msg × List Byte
  | [] => (.mediumEmpty, m, [])
  | [_] => (.syncReadFailed, m, [])
  | a :: b :: rest =>
    if a ≠ STX then (.syncReadFailed, m, b :: rest)
    else if b ≠ STX then (.syncReadFailed, m, rest)
    else receiveRest (fill 4 0 m rest)

abbrev Heap := Nat → Option (List Byte)

/-- `storage.large.data = new …`, message.hpp.in:187: the bytes of the pointer. -/
def setPointer (m : Msg) (p : Nat) : Msg :=
  (((m.set 8 (BitVec.ofNat 8 p)).set 9 (BitVec.ofNat 8 (p / 256))).set 10
    (BitVec.ofNat 8 (p / 65536))).set 11 (BitVec.ofNat 8 (p / 16777216))

/-- `allocate`, message.hpp.in:183-196.  `fresh` is the address that `new` returns, 0 if there is no
memory, and `junk` what the memory holds; a block has four more bytes than the data. -/
def allocate (fresh : Nat) (junk : Nat → Byte) (m : Msg) (heap : Heap) : Bool × Msg × Heap :=
  if isLarge m && decide (pointer m = 0) then
    if fresh = 0 then (false, m, heap)
    else (true, setPointer m fresh, fun p =>
      if p = fresh then some (1 :: (List.range (largeLength m + 3)).map junk) else heap p)
  else (true, m, heap)

/-- `message->get()[i] = b`, message.hpp.in:107-116 -/
def storeData (m : Msg) (heap : Heap) (i : Nat) (b : Byte) : Option Heap :=
  (heap (pointer m)).bind fun block =>
    if i + 4 < block.length then
      some fun p => if p = pointer m then some (block.set (i + 4) b) else heap p
    else none

/-- The loop of `receiveData`, interface.hpp:193-197: `n` bytes from index `i` on, stored only if
`allocated`. -/
def readData (allocated : Bool) : Nat → Nat → Msg → Heap → List Byte →
    Option (Bool × Heap × List Byte)
  | 0, _, _, heap, bs => some (true, heap, bs)
  | n + 1, i, m, heap, bs =>
    match readEscaped bs with
    | none => some (false, heap, [])
    | some (b, rest) =>
      if allocated then
        (storeData m heap i b).bind fun heap => readData allocated n (i + 1) m heap rest
      else readData allocated n (i + 1) m heap rest

/-- `crcData`, message.hpp.in:156-160 -/
def crcData (m : Msg) (heap : Heap) : Option (BitVec 16) :=
  (heap (pointer m)).bind fun block =>
    if dataLength m + 4 ≤ block.length then
      some (crc16_ccitt ((block.drop 4).take (dataLength m)))
    else none

/-- `isDataValid`, message.hpp.in:134-139 -/
def isDataValid (m : Msg) (heap : Heap) : Option Bool :=
  if !isHeaderValid m then some false
  else if dataLength m ≠ 0 then (crcData m heap).map fun c => decide (c = largeCrc m)
  else some true

/-- interface.hpp:190-191 -/
def prepare (maxHeap : Nat) (wanted : Bool) (fresh : Nat) (junk : Nat → Byte) (m : Msg)
    (heap : Heap) : Bool × Msg × Heap :=
  if wanted && decide (dataLength m ≤ maxHeap) then allocate fresh junk m heap else (false, m, heap)

/-- interface.hpp:198-201 -/
def finish (wanted allocated : Bool) (m : Msg) (r : Bool × Heap × List Byte) :
    Option (Status × Msg × Heap × List Byte) :=
  if !r.1 then some (.dataReadFailed, m, r.2.1, r.2.2)
  else if wanted && !allocated then some (.allocationFailed, m, r.2.1, r.2.2)
  else (isDataValid m r.2.1).map fun ok => (if ok then .ok else .dataInvalid, m, r.2.1, r.2.2)

/-- `receiveData`, interface.hpp:183-202 -/
def receiveData (maxHeap : Nat) (wanted : Bool) (fresh : Nat) (junk : Nat → Byte) (m : Msg)
    (heap : Heap) (bs : List Byte) : Option (Status × Msg × Heap × List Byte) :=
  if !isLarge m then some (.ok, m, heap, bs)
  else
    let r := prepare maxHeap wanted fresh junk m heap
    (readData r.1 (dataLength r.2.1) 0 r.2.1 r.2.2 bs).bind fun q => finish wanted r.1 r.2.1 q

/-- `deallocate`, message.hpp.in:197-206 -/
def deallocate (m : Msg) (heap : Heap) : Option (Msg × Heap) :=
  if isLarge m && decide (pointer m ≠ 0) then
    (heap (pointer m)).map fun block =>
      if (block.getD 0 0).toNat ≤ 1 then
        (setPointer m 0, fun p => if p = pointer m then none else heap p)
      else (setPointer m 0, fun p => if p = pointer m then some (block.set 0 (block.getD 0 0 - 1))
        else heap p)
  else some (m, heap)

/-- What `get() const` and `length` give to the user, message.hpp.in:82-86, 118-127; `none` where a
read of these bytes would leave the block. -/
def contents (m : Msg) (heap : Heap) : Option (List Byte) :=
  if isLarge m then
    (heap (pointer m)).bind fun block =>
      if largeLength m + 4 ≤ block.length then some ((block.drop 4).take (length m)) else none
  else some ((m.drop 4).take (length m))

/-- One turn of the loop of `Node::receive`, node.hpp:209-220; `wanted` is the answer of
`handleRxMessage(false)`.  The status is that of the step that ended the turn. -/
def receive (maxHeap : Nat) (wanted : Msg → Bool) (fresh : Nat) (junk : Nat → Byte) (m : Msg)
    (heap : Heap) (bs : List Byte) : Option (Status × Msg × Heap × List Byte) :=
  (deallocate m heap).bind fun d =>
    let r := receiveHeader d.1 bs
    if r.1 = .ok then receiveData maxHeap (wanted r.2.1) fresh junk r.2.1 d.2 r.2.2
    else some (r.1, r.2.1, d.2, r.2.2)

/-! ## Dispatch -/

/-- The lists of a node (by their commands, in order) and the request it waits for, if any. -/
structure Node where
  own : Byte
  actions : List Byte
  listeners : List Byte
  waiting : Option (Byte × Byte)
  deriving DecidableEq, Repr

/-- What `handleRxMessage` does: call the listener or action with an index, queue the error
`NoAction`, or take the message as the response to the pending request. -/
inductive Event where
  | listener (index : Nat)
  | action (index : Nat)
  | noAction
  | response
  deriving DecidableEq, Repr

/-- The loop of node.hpp:233-240 from index `i` on. -/
def callListeners (complete : Bool) (command : Byte) : Nat → List Byte → Bool × List Event
  | _, [] => (false, [])
  | i, c :: rest =>
    if command = c then
      if complete then
        let r := callListeners complete command (i + 1) rest
        (r.1, .listener i :: r.2)
      else (true, [])
    else callListeners complete command (i + 1) rest

/-- The loop of node.hpp:246-263 from index `i` on. -/
def callAction (complete : Bool) (command : Byte) : Nat → List Byte → Bool × List Event
  | _, [] => (false, [.noAction])
  | i, c :: rest =>
    if command = c then (true, if complete then [.action i] else [])
    else callAction complete command (i + 1) rest

/-- node.hpp:268-278 -/
def takeResponse (complete : Bool) (address command : Byte) : Option (Byte × Byte) →
    Bool × List Event
  | none => (false, [])
  | some w => (true, if complete && decide (w = (address, command)) then [.response] else [])

/-- `handleRxMessage`, node.hpp:227-281 -/
def handle (n : Node) (complete : Bool) (kind address command : Byte) : Bool × List Event :=
  if kind = Kind.broadcast.bits then callListeners complete command 0 n.listeners
  else if kind = Kind.request.bits then
    if address = n.own then callAction complete command 0 n.actions else (false, [])
  else takeResponse complete address command n.waiting

/-- node.hpp:213-218 for a message whose data arrived: `handleRxMessage(false)`, and if it is wanted
`handleRxMessage(true)`. -/
def dispatch (n : Node) (kind address command : Byte) : List Event :=
  let first := handle n false kind address command
  first.2 ++ if first.1 then (handle n true kind address command).2 else []

end Modm.Amnb
