import Verif.Model.BitOps

set_option autoImplicit false

/-!
Model of the CAN backend of XPCC
(src/modm/communication/xpcc/backend/can/connector.cpp and connector_impl.hpp, header.cpp).

Simplifications: a `SmartPointer` payload is its list of bytes; the linked lists are lists (C06).
A freshly allocated payload holds `none` until it is written, and a write outside of it gives `none`
for the whole step.  `identifier` is read byte by byte on a little-endian host.
-/

namespace Modm.XpccCan

abbrev Byte := BitVec 8

/-- `Header::Type`, header.hpp:34-40 -/
inductive Kind where
  | request | response | negativeResponse | timeout
  deriving DecidableEq, Repr

/-- `xpcc::Header`, header.hpp:31-72; `operator ==` (header.cpp:19-27) compares all the fields. -/
structure Header where
  kind : Kind
  ack : Bool
  destination : Byte
  source : Byte
  packet : Byte
  deriving DecidableEq, Repr

/-- connector.cpp:29-43 -/
def kindBits : Kind → BitVec 32
  | .request => 0
  | .response => 1
  | .negativeResponse => 2
  | .timeout => 3

/-- `if (flag) { identifier |= 1; }`, connector.cpp:46-48, 53-55 -/
def setLowest (flag : Bool) (identifier : BitVec 32) : BitVec 32 :=
  if flag then identifier ||| 1 else identifier

/-- `convertToIdentifier`, connector.cpp:23-64 -/
def toIdentifier (h : Header) (fragmented : Bool) : BitVec 32 :=
  let identifier := kindBits h.kind
  let identifier := setLowest h.ack (identifier <<< 1)
  let identifier := identifier <<< 1
  let identifier := setLowest fragmented (identifier <<< 1)
  let identifier := (identifier <<< 8) ||| h.destination.setWidth 32
  let identifier := (identifier <<< 8) ||| h.source.setWidth 32
  (identifier <<< 8) ||| h.packet.setWidth 32

/-- `ptr[k]`, connector.cpp:71-77 -/
def byteOf (identifier : BitVec 32) (k : Nat) : Byte := (identifier >>> (8 * k)).setWidth 8

/-- connector.cpp:86-104 -/
def kindOf (flags : Byte) : Kind :=
  if flags &&& 0x18 = 0x00 then .request
  else if flags &&& 0x18 = 0x08 then .response
  else if flags &&& 0x18 = 0x10 then .negativeResponse
  else if flags &&& 0x18 = 0x18 then .timeout
  else .request

/-- The header written by `convertToHeader`, connector.cpp:67-104 -/
def toHeader (identifier : BitVec 32) : Header :=
  { packet := byteOf identifier 0
    source := byteOf identifier 1
    destination := byteOf identifier 2
    ack := decide (byteOf identifier 3 &&& 0x04 ≠ 0)
    kind := kindOf (byteOf identifier 3) }

/-- `isFragment`, connector.hpp:64-69 -/
def isFragment (identifier : BitVec 32) : Bool := decide (byteOf identifier 3 &&& 0x01 ≠ 0)

/-- `getNumberOfFragments`, connector.cpp:111-116 -/
def numberOfFragments (messageSize : Nat) : Nat :=
  if messageSize % 6 > 0 then messageSize / 6 + 1 else messageSize / 6

/-- `modm::can::Message`: the identifier and the `length` valid bytes of `data`. -/
structure Frame where
  identifier : BitVec 32
  data : List Byte
  deriving DecidableEq, Repr

/-! ## Sending -/

/-- `SendListItem`, connector.hpp:174-200 -/
structure SendItem where
  identifier : BitVec 32
  payload : List Byte
  index : Nat
  deriving DecidableEq, Repr

/-- The sending side: `sendList`, and the counter, which is a static member shared by all the
connectors of the program (connector.hpp:79). -/
structure Tx where
  queue : List SendItem
  counter : Byte
  deriving DecidableEq, Repr

/-- `sendPacket`, connector_impl.hpp:58-78.  `ready` and `accepted` are what the driver answers to
`isReadyToSend()` and `sendMessage()`; the frame is what it accepted. -/
def sendPacket (ready accepted : Bool) (t : Tx) (h : Header) (payload : List Byte) :
    Tx × List Frame :=
  let fragmented := decide (payload.length > 8)
  let identifier := toIdentifier h fragmented
  if !fragmented && ready && accepted then (t, [⟨identifier, payload⟩])
  else ({ t with queue := t.queue ++ [⟨identifier, payload, 0⟩] }, [])

/-- `uint8_t messageSize = message.payload.getSize()`, connector_impl.hpp:134 -/
def byteSize (payload : List Byte) : Nat := payload.length % 256

/-- `offset` and `messageSize - offset` as `uint8_t`, connector_impl.hpp:144-145 -/
def offset (item : SendItem) : Nat := item.index * 6 % 256
def remaining (item : SendItem) : Nat := (byteSize item.payload + (256 - offset item)) % 256

/-- The frame built at connector_impl.hpp:138-154: index and counter, size, and up to six bytes. -/
def buildFragment (counter : Byte) (item : SendItem) : Frame :=
  ⟨item.identifier,
    (BitVec.ofNat 8 item.index ||| (counter &&& 0xf0)) :: BitVec.ofNat 8 (byteSize item.payload) ::
      (item.payload.drop (offset item)).take (min 6 (remaining item))⟩

/-- After a fragment was accepted, connector_impl.hpp:158-165; `fragmentIndex` has 8 bits. -/
def fragmentSent (t : Tx) (item : SendItem) (rest : List SendItem) : Tx :=
  if remaining item > 6 then
    { t with queue := { item with index := (item.index + 1) % 256 } :: rest }
  else { queue := rest, counter := t.counter + 0x10 }

/-- `sendWaitingMessages`, connector_impl.hpp:116-176.  `connected` is the bus state, `accepted` what
the driver answers to `sendMessage()`. -/
def sendWaiting (connected accepted : Bool) (t : Tx) : Tx × List Frame :=
  match t.queue with
  | [] => (t, [])
  | item :: rest =>
    if !connected then ({ t with queue := [] }, [])
    else if !accepted then (t, [])
    else if byteSize item.payload > 8 then
      (fragmentSent t item rest, [buildFragment t.counter item])
    else
      ({ t with queue := rest }, [⟨item.identifier, item.payload.take (byteSize item.payload)⟩])

/-! ## Receiving -/

/-- `ReceiveListItem`, connector.hpp:202-229, in `pendingMessages` -/
structure Pending where
  header : Header
  counter : Byte
  payload : List (Option Byte)
  fragments : Byte
  deriving DecidableEq, Repr

/-- `ReceiveListItem` in `receivedMessages`: what `getPacketHeader` and `getPacketPayload` return. -/
structure Packet where
  header : Header
  payload : List (Option Byte)
  deriving DecidableEq, Repr

structure Rx where
  pending : List Pending
  received : List Packet
  deriving DecidableEq, Repr

/-- `memcpy` into a payload; `none` outside of it. -/
def copy (payload : List (Option Byte)) (offset : Nat) (bytes : List Byte) :
    Option (List (Option Byte)) :=
  if offset + bytes.length ≤ payload.length then
    some (payload.take offset ++ bytes.map some ++ payload.drop (offset + bytes.length))
  else none

/-- The checks of connector_impl.hpp:198-232: the index and size of a fragment of legal format. -/
def legal (data : List Byte) : Option (Nat × Nat) :=
  let index := (data.getD 0 0 &&& 0x0f).toNat
  let size := (data.getD 1 0).toNat
  if data.length < 3 ∨ size > 48 ∨ index ≥ numberOfFragments size then none
  else if index + 1 = numberOfFragments size then
    if (size : Int) - (index * 6 : Nat) ≠ (data.length : Int) - 2 then none else some (index, size)
  else if data.length ≠ 8 then none
  else some (index, size)

/-- `packet->header == header && packet->counter == counter`, connector_impl.hpp:239-240 -/
def Pending.isFor (header : Header) (counter : Byte) (p : Pending) : Bool :=
  decide (p.header = header ∧ p.counter = counter)

/-- connector_impl.hpp:255-262: the bits of the received fragments. -/
def mark (fragments : Byte) (index : Nat) : Byte :=
  let current : Byte := 1 <<< index
  (if current &&& fragments ≠ 0 then 0 else fragments) ||| current

/-- connector_impl.hpp:234-275: look for other parts of this message (or prepend a new item), store
the fragment, and deliver the message when it is complete. -/
def store (rx : Rx) (header : Header) (counter : Byte) (index size : Nat) (bytes : List Byte) :
    Option Rx :=
  let split := rx.pending.span fun p => !p.isFor header counter
  let (before, item, after) :=
    match split.2 with
    | [] => (([] : List Pending), (⟨header, counter, List.replicate size none, 0⟩ : Pending),
        rx.pending)
    | p :: after => (split.1, p, after)
  (copy item.payload (index * 6) bytes).map fun payload =>
    let fragments := mark item.fragments index
    if Modm.BitOps.bitCount8 fragments = numberOfFragments size then
      ⟨before ++ after, rx.received ++ [⟨item.header, payload⟩]⟩
    else ⟨before ++ { item with payload := payload, fragments := fragments } :: after, rx.received⟩

/-- `retrieveMessage`, connector_impl.hpp:178-282, for a received frame. -/
def receive (rx : Rx) (f : Frame) : Option Rx :=
  if isFragment f.identifier then
    match legal f.data with
    | none => some rx
    | some (index, size) =>
      store rx (toHeader f.identifier) (f.data.getD 0 0 &&& 0xf0) index size (f.data.drop 2)
  else some { rx with received := rx.received ++ [⟨toHeader f.identifier, f.data.map some⟩] }

/-- A sequence of received frames. -/
def receiveAll : Rx → List Frame → Option Rx
  | rx, [] => some rx
  | rx, f :: fs => (receive rx f).bind fun rx => receiveAll rx fs

end Modm.XpccCan
