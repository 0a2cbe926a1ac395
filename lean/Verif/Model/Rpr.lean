import Verif.Model.Sab2
/-
Model of the RPR ring protocol: `modm::rpr::Interface<Device, N>` (src/modm/communication/rpr/interface_impl.hpp).
`crcUpdate` (rpr/interface.cpp:19-37) is the same text as that of SAB2 and shares its model. The two message queues are
`BoundedQueue<Message, 10>`, modelled as lists (property C46); allocation of payload copies is assumed to succeed.
`none` is undefined behaviour (a write outside the receive buffer).
-/
set_option autoImplicit false
namespace Modm.Rpr
open Modm.Sab (Byte)
open Modm.Sab2 (crcUpdate crcInitialValue)

/-- constants.hpp:87-89 -/
def startDelimiterByte : Byte := 0x7e#8
def endDelimiterByte : Byte := 0x7c#8
def controlEscapeByte : Byte := 0x7d#8

/-- `MessageType` (constants.hpp:25-31) -/
inductive MessageType | any | unicast | multicast | broadcast
  deriving DecidableEq, Repr

/-- `Message` (constants.hpp:43-57); `payload` is `payload[0 .. length)` -/
structure Message where
  type : MessageType
  destination : BitVec 16
  source : BitVec 16
  command : Byte
  payload : List Byte
  deriving DecidableEq, Repr

/-- static members of `Interface` (interface_impl.hpp:33-71); the status bits are separate Booleans,
`rtype`…`rlen` are the fields of `receiveBuffer` -/
structure Node where
  address : BitVec 16
  groupAddress : BitVec 16
  messagesToSend : List Message
  receivedMessages : List Message
  rtype : MessageType
  rdest : BitVec 16
  rsource : BitVec 16
  rcommand : Byte
  rlen : Nat
  rxBuffer : List Byte
  crc : BitVec 16
  length : Nat
  nextEscaped : Bool
  addressBuffer : Byte
  startReceived : Bool
  endReceived : Bool
  destRecognised : Bool
  overflow : Bool
  sourceRecognised : Bool
  deriving DecidableEq, Repr

/-- `initialize` (lines 76-82) from static storage -/
def Node.init (N : Nat) (address groupAddress : BitVec 16) : Node :=
  { address := address &&& 0x7fff#16, groupAddress := groupAddress &&& 0x7fff#16, messagesToSend := [], receivedMessages := [],
    rtype := .any, rdest := 0, rsource := 0, rcommand := 0, rlen := 0, rxBuffer := List.replicate (N + 8) 0#8,
    crc := crcInitialValue, length := 0, nextEscaped := false, addressBuffer := 0, startReceived := false, endReceived := false,
    destRecognised := false, overflow := false, sourceRecognised := false }

/-- `writeByteEscaped` (lines 364-378) -/
def writeByteEscaped (data : Byte) : List Byte :=
  if data = startDelimiterByte ∨ data = endDelimiterByte ∨ data = controlEscapeByte then [controlEscapeByte, data ^^^ 0x20#8]
  else [data]

/-- destination field (lines 390-400) -/
def wireDestination (m : Message) : BitVec 16 :=
  if m.type = .broadcast then 0xffff#16
  else if m.type = .multicast then (m.destination &&& 0x7fff#16) ||| 0x8000#16
  else m.destination &&& 0x7fff#16

def lo (v : BitVec 16) : Byte := v.setWidth 8
def hi (v : BitVec 16) : Byte := (v >>> 8).setWidth 8

/-- bytes written by `writeMessage` (lines 384-433) -/
def messageBytes (m : Message) : List Byte :=
  let d := wireDestination m
  let crc := crcUpdate crcInitialValue (lo d)
  let crc := crcUpdate crc (hi d)
  let crc := crcUpdate crc (lo m.source)
  let crc := crcUpdate crc (hi m.source)
  let crc := crcUpdate crc m.command
  let crc := m.payload.foldl crcUpdate crc
  [startDelimiterByte] ++ writeByteEscaped (lo d) ++ writeByteEscaped (hi d) ++ writeByteEscaped (lo m.source) ++
    writeByteEscaped (hi m.source) ++ writeByteEscaped m.command ++ m.payload.flatMap writeByteEscaped ++
    writeByteEscaped (lo crc) ++ writeByteEscaped (hi crc) ++ [endDelimiterByte]

/-- `popMessage(messagesToSend)` (lines 468-479) -/
def popToSend (n : Node) : Node := { n with messagesToSend := n.messagesToSend.drop 1 }

/-- `writeMessage` (lines 382-436): the last line pops the transmit queue -/
def writeMessage (n : Node) (m : Message) : Node × List Byte := (popToSend n, messageBytes m)

/-- `sendMessage` (lines 107-125): new state, bytes written, result -/
def sendMessage (n : Node) (m : Message) : Node × List Byte × Bool :=
  if n.startReceived then
    (if n.messagesToSend.length < 10 then ({ n with messagesToSend := n.messagesToSend ++ [m] }, [], true) else (n, [], false))
  else ((writeMessage n m).1, (writeMessage n m).2, false)

/-- lines 150-154 -/
def sendPending (n : Node) : Node × List Byte :=
  if n.endReceived then
    (match n.messagesToSend with
      | [] => (n, [])
      | m :: _ => (popToSend (writeMessage n m).1, (writeMessage n m).2))
  else (n, [])

/-- lines 160-172 -/
def startDelimiter (n : Node) : Node :=
  { n with endReceived := false, startReceived := true, crc := crcInitialValue, length := 0, nextEscaped := false }

/-- the message pushed in lines 192-198 -/
def receivedMessage (n : Node) : Message :=
  if n.rlen > 1 then ⟨n.rtype, n.rdest, n.rsource, n.rxBuffer.getD 0 0, (n.rxBuffer.drop 1).take (n.rlen - 1)⟩
  else ⟨n.rtype, n.rdest, n.rsource, n.rcommand, n.rxBuffer.take n.rlen⟩

/-- lines 187-204 -/
def deliver (n : Node) : Node :=
  if n.destRecognised = true ∧ n.crc = 0#16 then
    { n with receivedMessages := if n.receivedMessages.length < 10 then n.receivedMessages ++ [receivedMessage n] else n.receivedMessages,
             rcommand := (receivedMessage n).command, rlen := (receivedMessage n).payload.length }
  else n

/-- does the node forward the current frame (lines 180, 314, 350) -/
def forwards (n : Node) : Bool := n.sourceRecognised = false ∧ n.rtype ≠ .unicast

/-- lines 173-209 -/
def endDelimiter (n : Node) : Node × List Byte :=
  if n.length ≥ 6 ∧ n.startReceived = true then
    ({ deliver { n with startReceived := false, endReceived := true } with crc := crcInitialValue, length := 0, nextEscaped := false },
      if forwards n then [endDelimiterByte] else [])
  else ({ n with crc := crcInitialValue, length := 0, nextEscaped := false }, [])

/-- lines 247-279: the type of a message to `dest`, `any` if it is not for this node -/
def classify (n : Node) (dest : BitVec 16) : MessageType :=
  if dest = 0xffff#16 then .broadcast
  else if dest &&& 0x8000#16 ≠ 0#16 then (if n.groupAddress = dest &&& 0x7fff#16 then .multicast else .any)
  else (if n.address = dest &&& 0x7fff#16 then .unicast else .any)

/-- case 1 of the switch (lines 242-286) -/
def destination (n : Node) (data : Byte) : Node :=
  { n with rdest := data ++ n.addressBuffer, rlen := 0, rtype := classify n (data ++ n.addressBuffer), overflow := false,
           sourceRecognised := false, destRecognised := decide (classify n (data ++ n.addressBuffer) ≠ .any),
           crc := if classify n (data ++ n.addressBuffer) ≠ .any then crcUpdate (crcUpdate n.crc n.addressBuffer) data else n.crc }

/-- case 3, lines 300-312 -/
def source (n : Node) (data : Byte) : Node :=
  { n with rsource := (data ++ n.addressBuffer : BitVec 16) &&& 0x7fff#16,
           sourceRecognised := n.sourceRecognised || decide (n.address = (data ++ n.addressBuffer : BitVec 16) &&& 0x7fff#16),
           crc := if n.destRecognised then crcUpdate (crcUpdate n.crc n.addressBuffer) data else n.crc }

/-- default case, lines 333-348; `n.length` is the value after `length++`. `length - 5` is computed in `int`: after a wrap of
`length` to zero the write is to `payload[-5]`. -/
def payloadByte (N : Nat) (n : Node) (data : Byte) : Option Node :=
  if n.destRecognised then
    (if n.length ≤ N + 8 then
      (if 5 ≤ n.length ∧ n.length - 5 < n.rxBuffer.length then
        some { n with rxBuffer := n.rxBuffer.set (n.length - 5) data, rlen := n.rlen + 1, crc := crcUpdate n.crc data }
       else none)
     else some { n with overflow := true })
  else some n

/-- the switch (lines 232-356) for an unescaped content byte -/
def content (N : Nat) (n : Node) (data : Byte) : Option (Node × List Byte) :=
  match n.length with
  | 0 => some ({ n with length := 1, addressBuffer := data }, [])
  | 1 => some (destination { n with length := 2 } data, [])
  | 2 => some ({ n with length := 3, addressBuffer := data }, [])
  | 3 => some (source { n with length := 4 } data,
      if forwards (source { n with length := 4 } data) then
        [startDelimiterByte] ++ writeByteEscaped (lo n.rdest) ++ writeByteEscaped (hi n.rdest) ++ writeByteEscaped n.addressBuffer ++
          writeByteEscaped data
      else [])
  | l => (payloadByte N { n with length := (l + 1) % 256 } data).map fun n' =>
      (n', if forwards n' then writeByteEscaped data else [])

/-- the loop of `update()` (lines 156-358): state, bytes written, bytes not read (line 229 returns) -/
def read (N : Nat) : Node → List Byte → Option (Node × List Byte × List Byte)
  | n, [] => some (n, [], [])
  | n, b :: bs =>
    if b = startDelimiterByte then read N (startDelimiter n) bs
    else if b = endDelimiterByte then
      (read N (endDelimiter n).1 bs).map fun (n', out, rest) => (n', (endDelimiter n).2 ++ out, rest)
    else if b = controlEscapeByte then read N { n with nextEscaped := true } bs
    else if n.startReceived then
      (content N { n with nextEscaped := false } (if n.nextEscaped then b ^^^ 0x20#8 else b)).bind fun (n', o) =>
        (read N n' bs).map fun (n'', out, rest) => (n'', o ++ out, rest)
    else some ({ n with nextEscaped := false }, [], bs)

/-- `update()` (lines 146-359) -/
def update (N : Nat) (n : Node) (bytes : List Byte) : Option (Node × List Byte × List Byte) :=
  (read N (sendPending n).1 bytes).map fun (n', out, rest) => (n', (sendPending n).2 ++ out, rest)

end Modm.Rpr
