import Verif.Model.Crc
/-
Model of the SAB protocol: `modm::sab::Interface` (src/modm/communication/sab/interface_impl.hpp),
`modm::sab::Slave` (slave_impl.hpp, slave.cpp) and `modm::sab::Master` (master_impl.hpp). Bytes are `BitVec 8`.
The device is modelled by the list of bytes read in one call of `update()` and the list of bytes written.
`none` is undefined behaviour (a write outside the buffer).
-/
set_option autoImplicit false
namespace Modm.Sab
open Modm.Crc (loop)

abbrev Byte := BitVec 8

/-- loop body of `crcUpdate` (interface.cpp:27-32) -/
def crcStep (crc : Byte) : Byte := if crc &&& 0x01#8 ≠ 0#8 then (crc >>> 1) ^^^ 0x8C#8 else crc >>> 1

/-- `crcUpdate` (interface.cpp:19-36, portable branch) -/
def crcUpdate (crc data : Byte) : Byte := loop crcStep 8 (crc ^^^ data)

/-- constants.hpp:76-90 -/
def maxPayloadLength : Nat := 32
def syncByte : Byte := 0x54#8
def crcInitialValue : Byte := 0x00#8

/-- `Flags` (constants.hpp:65-70) -/
inductive Flags | request | ack | nack
  deriving DecidableEq, Repr
def Flags.val : Flags → Byte
  | .request => 0x00#8
  | .ack => 0xc0#8
  | .nack => 0x80#8

/-- `sendMessage` (interface_impl.hpp:52-75): the bytes written. `payloadLength` is a `uint8_t`, so at most 255 bytes. -/
def sendMessage (address : Byte) (flags : Flags) (command : Byte) (payload : List Byte) : List Byte :=
  let n : Byte := BitVec.ofNat 8 payload.length
  let crc := crcUpdate crcInitialValue n
  let crc := crcUpdate crc (address ||| flags.val)
  let crc := crcUpdate crc command
  let crc := payload.foldl crcUpdate crc
  [syncByte, n, address ||| flags.val, command] ++ payload ++ [crc]

inductive State | sync | length | data
  deriving DecidableEq, Repr

/-- static members of `Interface` (interface_impl.hpp:29-36) -/
structure Rx where
  state : State
  buffer : List Byte
  crc : Byte
  position : Nat
  length : Nat
  /-- `lengthOfReceivedMessage` -/
  received : Nat
  deriving DecidableEq, Repr

/-- static storage after `initialize()` (lines 29-46) -/
def Rx.init : Rx := ⟨.sync, List.replicate (maxPayloadLength + 3) 0#8, 0#8, 0, 0, 0⟩

/-- lines 190-199 -/
def finish (r : Rx) : Rx :=
  if r.position ≥ r.length then
    { r with received := if r.crc = 0#8 then r.length else r.received, state := .sync }
  else r

/-- one byte in `update()` (lines 165-205) -/
def step (r : Rx) (byte : Byte) : Option Rx :=
  match r.state with
  | .sync => some (if byte = syncByte then { r with state := .length } else r)
  | .length =>
    some (if byte.toNat > maxPayloadLength then { r with state := .sync }
      else { r with length := (byte.toNat + 3) % 256, position := 0, crc := crcUpdate crcInitialValue byte, state := .data })
  | .data =>
    if r.position < r.buffer.length then
      some (finish { r with buffer := r.buffer.set r.position byte, crc := crcUpdate r.crc byte,
                            position := (r.position + 1) % 256 })
    else none

/-- `update()` (lines 159-207): reads all available bytes -/
def update (r : Rx) (bytes : List Byte) : Option Rx := bytes.foldlM step r

/-- lines 101-153 -/
def isMessageAvailable (r : Rx) : Bool := r.received ≠ 0
def getAddress (r : Rx) : Byte := r.buffer.getD 0 0 &&& 0x3f#8
def getCommand (r : Rx) : Byte := r.buffer.getD 1 0
def isResponse (r : Rx) : Bool := r.buffer.getD 0 0 &&& 0x80#8 ≠ 0#8
def isAcknowledge (r : Rx) : Bool := r.buffer.getD 0 0 &&& 0x40#8 ≠ 0#8
/-- `uint8_t` arithmetic: 253 if there is no message -/
def getPayloadLength (r : Rx) : Nat := (r.received + 256 - 3) % 256
/-- the memory `getPayload()[0 .. getPayloadLength())` -/
def getPayload (r : Rx) : List Byte := (r.buffer.drop 2).take (getPayloadLength r)
def dropMessage (r : Rx) : Rx := { r with received := 0 }

/-! ### Slave -/

/-- one call on the `Response` object (slave.cpp:26-47, slave_impl.hpp:19-25) -/
inductive Resp
  | error (code : Byte)
  | send (payload : List Byte)
  deriving DecidableEq, Repr

/-- `Slave::send` (slave_impl.hpp:98-113) as called by `Response` -/
def Resp.bytes (own command : Byte) : Resp → List Byte
  | .error code => sendMessage own .nack command [code]
  | .send p => sendMessage own .ack command p

/-- `Action` (slave.hpp:137-148); the callback is modelled by the responses it sends for a payload -/
structure Action where
  command : Byte
  payloadLength : Nat
  call : List Byte → List Resp

def ERROR_NO_ACTION : Byte := 0x01#8
def ERROR_WRONG_PAYLOAD_LENGTH : Byte := 0x02#8
def ERROR_NO_RESPONSE : Byte := 0x03#8

/-- lines 73-85: the responses sent for the selected action -/
def perform (a : Action) (r : Rx) : List Resp :=
  if getPayloadLength r = a.payloadLength then
    (if (a.call (getPayload r)).isEmpty then [.error ERROR_NO_RESPONSE] else a.call (getPayload r))
  else [.error ERROR_WRONG_PAYLOAD_LENGTH]

/-- the loop lines 68-87: responses sent (`triggered` is set exactly if there is one) -/
def search (r : Rx) : List Action → List Resp
  | [] => []
  | a :: rest => if getCommand r = a.command then perform a r else search r rest

/-- lines 64-91 -/
def respond (r : Rx) (actions : List Action) : List Resp :=
  if (search r actions).isEmpty then [.error ERROR_NO_ACTION] else search r actions

/-- `Slave::update()` (lines 56-95): new receiver state and the responses sent -/
def slaveUpdate (own : Byte) (actions : List Action) (r : Rx) (bytes : List Byte) : Option (Rx × List Resp) :=
  (update r bytes).map fun r =>
    if isMessageAvailable r then
      (dropMessage r, if getAddress r = own ∧ isResponse r = false then respond r actions else [])
    else (r, [])

/-! ### Master -/

/-- `QueryStatus` (master.hpp) -/
inductive Status | inProgress | success | errorResponse | errorTimeout | errorPayload
  deriving DecidableEq, Repr

structure Master where
  rx : Rx
  status : Status
  expected : Nat
  deriving DecidableEq, Repr

/-- `query` (master_impl.hpp:41-53): new state and bytes written; the timer is an input of `masterUpdate` -/
def query (m : Master) (slave command : Byte) (payload : List Byte) (responseLength : Nat) : Master × List Byte :=
  (⟨dropMessage m.rx, .inProgress, responseLength⟩, sendMessage slave .request command payload)

/-- lines 143-168 -/
def evaluate (m : Master) (expired : Bool) : Master :=
  if isMessageAvailable m.rx then
    (if isResponse m.rx = false then { m with rx := dropMessage m.rx }
     else if isAcknowledge m.rx then
      { m with status := if getPayloadLength m.rx = m.expected then .success else .errorPayload }
     else { m with status := .errorResponse })
  else if expired then { m with status := .errorTimeout } else m

/-- `Master::update()` (lines 135-169) -/
def masterUpdate (m : Master) (bytes : List Byte) (expired : Bool) : Option Master :=
  (update m.rx bytes).map fun rx =>
    if m.status ≠ .inProgress then { m with rx := rx } else evaluate { m with rx := rx } expired

end Modm.Sab
