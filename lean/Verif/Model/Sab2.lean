import Verif.Model.Sab
/-
Model of the SAB2 protocol: `modm::sab2::Interface<Device, N>` (src/modm/communication/sab2/interface_impl.hpp).
`none` is undefined behaviour (a write outside the buffer).
-/
set_option autoImplicit false
namespace Modm.Sab2
open Modm.Crc (loop)
open Modm.Sab (Byte Flags)

/-- loop body of `crcUpdate` (interface.cpp:31-36) -/
def crcStep (crc : BitVec 16) : BitVec 16 := if crc &&& 1#16 ≠ 0#16 then (crc >>> 1) ^^^ 0xA001#16 else crc >>> 1

/-- `crcUpdate` (interface.cpp:23-41, portable branch) -/
def crcUpdate (crc : BitVec 16) (data : Byte) : BitVec 16 := loop crcStep 8 (crc ^^^ data.setWidth 16)

/-- constants.hpp:78-86 -/
def frameBounderyByte : Byte := 0x7e#8
def controlEscapeByte : Byte := 0x7d#8
def crcInitialValue : BitVec 16 := 0xffff#16

/-- `writeByteEscaped` (interface_impl.hpp:211-220) -/
def writeByteEscaped (data : Byte) : List Byte :=
  if data = frameBounderyByte ∨ data = controlEscapeByte then [controlEscapeByte, data ^^^ 0x20#8] else [data]

/-- `sendMessage` (lines 48-73), the bytes written. The loop variable is a `uint_fast8_t`; where that has eight bits, the
loop does not end for more than 255 payload bytes, so the model is used for at most 255 bytes. -/
def sendMessage (address : Byte) (flags : Flags) (command : Byte) (payload : List Byte) : List Byte :=
  let crc := crcUpdate crcInitialValue (address ||| flags.val)
  let crc := crcUpdate crc command
  let crc := payload.foldl crcUpdate crc
  [frameBounderyByte] ++ writeByteEscaped (address ||| flags.val) ++ writeByteEscaped command ++
    payload.flatMap writeByteEscaped ++ writeByteEscaped (crc.setWidth 8) ++ writeByteEscaped ((crc >>> 8).setWidth 8) ++
    [frameBounderyByte]

/-- static members (lines 26-34) -/
structure Rx where
  buffer : List Byte
  crc : BitVec 16
  length : Nat
  /-- `lengthOfReceivedMessage` -/
  received : Nat
  nextEscaped : Bool
  deriving DecidableEq, Repr

/-- static storage -/
def Rx.init (N : Nat) : Rx := ⟨List.replicate (N + 4) 0#8, crcInitialValue, 0, 0, false⟩

/-- width of `Size` (interface.hpp:52-54) -/
def sizeBits (N : Nat) : Nat := if N ≥ 255 then 16 else 8

/-- a boundary byte (lines 163-181) -/
def boundary (r : Rx) : Rx :=
  { r with received := if r.nextEscaped = false ∧ r.length ≥ 4 ∧ r.crc = 0#16 then r.length else r.received,
           crc := crcInitialValue, length := 0, nextEscaped := false }

/-- lines 193-203 -/
def store (N : Nat) (r : Rx) (data : Byte) : Option Rx :=
  if r.length ≥ N + 4 then some { r with length := 0 }
  else if r.length < r.buffer.length then
    some { r with buffer := r.buffer.set r.length data, length := (r.length + 1) % 2 ^ sizeBits N, crc := crcUpdate r.crc data }
  else none

/-- one byte in `update()` (lines 163-204) -/
def step (N : Nat) (r : Rx) (data : Byte) : Option Rx :=
  if data = frameBounderyByte then some (boundary r)
  else if data = controlEscapeByte then some { r with nextEscaped := true }
  else store N { r with nextEscaped := false } (if r.nextEscaped then data ^^^ 0x20#8 else data)

/-- `update()` (lines 156-206): stops reading while a message is pending; returns the bytes not read -/
def update (N : Nat) : Rx → List Byte → Option (Rx × List Byte)
  | r, [] => some (r, [])
  | r, b :: bs => if r.received ≠ 0 then some (r, b :: bs) else (step N r b).bind fun r' => update N r' bs

/-- lines 99-151 -/
def isMessageAvailable (r : Rx) : Bool := r.received ≠ 0
def getAddress (r : Rx) : Byte := r.buffer.getD 0 0 &&& 0x3f#8
def getCommand (r : Rx) : Byte := r.buffer.getD 1 0
def isResponse (r : Rx) : Bool := r.buffer.getD 0 0 &&& 0x80#8 ≠ 0#8
def isAcknowledge (r : Rx) : Bool := r.buffer.getD 0 0 &&& 0x40#8 ≠ 0#8
def getPayloadLength (N : Nat) (r : Rx) : Nat := (r.received + 2 ^ sizeBits N - 4) % 2 ^ sizeBits N
/-- the memory `getPayload()[0 .. getPayloadLength())` -/
def getPayload (N : Nat) (r : Rx) : List Byte := (r.buffer.drop 2).take (getPayloadLength N r)
def dropMessage (r : Rx) : Rx := { r with received := 0 }

end Modm.Sab2
