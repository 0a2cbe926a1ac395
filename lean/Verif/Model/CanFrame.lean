import Verif.Model.Can
/-
Model of the conversion between `modm::can::Message` and what the CAN controllers take and deliver:
bxCAN (src/modm/platform/can/stm32/can.cpp.in), FDCAN (src/modm/platform/can/stm32-fdcan/message_ram.hpp and can.cpp.in),
SocketCAN (src/modm/platform/can/socketcan/socketcan.cpp), MCP2515 (src/modm/driver/can/mcp2515_impl.hpp) and the C_CAN of the
LPC11C (src/modm/platform/can/lpc/c_can.cpp.in).  `none` is undefined behaviour (an access outside an array).
Memory is little endian, as on every target with these controllers.
-/
set_option autoImplicit false
namespace Modm.CanFrame
open Modm.Can
open Modm.Sab (Byte)

/-- a 32-bit load from four bytes of memory -/
def word (a b c d : Byte) : BitVec 32 := d ++ c ++ b ++ a

/-- the bytes of a 32-bit store -/
def bytes (w : BitVec 32) : List Byte := [w.setWidth 8, (w >>> 8).setWidth 8, (w >>> 16).setWidth 8, (w >>> 24).setWidth 8]

/-! ### bxCAN -/

/-- `CAN_TxMailBox_TypeDef`, `CAN_FIFOMailBox_TypeDef` -/
structure Mailbox where
  ir : BitVec 32
  dtr : BitVec 32
  dlr : BitVec 32
  dhr : BitVec 32
  deriving DecidableEq, Repr

/-- `CAN_TI0R_IDE`, `CAN_RI0R_IDE` -/
def tirIde : BitVec 32 := 0x4#32
/-- `CAN_TI0R_RTR`, `CAN_RI0R_RTR` -/
def tirRtr : BitVec 32 := 0x2#32
/-- `CAN_TI0R_TXRQ` -/
def tirTxrq : BitVec 32 := 0x1#32

/-- the two 32-bit loads from `message.data` (stm32/can.cpp.in:181-184) -/
def loadTwo : List Byte → Option (BitVec 32 × BitVec 32)
  | a :: b :: c :: d :: e :: f :: g :: h :: _ => some (word a b c d, word e f g h)
  | _ => none

/-- `sendMailbox` (stm32/can.cpp.in:161-188) -/
def sendMailbox (m : Message) : Option Mailbox :=
  (loadTwo m.data).map fun x =>
    { ir := (if m.extended then m.identifier <<< 3 ||| tirIde else m.identifier <<< 21) ||| (if m.rtr then tirRtr else 0#32) ||| tirTxrq
      dtr := BitVec.ofNat 32 m.dlc, dlr := x.1, dhr := x.2 }

/-- the two 32-bit stores to `message.data` (stm32/can.cpp.in:211-213) -/
def storeTwo (lo hi : BitVec 32) : List Byte → Option (List Byte)
  | _ :: _ :: _ :: _ :: _ :: _ :: _ :: _ :: rest => some (bytes lo ++ bytes hi ++ rest)
  | _ => none

/-- `readMailbox` (stm32/can.cpp.in:193-214) without the filter index; `m` is the object passed by reference -/
def readMailbox (capacity : Nat) (m : Message) (b : Mailbox) : Option Message :=
  (setDataLengthCode capacity
    { m with
      identifier := if b.ir &&& tirIde ≠ 0#32 then b.ir >>> 3 else b.ir >>> 21
      extended := decide (b.ir &&& tirIde ≠ 0#32)
      rtr := decide (b.ir &&& tirRtr ≠ 0#32) }
    (b.dtr &&& 0xf#32).toNat).bind fun m' =>
  (storeTwo b.dlr b.dhr m'.data).map fun d => { m' with data := d }

/-! ### FDCAN -/

/-- an element of the transmit queue or of a receive FIFO in the message RAM -/
structure Element where
  h0 : BitVec 32
  h1 : BitVec 32
  data : List (BitVec 32)
  deriving DecidableEq, Repr

/-- `Value::set` (architecture/interface/register.hpp:642-643) with `Mask` -/
def valueSet (mask : BitVec 32) (pos : Nat) (parent config : BitVec 32) : BitVec 32 := (parent &&& ~~~mask) ||| ((config <<< pos) &&& mask)

/-- `Value::get` (register.hpp:650-651) -/
def valueGet (mask : BitVec 32) (pos : Nat) (parent : BitVec 32) : BitVec 32 := (parent &&& mask) >>> pos

/-- `CanId_t` (message_ram.hpp:45) -/
def idMask : BitVec 32 := 0x1fffffff#32
/-- `TxDlc_t`, `RxDlc_t` (message_ram.hpp:59, 76) -/
def dlcMask : BitVec 32 := 0x000f0000#32
def extendedId : BitVec 32 := 0x40000000#32
def remoteFrame : BitVec 32 := 0x20000000#32
def fdFrame : BitVec 32 := 0x00200000#32
def bitRateSwitching : BitVec 32 := 0x00100000#32

/-- `headerFromMessage` (message_ram.hpp:214-224) -/
def headerFromMessage (m : Message) : BitVec 32 :=
  valueSet idMask 0 ((if m.extended then extendedId else 0#32) ||| (if m.rtr then remoteFrame else 0#32))
    (if m.extended then m.identifier else m.identifier <<< 18)

/-- `txHeaderFromMessage` (message_ram.hpp:227-237) -/
def txHeaderFromMessage (m : Message) : BitVec 32 :=
  valueSet dlcMask 16 ((if m.fd then fdFrame else 0#32) ||| (if m.brs then bitRateSwitching else 0#32)) (BitVec.ofNat 32 m.dlc)

/-- the loop of `writeData` (message_ram.hpp:202-208): `n` words are copied from memory -/
def packWords : Nat → List Byte → Option (List (BitVec 32))
  | 0, _ => some []
  | n + 1, a :: b :: c :: d :: rest => (packWords n rest).map (word a b c d :: ·)
  | _ + 1, _ => none

/-- number of iterations of the loops `for (i = 0; i < size; i += 4)` (message_ram.hpp:180, 202) -/
def wordCount (size : Nat) : Nat := (min size 64 + 3) / 4

/-- what `sendMsg` puts into the message RAM (stm32-fdcan/can.cpp.in:143-150) -/
def sendElement (m : Message) : Option Element :=
  (packWords (wordCount m.length) m.data).map fun d => { h0 := headerFromMessage m, h1 := txHeaderFromMessage m, data := d }

/-- the loop of `readData` (message_ram.hpp:180-186) -/
def unpackWords : Nat → List (BitVec 32) → List Byte → Option (List Byte)
  | 0, _, data => some data
  | n + 1, w :: ws, _ :: _ :: _ :: _ :: rest => (unpackWords n ws rest).map (bytes w ++ ·)
  | _ + 1, _, _ => none

/-- `readMsg` (stm32-fdcan/can.cpp.in:92-129) without filter index and timestamp -/
def readElement (capacity : Nat) (m : Message) (e : Element) : Option Message :=
  (setDataLengthCode capacity
    { m with
      extended := decide (e.h0 &&& extendedId ≠ 0#32)
      rtr := decide (e.h0 &&& remoteFrame ≠ 0#32)
      identifier := if e.h0 &&& extendedId ≠ 0#32 then valueGet idMask 0 e.h0 else valueGet idMask 0 e.h0 >>> 18 }
    (valueGet dlcMask 16 e.h1).toNat).bind fun m' =>
  (unpackWords (wordCount m'.length) e.data m'.data).map fun d => { m' with data := d }

/-- the two loops of the receive handler (stm32-fdcan/can.cpp.in:257-269): one local `rxMessage` takes every frame in turn -/
def readAll (capacity : Nat) : Message → List Element → Option (List Message)
  | _, [] => some []
  | m, e :: es => (readElement capacity m e).bind fun m' => (readAll capacity m' es).map (m' :: ·)

/-! ### SocketCAN -/

/-- `struct can_frame` of Linux -/
structure SockFrame where
  id : BitVec 32
  dlc : Nat
  data : List Byte
  deriving DecidableEq, Repr

def effFlag : BitVec 32 := 0x80000000#32
def rtrFlag : BitVec 32 := 0x40000000#32

/-- copying `n` bytes to the start of an array, `for (ii = 0; ii < n; ++ii) to[ii] = from[ii]` -/
def copy : Nat → List Byte → List Byte → Option (List Byte)
  | 0, _, dst => some dst
  | n + 1, x :: src, _ :: dst => (copy n src dst).map (x :: ·)
  | _ + 1, _, _ => none

/-- `SocketCan::sendMessage` (socketcan.cpp:139-160); `rest` is the uninitialised content of `frame.data` -/
def sockSend (m : Message) (rest : List Byte) : Option SockFrame :=
  (copy m.length m.data rest).map fun d =>
    { id := m.identifier ||| (if m.extended then effFlag else 0#32) ||| (if m.rtr then rtrFlag else 0#32), dlc := m.length, data := d }

/-- `SocketCan::getMessage` (socketcan.cpp:118-136) after a successful `recv` -/
def sockGet (capacity : Nat) (m : Message) (f : SockFrame) : Option Message :=
  (setDataLengthCode capacity { m with identifier := f.id } f.dlc).bind fun m' =>
  (copy f.dlc f.data m'.data).map fun d =>
    { m' with extended := decide (f.id &&& effFlag ≠ 0#32), rtr := decide (f.id &&& rtrFlag ≠ 0#32), data := d }

/-! ### MCP2515 -/

/-- `writeIdentifier` (mcp2515_impl.hpp:367-397): the four bytes transferred -/
def writeIdentifier (id : BitVec 32) (extended : Bool) : List Byte :=
  if extended then
    [((id >>> 16).setWidth 16 >>> 5).setWidth 8,
     (((id >>> 16).setWidth 8 <<< 3) &&& 0xe0#8) ||| 0x08#8 ||| ((id >>> 16).setWidth 8 &&& 0x03#8),
     (id >>> 8).setWidth 8, id.setWidth 8]
  else [(id.setWidth 16 >>> 3).setWidth 8, id.setWidth 8 <<< 5, 0#8, 0#8]

/-- the bytes after `WRITE_TX` in `sendMessage` (mcp2515_impl.hpp:283-297) -/
def mcpWrite (m : Message) : Option (List Byte) :=
  if m.rtr then some (writeIdentifier m.identifier m.extended ++ [0x40#8 ||| BitVec.ofNat 8 m.length])
  else if m.length ≤ m.data.length then
    some (writeIdentifier m.identifier m.extended ++ BitVec.ofNat 8 m.length :: m.data.take m.length)
  else none

/-- `readIdentifier` (mcp2515_impl.hpp:400-438) from the four bytes received -/
def readIdentifier (first second third fourth : Byte) : BitVec 32 × Bool :=
  if second &&& 0x08#8 ≠ 0#8 then
    let hi : BitVec 16 := first.setWidth 16 <<< 5
    let b2 : Byte := hi.setWidth 8 ||| ((second >>> 3) &&& 0x1c#8) ||| (second &&& 0x03#8)
    (((hi >>> 8).setWidth 8 : Byte) ++ b2 ++ third ++ fourth, true)
  else
    let lo : BitVec 16 := first.setWidth 16 <<< 3
    ((0#16 : BitVec 16) ++ ((lo >>> 8).setWidth 8 : Byte) ++ (lo.setWidth 8 ||| (second >>> 5) : Byte), false)

/-- `getMessage` (mcp2515_impl.hpp:217-232): `buf` are the registers from `RXBnSIDH` on, `status` is the answer to `RX_STATUS` -/
def mcpRead (m : Message) (status : Byte) : List Byte → Option Message
  | b0 :: b1 :: b2 :: b3 :: b4 :: d =>
    (copy (b4 &&& 0x0f#8).toNat d m.data).map fun data =>
      { m with identifier := (readIdentifier b0 b1 b2 b3).1, extended := (readIdentifier b0 b1 b2 b3).2
               rtr := decide (status &&& 0x08#8 ≠ 0#8), length := (b4 &&& 0x0f#8).toNat, data := data }
  | _ => none

/-- `getMessage` (mcp2515_impl.hpp:197-239): which of the two receive buffers is read; the outer `none` is undefined behaviour,
the inner one is the result `false` -/
def mcpGet (m : Message) (status : Byte) (buf0 buf1 : List Byte) : Option (Option (Message × Bool)) :=
  if status &&& 0x40#8 ≠ 0#8 then (mcpRead m status buf0).map fun m' => some (m', false)
  else if status &&& 0x80#8 ≠ 0#8 then (mcpRead m status buf1).map fun m' => some (m', true)
  else some none

/-- `sendMessage` (mcp2515_impl.hpp:265-279): the transmit buffer used, from the answer to `READ_STATUS` -/
def mcpBuffer (status : Byte) : Option (Fin 3) :=
  if status &&& 0x04#8 = 0#8 then some 0 else if status &&& 0x10#8 = 0#8 then some 1 else if status &&& 0x40#8 = 0#8 then some 2 else none

/-! ### C_CAN -/

/-- `CAN_MSG_OBJ` (ext/nxp/lpc11xx/driver/rom_driver_CAN.h:43-49) without mask and number -/
structure MsgObj where
  modeId : BitVec 32
  data : List Byte
  dlc : Nat
  deriving DecidableEq, Repr

/-- `sendMessageObject` (c_can.cpp.in:43-80); `rest` is the uninitialised content of `msg_obj.data` -/
def sendObj (m : Message) (rest : List Byte) : Option MsgObj :=
  (copy m.dlc m.data rest).map fun d =>
    { modeId := m.identifier ||| 0#32 ||| (if m.extended then 0x20000000#32 else 0#32) ||| (if m.rtr then 0x40000000#32 else 0#32)
      dlc := m.dlc, data := d }

/-- `readMessageObject` (c_can.cpp.in:83-118) -/
def readObj (capacity : Nat) (m : Message) (o : MsgObj) : Option Message :=
  (setDataLengthCode capacity
    { m with
      extended := decide (o.modeId &&& 0x20000000#32 ≠ 0#32)
      identifier := if o.modeId &&& 0x20000000#32 ≠ 0#32 then o.modeId &&& 0x1fffffff#32 else o.modeId &&& 0x7ff#32
      rtr := decide (o.modeId &&& 0x40000000#32 ≠ 0#32) } o.dlc).bind fun m' =>
  (copy m'.length o.data m'.data).map fun d => { m' with data := d }

end Modm.CanFrame
