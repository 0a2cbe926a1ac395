import Verif.Model.CanFrame
/-
A frame on the bus, and which frame the registers of the controllers stand for (reference manuals RM0008 24.9.3 and RM0440
44.3, MCP2515 data sheet 3.0, 4.0 and 12.0, linux/can.h, UM10398 26.4.2).
-/
set_option autoImplicit false
namespace Spec.CanFrame
open Modm.Can (Message)
open Modm.CanFrame (Mailbox Element SockFrame MsgObj)
open Modm.Sab (Byte)

structure Frame where
  extended : Bool
  id : BitVec 29
  rtr : Bool
  fd : Bool
  brs : Bool
  dlc : Nat
  data : List Byte
  deriving DecidableEq

/-- number of bytes by the DLC of an FD frame (ISO 11898-1) -/
def fdLength (dlc : Nat) : Nat :=
  if dlc ≤ 8 then dlc else if dlc ≤ 12 then 8 + 4 * (dlc - 8) else if dlc = 13 then 32 else if dlc = 14 then 48 else 64

/-- number of data bytes in a frame; in a classic frame a DLC above 8 means 8 bytes -/
def payload (rtr fd : Bool) (dlc : Nat) : Nat := if rtr then 0 else if fd then fdLength dlc else min dlc 8

/-- The frame the message stands for. -/
def frameOf (m : Message) : Frame :=
  { extended := m.extended, id := m.identifier.setWidth 29, rtr := m.rtr, fd := m.fd, brs := m.brs, dlc := m.dlc
    data := if m.rtr then [] else m.data.take m.length }

/-- A message as the constructors and the setters make it (C57), with an identifier that exists. -/
structure Proper (capacity : Nat) (m : Message) : Prop where
  id : m.identifier.toNat < if m.extended then 2 ^ 29 else 2 ^ 11
  dlc : m.dlc ≤ 15
  length : m.length = fdLength m.dlc
  fits : m.length ≤ capacity
  data : m.data.length = capacity
  fd : m.dlc > 8 → m.fd = true
  rtr : m.fd = true → m.rtr = false
  brs : m.brs = true → m.fd = true

/-- A message object tells everything about the frame. -/
structure Tells (m : Message) (f : Frame) : Prop where
  extended : m.extended = f.extended
  id : m.identifier = f.id.setWidth 32
  rtr : m.rtr = f.rtr
  fd : m.fd = f.fd
  brs : m.brs = f.brs
  dlc : m.dlc = f.dlc
  /-- also for a remote frame, which has a length and no data -/
  length : m.length = payload false f.fd f.dlc
  data : f.rtr = false → m.data.take m.length = f.data

/-- a number from some bits of a register -/
def bits (w : BitVec 32) (pos len : Nat) : BitVec 29 := (w.extractLsb' pos len).setWidth 29

/-- bxCAN mailbox: `STID[10:0]/EXID[28:18] EXID[17:0] IDE RTR TXRQ`, DLC in the lowest four bits, data bytes from the lowest on -/
def bxFrame (b : Mailbox) : Frame :=
  { extended := b.ir.getLsbD 2
    id := if b.ir.getLsbD 2 then bits b.ir 3 29 else bits b.ir 21 11
    rtr := b.ir.getLsbD 1, fd := false, brs := false
    dlc := (b.dtr.extractLsb' 0 4).toNat
    data := ((List.range 8).map fun i => (if i < 4 then b.dlr.extractLsb' (8 * i) 8 else b.dhr.extractLsb' (8 * (i - 4)) 8)).take
      (payload (b.ir.getLsbD 1) false (b.dtr.extractLsb' 0 4).toNat) }

/-- the bytes of the data words -/
def wordBytes (ws : List (BitVec 32)) : List Byte := ws.flatMap fun w => (List.range 4).map fun i => w.extractLsb' (8 * i) 8

/-- FDCAN element: `ESI XTD RTR ID[28:0]`, a standard identifier in `ID[28:18]`; `FDF BRS DLC[3:0]` from bit 21 on -/
def fdcanFrame (e : Element) : Frame :=
  { extended := e.h0.getLsbD 30
    id := if e.h0.getLsbD 30 then bits e.h0 0 29 else bits e.h0 18 11
    rtr := e.h0.getLsbD 29, fd := e.h1.getLsbD 21, brs := e.h1.getLsbD 20
    dlc := (e.h1.extractLsb' 16 4).toNat
    data := (wordBytes e.data).take (payload (e.h0.getLsbD 29) (e.h1.getLsbD 21) (e.h1.extractLsb' 16 4).toNat) }

/-- SocketCAN: `EFF RTR ERR ID[28:0]` -/
def sockFrame (s : SockFrame) : Frame :=
  { extended := s.id.getLsbD 31
    id := if s.id.getLsbD 31 then bits s.id 0 29 else bits s.id 0 11
    rtr := s.id.getLsbD 30, fd := false, brs := false, dlc := s.dlc
    data := s.data.take (payload (s.id.getLsbD 30) false s.dlc) }

/-- What Linux delivers: no error frames unless asked for, at most 8 bytes, 11 bits in a standard identifier. -/
structure FromLinux (s : SockFrame) : Prop where
  dlc : s.dlc ≤ 8
  data : s.data.length = 8
  error : s.id.getLsbD 29 = false
  standard : s.id.getLsbD 31 = false → ∀ i, 11 ≤ i → i < 29 → s.id.getLsbD i = false

/-- message object of the C_CAN driver in ROM -/
def objFrame (o : MsgObj) : Frame :=
  { extended := o.modeId.getLsbD 29
    id := if o.modeId.getLsbD 29 then bits o.modeId 0 29 else bits o.modeId 0 11
    rtr := o.modeId.getLsbD 30, fd := false, brs := false, dlc := o.dlc
    data := o.data.take (payload (o.modeId.getLsbD 30) false o.dlc) }

/-- MCP2515: identifier of the registers `SIDH SIDL EID8 EID0` -/
def mcpId (b0 b1 b2 b3 : Byte) : BitVec 29 :=
  if b1.getLsbD 3 then b0 ++ b1.extractLsb' 5 3 ++ b1.extractLsb' 0 2 ++ b2 ++ b3
  else (b0 ++ b1.extractLsb' 5 3 : BitVec 11).setWidth 29

/-- frame of registers with the remote flag -/
def mcpFrame (rtr : Bool) (b0 b1 b2 b3 b4 : Byte) (d : List Byte) : Frame :=
  { extended := b1.getLsbD 3, id := mcpId b0 b1 b2 b3, rtr := rtr, fd := false, brs := false
    dlc := (b4.extractLsb' 0 4).toNat, data := d.take (payload rtr false (b4.extractLsb' 0 4).toNat) }

/-- transmit buffer: `RTR` is bit 6 of `TXBnDLC` -/
def mcpTx : List Byte → Option Frame
  | b0 :: b1 :: b2 :: b3 :: b4 :: d => some (mcpFrame (b4.getLsbD 6) b0 b1 b2 b3 b4 d)
  | _ => none

/-- receive buffer: `RTR` is bit 6 of `RXBnDLC` for extended frames, `SRR` in bit 4 of `RXBnSIDL` for standard frames -/
def mcpRx : List Byte → Option Frame
  | b0 :: b1 :: b2 :: b3 :: b4 :: d => some (mcpFrame (if b1.getLsbD 3 then b4.getLsbD 6 else b1.getLsbD 4) b0 b1 b2 b3 b4 d)
  | _ => none

/-- The answer to `RX_STATUS` (data sheet, figure 12-9): bits 6 and 7 tell which buffer is full, bit 3 is set for a remote frame
in the buffer reported, which is the first one if it is full. -/
structure RxStatus (status : Byte) (full0 full1 : Bool) (f0 f1 : Frame) : Prop where
  first : status.getLsbD 6 = full0
  second : status.getLsbD 7 = full1
  rtr0 : full0 = true → status.getLsbD 3 = f0.rtr
  rtr1 : full0 = false → full1 = true → status.getLsbD 3 = f1.rtr

end Spec.CanFrame
