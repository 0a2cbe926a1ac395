import Mathlib.Logic.Function.Basic

set_option autoImplicit false

/-!
# Radio nRF24L01+

Model of `src/modm/driver/radio/nrf24/nrf24_phy_impl.hpp` and `nrf24_phy.hpp`, `nrf24_config_impl.hpp` and
`nrf24_config.hpp`, `nrf24_data_impl.hpp` and `nrf24_data.hpp`.

The device is modelled after its data sheet: the commands of chapter 8.3.1, the registers of chapter 9, the
two queues of three packets, the flags of the register `STATUS`.  Every transaction between the edges of
`CSN` is a list of bytes and its answer.  Simplifications: the address registers of 40 bits are written as a
whole (as the driver does); dynamic payload length, payloads in acknowledgements, `REUSE_TX_PL`,
`OBSERVE_TX` and `RPD` are left out (these registers read 0); the time a mode change takes is left out;
reading the payload when there is none yields zeros.  Of the time stamps of received packets nothing is
modelled, of the timeout only whether it has expired.
-/

namespace Modm.Nrf24

abbrev Byte := BitVec 8

/-- The device: registers of one byte, the three long addresses (lowest byte first), the flags, the queue of
received packets with the pipe, the queue of packets to be sent with `NO_ACK`, the pin `CE`. -/
structure Dev where
  regs : Byte → Byte
  a0 : List Byte
  a1 : List Byte
  ta : List Byte
  rxDr : Bool
  txDs : Bool
  maxRt : Bool
  rxF : List (Nat × List Byte)
  txF : List (Bool × List Byte)
  ce : Bool

/-- Register `STATUS`. -/
def Dev.status (d : Dev) : Byte :=
  (if d.rxDr then 0x40 else 0) ||| (if d.txDs then 0x20 else 0) ||| (if d.maxRt then 0x10 else 0) |||
    (match d.rxF with | [] => 0x0e | x :: _ => BitVec.ofNat 8 (2 * (x.1 % 8))) ||| (if d.txF.length = 3 then 1 else 0)

/-- Register `FIFO_STATUS`. -/
def Dev.fifoStatus (d : Dev) : Byte :=
  (if d.rxF.length = 0 then 1 else 0) ||| (if d.rxF.length = 3 then 2 else 0) ||| (if d.txF.length = 0 then 0x10 else 0) |||
    (if d.txF.length = 3 then 0x20 else 0)

/-- What a register reads. -/
def Dev.readReg (d : Dev) (r : Byte) : List Byte :=
  if r = 0x0a then d.a0 else if r = 0x0b then d.a1 else if r = 0x10 then d.ta
  else if r = 0x07 then [d.status] else if r = 0x17 then [d.fifoStatus]
  else if r = 0x08 ∨ r = 0x09 then [0] else [d.regs r]

/-- Writing a register.  A one in `STATUS` clears the flag. -/
def Dev.writeReg (d : Dev) (r : Byte) (data : List Byte) : Dev :=
  if r = 0x0a then (if data.length = 5 then { d with a0 := data } else d)
  else if r = 0x0b then (if data.length = 5 then { d with a1 := data } else d)
  else if r = 0x10 then (if data.length = 5 then { d with ta := data } else d)
  else
    match data with
    | [b] =>
      if r = 0x07 then { d with rxDr := d.rxDr && !b.getLsbD 6, txDs := d.txDs && !b.getLsbD 5, maxRt := d.maxRt && !b.getLsbD 4 }
      else if r = 0x08 ∨ r = 0x09 ∨ r = 0x17 then d
      else { d with regs := Function.update d.regs r b }
    | _ => d

/-- `n` bytes of an answer. -/
def fit (n : Nat) (l : List Byte) : List Byte := l.take n ++ List.replicate (n - l.length) 0

/-- A command with its data: the answer to the data, and the device afterwards. -/
def Dev.exec (d : Dev) (c : Byte) (data : List Byte) : List Byte × Dev :=
  if c < 0x20 then (fit data.length (d.readReg c), d)
  else if c < 0x40 then (fit data.length [], d.writeReg (c &&& 0x1f) data)
  else if c = 0x61 then
    match d.rxF with
    | [] => (fit data.length [], d)
    | x :: f => (fit data.length x.2, { d with rxF := f })
  else if c = 0xa0 then (fit data.length [], if d.txF.length < 3 then { d with txF := d.txF ++ [(false, data)] } else d)
  else if c = 0xb0 then
    (fit data.length [], if d.txF.length < 3 ∧ (d.regs 0x1d).getLsbD 0 = true then { d with txF := d.txF ++ [(true, data)] } else d)
  else if c = 0xe1 then (fit data.length [], { d with txF := [] })
  else if c = 0xe2 then (fit data.length [], { d with rxF := [] })
  else (fit data.length [], d)

/-- A transaction. -/
def Dev.transact (d : Dev) : List Byte → List Byte × Dev
  | [] => ([], d)
  | c :: data => (d.status :: (d.exec c data).1, (d.exec c data).2)

/-! ## What happens on the air -/

/-- `PRIM_RX`, `PWR_UP`. -/
def Dev.primRx (d : Dev) : Bool := (d.regs 0x00).getLsbD 0
def Dev.pwrUp (d : Dev) : Bool := (d.regs 0x00).getLsbD 1

/-- The address of a pipe: pipes 2 to 5 have their own lowest byte. -/
def Dev.pipeAddr (d : Dev) (p : Nat) : List Byte :=
  match p with
  | 0 => d.a0
  | 1 => d.a1
  | p + 2 => d.regs (BitVec.ofNat 8 (0x0c + p)) :: d.a1.drop 1

/-- The pipe that takes a packet for an address. -/
def Dev.pipeOf (d : Dev) (a : List Byte) : Option Nat :=
  (List.range 6).find? fun p => (d.regs 0x02).getLsbD p && decide (d.pipeAddr p = a)

/-- A packet is received and put into the queue. -/
def Dev.arrive (d : Dev) (a : List Byte) (pkt : List Byte) : Option Dev :=
  if d.primRx = true ∧ d.pwrUp = true ∧ d.ce = true ∧ d.rxF.length < 3 then
    (d.pipeOf a).map fun p => { d with rxF := d.rxF ++ [(p, pkt)], rxDr := true }
  else none

/-- The device can send. -/
def Dev.sends (d : Dev) : Bool := !d.primRx && d.pwrUp && d.ce && !d.maxRt

/-- The first packet has been sent, without waiting for an acknowledgement. -/
def Dev.sentNoAck (d : Dev) : Option Dev :=
  match d.txF with
  | (true, _) :: f => if d.sends then some { d with txF := f, txDs := true } else none
  | _ => none

/-- The first packet has been sent and acknowledged; pipe 0 has to listen to the address. -/
def Dev.sentAck (d : Dev) : Option Dev :=
  match d.txF with
  | (false, _) :: f =>
    if d.sends = true ∧ (d.regs 0x02).getLsbD 0 = true ∧ d.a0 = d.ta then some { d with txF := f, txDs := true } else none
  | _ => none

/-- The first packet was not acknowledged after all repetitions; it remains in the queue. -/
def Dev.sentFail (d : Dev) : Option Dev :=
  match d.txF with
  | (false, _) :: _ => if d.sends then some { d with maxRt := true } else none
  | _ => none

/-! ## Physical layer -/

/-- `readRegister`, `nrf24_phy_impl.hpp:76-83`. -/
def readRegister (r : Byte) (d : Dev) : Byte × Dev :=
  let t := d.transact [0x00 ||| r, 0]
  (t.1.getD 1 0, t.2)

/-- `writeRegister`, `nrf24_phy_impl.hpp:87-94`. -/
def writeRegister (r b : Byte) (d : Dev) : Dev := (d.transact [0x20 ||| r, b]).2

/-- `setBits`, `nrf24_phy_impl.hpp:98-104`. -/
def setBits (r f : Byte) (d : Dev) : Dev :=
  let t := readRegister r d
  writeRegister r (t.1 ||| f) t.2

/-- `clearBits`, `nrf24_phy_impl.hpp:118-124`. -/
def clearBits (r f : Byte) (d : Dev) : Dev :=
  let t := readRegister r d
  writeRegister r (t.1 &&& ~~~f) t.2

/-- `clearInterrupt`, `nrf24_phy_impl.hpp:109-113`. -/
def clearInterrupt (f : Byte) (d : Dev) : Dev := writeRegister 0x07 f d

/-- `readRxPayload`, `nrf24_phy_impl.hpp:128-143`, for a payload length that is not 0 (`initialize` in
`nrf24_phy.hpp:47-55` replaces 0 by 32). -/
def readRxPayload (len : Byte) (d : Dev) : List Byte × Dev :=
  let t := d.transact (0x61 :: List.replicate len.toNat 0)
  (t.1.drop 1, t.2)

/-- `writeTxPayload`, `nrf24_phy_impl.hpp:147-156`. -/
def writeTxPayload (len : Byte) (data : List Byte) (d : Dev) : Dev :=
  if data.length > len.toNat then d else (d.transact (0xa0 :: data)).2

/-- `writeTxPayloadNoAck`, `nrf24_phy_impl.hpp:160-169`. -/
def writeTxPayloadNoAck (len : Byte) (data : List Byte) (d : Dev) : Dev :=
  if data.length > len.toNat then d else (d.transact (0xb0 :: data)).2

/-- `readStatus`, `nrf24_phy_impl.hpp:188-194`. -/
def readStatus (d : Dev) : Byte × Dev :=
  let t := d.transact [0xff]
  (t.1.getD 0 0, t.2)

/-- `flushTxFifo`, `flushRxFifo`, `nrf24_phy.hpp:152-171`. -/
def flushTxFifo (d : Dev) : Dev := (d.transact [0xe1]).2
def flushRxFifo (d : Dev) : Dev := (d.transact [0xe2]).2

/-- The five lower bytes of an address, lowest first, `nrf24_phy_impl.hpp:212-217`, `237-240`. -/
def addrBytes (x : BitVec 64) : List Byte :=
  [x.extractLsb' 0 8, x.extractLsb' 8 8, x.extractLsb' 16 8, x.extractLsb' 24 8, x.extractLsb' 32 8]

/-- `setRxAddress`, `nrf24_phy_impl.hpp:198-227`. -/
def setRxAddress (p : Byte) (x : BitVec 64) (d : Dev) : Dev :=
  if p ≤ 1 then (d.transact (((0x20 ||| 0x0a) + p) :: addrBytes x)).2
  else if p < 6 then writeRegister (0x0a + p) (x.extractLsb' 0 8) d
  else d

/-- `setTxAddress`, `nrf24_phy_impl.hpp:231-246`. -/
def setTxAddress (x : BitVec 64) (d : Dev) : Dev := (d.transact ((0x20 ||| 0x10) :: addrBytes x)).2

/-- Lines 266-270: the bytes as a number. -/
def assemble (l : List Byte) : BitVec 64 := l.reverse.foldl (fun a b => (a <<< 8) ||| b.setWidth 64) 0

/-- `readAddressRegister`, `nrf24_phy_impl.hpp:250-291`. -/
def readAddressRegister (r : Byte) (d : Dev) : BitVec 64 × Dev :=
  if r = 0x0a ∨ r = 0x0b ∨ r = 0x10 then
    let t := d.transact [0x00 ||| r, 0, 0, 0, 0, 0]
    (assemble (t.1.drop 1), t.2)
  else if r = 0x0c ∨ r = 0x0d ∨ r = 0x0e ∨ r = 0x0f then
    let t := readRegister r d
    (t.1.setWidth 64, t.2)
  else (0, d)

/-- `getRxAddress`, `nrf24_phy_impl.hpp:295-303`. -/
def getRxAddress (p : Byte) (d : Dev) : BitVec 64 × Dev := readAddressRegister (0x0a + p) d

/-- `getTxAddress`, `nrf24_phy_impl.hpp:307-312`. -/
def getTxAddress (d : Dev) : BitVec 64 × Dev := readAddressRegister 0x10 d

/-- `pulseCe`, `nrf24_phy_impl.hpp:316-325`: toggles the pin twice. -/
def pulseCe (d : Dev) : Dev :=
  let d := { d with ce := !d.ce }
  { d with ce := !d.ce }

/-- `setCe`, `nrf24_phy.hpp:139-141`. -/
def setCe (d : Dev) : Dev := { d with ce := true }

/-! ## Configuration -/

/-- `Speed`, `nrf24_config.hpp:36-42`. -/
inductive Speed where
  | kBps250
  | mBps1
  | mBps2
  deriving DecidableEq

/-- `setSpeed`, `nrf24_config_impl.hpp:63-81`. -/
def setSpeed : Speed → Dev → Dev
  | .kBps250, d => setBits 0x06 0x20 (clearBits 0x06 0x08 d)
  | .mBps1, d => clearBits 0x06 0x20 (clearBits 0x06 0x08 d)
  | .mBps2, d => clearBits 0x06 0x20 (setBits 0x06 0x08 d)

/-- `getSpeed`, `nrf24_config_impl.hpp:85-98`. -/
def getSpeed (d : Dev) : Speed :=
  let t := readRegister 0x06 d
  if t.1 &&& 0x20 ≠ 0 then .kBps250 else if t.1 &&& 0x08 ≠ 0 then .mBps2 else .mBps1

/-- `setCrc`, `nrf24_config_impl.hpp:102-115`; number of bytes. -/
def setCrc (n : Nat) (d : Dev) : Dev :=
  if n = 0 then clearBits 0x00 0x08 d
  else
    let d := setBits 0x00 0x08 d
    if n = 1 then clearBits 0x00 0x04 d else if n = 2 then setBits 0x00 0x04 d else d

/-- `setRfPower`, `nrf24_config_impl.hpp:119-126`. -/
def setRfPower (p : Byte) (d : Dev) : Dev :=
  let t := readRegister 0x06 d
  writeRegister 0x06 ((t.1 &&& ~~~(0x06 : Byte)) ||| (p <<< 1)) t.2

/-- `setAutoRetransmitDelay`, `nrf24_config_impl.hpp:130-137`. -/
def setAutoRetransmitDelay (x : Byte) (d : Dev) : Dev :=
  let t := readRegister 0x04 d
  writeRegister 0x04 ((t.1 &&& ~~~(0xf0 : Byte)) ||| (x <<< 4)) t.2

/-- `setAutoRetransmitCount`, `nrf24_config_impl.hpp:141-148`. -/
def setAutoRetransmitCount (x : Byte) (d : Dev) : Dev :=
  let t := readRegister 0x04 d
  writeRegister 0x04 ((t.1 &&& ~~~(0x0f : Byte)) ||| x) t.2

/-- `enablePipe`, `nrf24_config_impl.hpp:153-173`. -/
def enablePipe (len p : Byte) (ack : Bool) (d : Dev) : Dev :=
  let d := writeRegister (0x11 + p) len d
  let d := if ack then setBits 0x01 ((1 : Byte) <<< p.toNat) d else clearBits 0x01 ((1 : Byte) <<< p.toNat) d
  setBits 0x02 ((1 : Byte) <<< p.toNat) d

/-- `disablePipe`, `nrf24_config.hpp:194-196`. -/
def disablePipe (p : Byte) (d : Dev) : Dev := clearBits 0x02 ((1 : Byte) <<< p.toNat) d

/-! ## Data layer -/

inductive Mode where
  | rx
  | tx
  | invalid
  deriving DecidableEq

/-- `SendingFeedback`, `nrf24_data.hpp:56-64`. -/
inductive Feedback where
  | busy
  | finishedAck
  | finishedNack
  | dontKnow
  | undefined
  deriving DecidableEq

/-- The variables of the three classes and the device. -/
structure St where
  dev : Dev
  mode : Mode
  len : Byte
  base : BitVec 64
  own : Byte
  bcast : Byte
  fb : Feedback

/-- `setMode`, `nrf24_config_impl.hpp:23-59`. -/
def setMode (m : Mode) (s : St) : St :=
  if m = s.mode then s
  else
    match m with
    | .rx => { s with dev := setCe (setBits 0x00 0x01 (flushRxFifo s.dev)), mode := .rx }
    | .tx => { s with dev := setCe (pulseCe (clearBits 0x00 0x01 (flushTxFifo s.dev))), mode := .tx }
    | .invalid => s

/-- `assembleAddress`, `nrf24_data.hpp:192-195`. -/
def address (base : BitVec 64) (a : Byte) : BitVec 64 := base ||| a.setWidth 64

/-- `initialize`, `nrf24_data_impl.hpp:23-87`. -/
def init (base : BitVec 64) (own bcast : Byte) (s : St) : St :=
  let base := base &&& ~~~(0xff : BitVec 64)
  let s := { s with base := base, fb := .undefined, len := 32 }
  let d := writeRegister 0x03 0x03 s.dev
  let d := setRxAddress 2 (address base own) d
  let d := setRxAddress 1 (address base bcast) d
  let d := setRxAddress 0 (~~~address base 0x55) d
  let d := enablePipe s.len 0 true d
  let d := setBits 0x1d 0x01 d
  let d := flushTxFifo (flushRxFifo d)
  let d := enablePipe s.len 1 true d
  let d := enablePipe s.len 2 true d
  let d := setCrc 1 d
  let d := setSpeed .kBps250 d
  let d := setAutoRetransmitDelay 0x03 d
  let d := setAutoRetransmitCount 0x0f d
  let d := setRfPower 0x03 d
  let d := setBits 0x00 0x70 d
  let d := clearBits 0x00 0x40 d
  let s := setMode .rx { s with dev := d, own := own, bcast := bcast }
  { s with dev := setCe (setBits 0x00 0x02 s.dev) }

/-- `sendPacket`, `nrf24_data_impl.hpp:120-166`; the packet consists of the source, the destination and the
payload. -/
def sendPacket (dest : Byte) (payload : List Byte) (s : St) : Bool × St :=
  if s.fb = .busy then (false, s)
  else
    let s := setMode .tx s
    let pkt := s.own :: dest :: payload
    let x := address s.base dest
    let d := setTxAddress x s.dev
    let d :=
      if dest = s.bcast then writeTxPayloadNoAck s.len pkt d
      else writeTxPayload s.len pkt (enablePipe s.len 0 true (setRxAddress 0 x d))
    (true, { s with dev := pulseCe d, fb := .busy })

/-- `isPacketAvailable`, `nrf24_data_impl.hpp:289-309`. -/
def isPacketAvailable (d : Dev) : Bool × Dev :=
  let t := readStatus d
  if t.1 &&& 0x40 ≠ 0 then (true, t.2)
  else
    let t := readRegister 0x17 t.2
    (decide (t.1 &&& 0x01 = 0), t.2)

/-- `getPacket`, `nrf24_data_impl.hpp:170-211`; `none` stands for false. -/
def getPacket (s : St) : Option (List Byte) × St :=
  let t := isPacketAvailable s.dev
  if t.1 then
    let r := readRxPayload s.len (clearInterrupt 0x40 t.2)
    (some r.1, { s with dev := r.2 })
  else (none, { s with dev := t.2 })

/-- `update`, `nrf24_data_impl.hpp:275-285`, and `updateSendingState`, lines 215-271, after the status has been
read (line 224) or, if not busy, not (`none`). -/
def finish (st : Option Byte) (expired : Bool) (s : St) : St :=
  match st with
  | none => setMode .rx s
  | some st =>
    if st &&& 0x20 ≠ 0 then
      setMode .rx { s with fb := .finishedAck, dev := disablePipe 0 (clearInterrupt 0x20 s.dev) }
    else if st &&& 0x10 ≠ 0 then
      setMode .rx { s with fb := .finishedNack, dev := disablePipe 0 (clearInterrupt 0x10 (flushTxFifo s.dev)) }
    else if expired then
      setMode .rx { s with fb := .dontKnow, dev := disablePipe 0 (flushTxFifo s.dev) }
    else s

/-- The first part of `update`: the status, if busy. -/
def poll (s : St) : Option Byte × St :=
  if s.fb ≠ .busy then (none, s)
  else
    let t := readStatus s.dev
    (some t.1, { s with dev := t.2 })

/-- `update`. -/
def update (expired : Bool) (s : St) : St := finish (poll s).1 expired (poll s).2

/-! ## Executions -/

/-- What became of the last packet. -/
inductive Outcome where
  | pending
  | acked
  | sentNoAck
  | failed
  deriving DecidableEq

/-- The driver; the status while `update` is between its two parts; destination and fate of the last packet;
packets taken by the device with their address; packets given to the user. -/
structure World where
  st : St
  mid : Option (Option Byte)
  last : Byte
  fate : Outcome
  heard : List (List Byte × List Byte)
  got : List (List Byte)

/-- Calls of the user, the two parts of `update`, and what happens on the air. -/
inductive Act where
  | send (dest : Byte) (payload : List Byte)
  | get
  | poll
  | finish (expired : Bool)
  | arrive (a pkt : List Byte)
  | sentNoAck
  | sentAck
  | sentFail

/-- One step. -/
def step (w : World) : Act → Option World
  | .send dest payload =>
    if w.mid.isNone then
      let r := sendPacket dest payload w.st
      some (if r.1 then { w with st := r.2, last := dest, fate := .pending } else { w with st := r.2 })
    else none
  | .get =>
    if w.mid.isNone then
      let r := getPacket w.st
      some { w with st := r.2, got := w.got ++ r.1.toList }
    else none
  | .poll =>
    if w.mid.isNone then
      let r := poll w.st
      some { w with st := r.2, mid := some r.1 }
    else none
  | .finish e => w.mid.map fun st => { w with st := finish st e w.st, mid := none }
  | .arrive a pkt => (w.st.dev.arrive a pkt).map fun d => { w with st := { w.st with dev := d }, heard := w.heard ++ [(a, pkt)] }
  | .sentNoAck => w.st.dev.sentNoAck.map fun d => { w with st := { w.st with dev := d }, fate := .sentNoAck }
  | .sentAck => w.st.dev.sentAck.map fun d => { w with st := { w.st with dev := d }, fate := .acked }
  | .sentFail => w.st.dev.sentFail.map fun d => { w with st := { w.st with dev := d }, fate := .failed }

/-- A sequence of steps. -/
def run (w : World) : List Act → Option World
  | [] => some w
  | a :: l => (step w a).bind fun w => run w l

end Modm.Nrf24
