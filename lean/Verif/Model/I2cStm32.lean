import Mathlib.Logic.Function.Basic
import Verif.Model.I2c
import Verif.Spec.I2c

/-!
# The I²C master of STM32 (F1, F2, F4, L1)

Model of `/repo/src/modm/platform/i2c/stm32/i2c_master.cpp.in`.

The peripheral is modelled beside the driver, as in the reference manual (RM0008, 26.3.3 and 26.6): a data register and a
shift register; `SB`, `ADDR`, `TXE`, `RXNE`, `BTF` and `AF`; `ACK`, `POS`, `START` and `STOP`.  The clock is stretched while
both registers are full (receiving) or empty (transmitting).  The devices on the bus are an `App` (`Spec/I2c.lean`).
`none` is undefined behaviour.

Simplified: the bus moves on by whole bytes (`advance`); what the interrupts do takes less time than that, apart from the loops
that wait for `STOP`.  The bus is never busy with others, there are no bus errors and no lost arbitration.  A START condition is
sent at once, after the byte on the bus.  All objects are of one type; `transaction` is the object `trans`, with `attached` for a
pointer that is not null.  Objects that were detached are kept in `done`, handlers that were called in `configs`.
-/

set_option autoImplicit false

namespace Modm.I2cStm32

open Modm.I2c Modm.Spec.I2c

/-- What the peripheral is doing. -/
inductive Mode where
  | idle
  /-- a START condition was sent: `SB` -/
  | sb
  /-- the address was acknowledged: `ADDR` -/
  | addr (read : Bool)
  | tx
  | rx
  /-- something was not acknowledged: `AF` -/
  | nacked
deriving DecidableEq, Repr

/-- `CheckNextOperation` (i2c_master.cpp.in:179-185). -/
inductive Check where
  | no | noWaitForBtf | yes | yesNoStopBit
deriving DecidableEq, Repr

/-- The peripheral with the bus, and the static variables (i2c_master.cpp.in:178-212). -/
structure St (α τ : Type) where
  /-- the devices -/
  app : α
  mode : Mode
  /-- the byte that is being sent -/
  busy : Option Byte
  /-- `DR` -/
  dr : Byte
  /-- `DR` contains a byte that was not sent yet, or not read yet -/
  drFull : Bool
  /-- transmitting: both registers are empty -/
  sent : Bool
  /-- the byte received while `DR` is full -/
  shift : Option Byte
  /-- the last byte was received -/
  rxEnd : Bool
  ack : Bool
  pos : Bool
  /-- `POS`: whether the next byte is acknowledged -/
  posAck : Bool
  /-- `STOP` is going to be sent -/
  stop : Bool
  /-- `ITBUFEN` -/
  itbuf : Bool
  /-- `ITEVTEN` and `ITERREN` -/
  it : Bool
  attached : Bool
  trans : τ
  queue : List (τ × Option Nat)
  config : Option Nat
  next : Operation
  check : Check
  error : Error
  /-- `starting.address` -/
  address : Byte
  wbuf : Option Nat
  wlen : Nat
  rbuf : Option Nat
  rlen : Nat
  mem : Nat → Byte
  done : List τ
  configs : List Nat

variable {α τ : Type} (A : App α) (T : Transaction τ)

/-! ## The peripheral -/

def txe (s : St α τ) : Bool := decide (s.mode = .tx ∨ s.mode = .nacked) && !s.drFull
def rxne (s : St α τ) : Bool := decide (s.mode = .rx) && s.drFull
def btf (s : St α τ) : Bool := (decide (s.mode = .tx) && s.sent && s.busy.isNone && !s.drFull) || (decide (s.mode = .rx) && s.shift.isSome)

/-- The STOP condition. -/
def sendStop (s : St α τ) : St α τ := { s with app := A.stop s.app, stop := false, mode := .idle, sent := false }

/-- A byte is on the bus. -/
def onBus (s : St α τ) : Bool := (decide (s.mode = .tx) && s.busy.isSome) || (decide (s.mode = .rx) && s.shift.isNone && !s.rxEnd)

/-- The byte on the bus is sent or received. -/
def advance (s : St α τ) : St α τ :=
  match s.mode with
  | .tx =>
    match s.busy with
    | none => s
    | some b =>
      let x := A.write b s.app
      let s := { s with app := x.2 }
      let s := if x.1 then
          (if s.drFull then { s with busy := some s.dr, drFull := false } else { s with busy := none, sent := true })
        else { s with busy := none, mode := .nacked }
      if s.stop then { sendStop A s with busy := none, drFull := false } else s
  | .rx =>
    if s.shift.isSome || s.rxEnd then s
    else
      let x := A.read s.app
      let a := if s.pos then s.posAck else s.ack
      let s := { s with app := A.acked a x.2, posAck := s.ack, rxEnd := !a }
      let s := if s.drFull then { s with shift := some x.1 } else { s with dr := x.1, drFull := true }
      if s.stop then sendStop A s else s
  | _ => s

/-- `CR1 |= STOP`: after the byte on the bus. -/
def setStop (s : St α τ) : St α τ :=
  if onBus s then { s with stop := true }
  else match s.mode with
    | .idle => s
    | .rx => sendStop A s
    | _ => { sendStop A s with busy := none, drFull := false }

/-- `while (CR1 & STOP)`. -/
def waitStop (s : St α τ) : St α τ := if s.stop then advance A s else s

/-- `CR1 |= START`. -/
def setStart (s : St α τ) : St α τ :=
  let s := if onBus s then advance A s else s
  { s with app := A.start s.app, mode := .sb, busy := none, sent := false, shift := none, rxEnd := false }

/-- `DR = b`. -/
def writeDr (b : Byte) (s : St α τ) : St α τ :=
  match s.mode with
  | .sb =>
    let x := A.address b s.app
    { s with app := x.2, mode := if x.1 then .addr (b.getLsbD 0) else .nacked, posAck := s.ack }
  | .tx => if s.busy.isNone then { s with busy := some b, sent := false } else { s with dr := b, drFull := true }
  | _ => { s with dr := b, drFull := true }

/-- `SR2` is read after `SR1`: `ADDR` is cleared. -/
def clearAddr (s : St α τ) : St α τ :=
  match s.mode with
  | .addr rd => { s with mode := if rd then .rx else .tx, busy := none, sent := false, shift := none, rxEnd := false }
  | _ => s

/-- The state after `DR` was read. -/
def readDr (s : St α τ) : St α τ :=
  match s.shift with
  | some y => { s with dr := y, drFull := true, shift := none }
  | none => { s with drFull := false }

/-! ## The driver -/

/-- `callStarting` (i2c_master.cpp.in:215-257). -/
def callStarting (s : St α τ) : St α τ :=
  let s := waitStop A s
  let s := { s with check := .no, error := .noError, pos := false, itbuf := false, it := true }
  setStart A s

/-- The handler is called if there is one, and another one than the last (i2c_master.cpp.in:272-275, 648-651). -/
def configure (c : Option Nat) (s : St α τ) : St α τ :=
  match c with
  | some h => if s.config ≠ c then { s with config := c, configs := s.configs ++ [h] } else s
  | none => s

/-- `callNextTransaction` (i2c_master.cpp.in:259-282). -/
def callNext (s : St α τ) : St α τ :=
  match s.queue with
  | [] => s
  | (t, c) :: q =>
    let s := waitStop A s
    let s := configure c { s with queue := q }
    callStarting A { s with trans := t, attached := true }

/-- `if (transaction) transaction->detaching(cause); transaction = nullptr`. -/
def detach (c : DetachCause) (s : St α τ) : St α τ :=
  if s.attached then { s with trans := T.detaching c s.trans, attached := false, done := s.done ++ [T.detaching c s.trans] }
  else s

/-- `writing = transaction->writing(); nextOperation = …` (i2c_master.cpp.in:327-328, 508-509). -/
def fetchWriting (s : St α τ) : St α τ :=
  let w := T.writing s.trans
  { s with trans := w.2, wbuf := w.1.buffer, wlen := lengthOf w.1.buffer w.1.length, next := w.1.next }

/-- `reading = transaction->reading(); …` (i2c_master.cpp.in:305-322). -/
def fetchReading (s : St α τ) : St α τ :=
  let r := T.reading s.trans
  let n := lengthOf r.1.buffer r.1.length
  { s with trans := r.2, rbuf := r.1.buffer, rlen := n, next := r.1.next, ack := decide (2 ≤ n), pos := s.pos || decide (n = 2) }

/-- `SB` (i2c_master.cpp.in:292-344). -/
def onSb (s : St α τ) : Option (St α τ) :=
  if s.attached then
    let st := T.starting s.trans
    let s := { s with trans := st.2, address := st.1.address }
    let s := match st.1.next with
      | .read => fetchReading T s
      | .write => fetchWriting T s
      | _ => { s with wlen := 0, rlen := 0, next := .stop }
    some (writeDr A ((if st.1.next = .read then 1 else 0) ||| (st.1.address &&& 0xfe)) s)
  else none

/-- `*reading.buffer++ = DR` (i2c_master.cpp.in:385-386, 430-431, 460-461, 469-470, 482-483). -/
def store (s : St α τ) : Option (St α τ) :=
  match s.rbuf with
  | none => none
  | some p => some (readDr { s with mem := Function.update s.mem p s.dr, rbuf := some (p + 1) })

/-- `ADDR` (i2c_master.cpp.in:348-395). -/
def onAddr (s : St α τ) : Option (St α τ) :=
  let s := { s with address := 0 }
  let s := { s with itbuf := s.itbuf || decide (0 < s.wlen ∨ 3 < s.rlen) }
  let s := { s with check := if s.rlen = 0 ∧ s.wlen = 0 then .yes else s.check }
  let s := clearAddr s
  if s.rlen = 1 then
    (store (waitStop A (setStop A s))).map fun s => { s with rlen := 0, check := .yesNoStopBit }
  else if s.rlen = 2 then some { s with ack := false }
  else some s

/-- `TXE` (i2c_master.cpp.in:399-420). -/
def onTxe (s : St α τ) : Option (St α τ) :=
  let s := if 0 < s.wlen then
      match s.wbuf with
      | none => none
      | some p => some { writeDr A (s.mem p) s with wbuf := some (p + 1), wlen := s.wlen - 1, check := .noWaitForBtf }
    else some s
  s.map fun s => { s with itbuf := s.itbuf && decide (s.wlen ≠ 0) }

/-- `RXNE` (i2c_master.cpp.in:424-443). -/
def onRxne (s : St α τ) : Option (St α τ) :=
  let s := if 3 < s.rlen then (store s).map fun s => { s with rlen := s.rlen - 1 } else some s
  s.map fun s => { s with itbuf := s.itbuf && decide (3 < s.rlen) }

/-- `BTF` (i2c_master.cpp.in:447-497). -/
def onBtf (s : St α τ) : Option (St α τ) := do
  let s ← if s.rlen = 2 then do
      let s ← store (setStop A s)
      let s ← store (waitStop A s)
      pure { s with rlen := 0, check := .yesNoStopBit }
    else pure s
  let s ← if s.rlen = 3 then do
      let s ← store { s with ack := false }
      pure { s with rlen := 2 }
    else pure s
  if s.check = .noWaitForBtf ∧ s.wlen = 0 then pure { s with check := .yes } else pure s

/-- The next operation (i2c_master.cpp.in:501-537). -/
def onNext (s : St α τ) : Option (St α τ) :=
  if s.check = .yes ∨ s.check = .yesNoStopBit then
    let r : Option (St α τ) := match s.next with
      | .write =>
        if s.check ≠ .yesNoStopBit then
          (if s.attached then some { fetchWriting T s with itbuf := true } else none)
        else some s
      | .restart => some (callStarting A s)
      | _ =>
        let s := if s.check ≠ .yesNoStopBit then setStop A s else s
        some (callNext A (detach T .normalStop { s with it := false, itbuf := false }))
    r.map fun s => { s with check := .no }
  else some s

/-- The first flag that is set, but `BTF` (i2c_master.cpp.in:292-443). -/
def onFlag (s : St α τ) : Option (St α τ) :=
  match s.mode with
  | .sb => onSb A T s
  | .addr _ => onAddr A s
  | _ => if txe s then onTxe A s else if rxne s then onRxne s else some s

/-- The interrupt for events (i2c_master.cpp.in:286-538); the flags are those of its begin. -/
def ev (s : St α τ) : Option (St α τ) :=
  (onFlag A T s).bind fun s1 => (if btf s then onBtf A s1 else some s1).bind (onNext A T)

/-- The interrupt for errors (i2c_master.cpp.in:541-586). -/
def er (s : St α τ) : St α τ :=
  let s := if s.mode = .nacked then
      { setStop A s with error := if s.address ≠ 0 then Error.addressNack else Error.dataNack }
    else s
  let s := detach T .errorCondition s
  callNext A { s with pos := false, wlen := 0, rlen := 0, check := .no, it := false, itbuf := false }

/-- `reset` (i2c_master.cpp.in:616-631). -/
def reset (s : St α τ) : St α τ :=
  let s := detach T .errorCondition { s with rlen := 0, wlen := 0, error := .softwareReset }
  { s with done := s.done ++ s.queue.map (fun x => T.detaching .errorCondition x.1), queue := [] }

/-- `start` (i2c_master.cpp.in:634-670) with the object `t` and the handler `h`; `cap` places in the queue.  Besides the object if it was
not accepted. -/
def start (cap : Nat) (t : τ) (h : Option Nat) (s : St α τ) : Bool × Option τ × St α τ :=
  if s.queue.length < cap then
    let a := T.attaching t
    if a.1 then
      if s.attached = false then
        (true, none, callStarting A { configure h s with trans := a.2, attached := true })
      else (true, none, { s with queue := s.queue ++ [(a.2, s.config)] })
    else (false, some (T.detaching .failedToAttach a.2), s)
  else (false, some t, s)

/-! ## Time -/

def evPending (s : St α τ) : Bool :=
  s.it && (decide (s.mode = .sb) || decide (s.mode = .addr true ∨ s.mode = .addr false) || btf s || (s.itbuf && (txe s || rxne s)))

def erPending (s : St α τ) : Bool := s.it && decide (s.mode = .nacked)

/-- One thing happens: an interrupt is served, or a byte on the bus is finished before that (`late`). -/
def step (late : Bool) (s : St α τ) : Option (St α τ) :=
  if evPending s then (if late && onBus s then some (advance A s) else ev A T s)
  else if erPending s then some (er A T s)
  else some (advance A s)

/-- `n` things happen; `late` tells when an interrupt is served too late. -/
def run : Nat → (Nat → St α τ → Bool) → St α τ → Option (St α τ)
  | 0, _, s => some s
  | n + 1, late, s => (step A T (late 0 s) s).bind (run n fun i => late (i + 1))

end Modm.I2cStm32
