import Mathlib.Logic.Function.Basic
import Verif.Model.I2c
import Verif.Spec.I2c

/-!
# The I²C master of STM32 (F0, F3, F7, G0, G4, H7, L0, L4, …)

Model of `/repo/src/modm/platform/i2c/stm32-extended/i2c_master.cpp.in`.

The peripheral is modelled beside the driver, as in the reference manual (RM0316, 28.4.8 and 28.7): a register and a shift register for each direction;
`NBYTES`, `RELOAD`, `AUTOEND` and `START`; `TXIS`, `RXNE`, `TC`, `TCR`, `STOPF` and `NACKF`.  The clock is stretched if there is nothing to send, between the eighth and the ninth
pulse if `RXDR` is full, and while `TC` or `TCR` is set.  After something was not acknowledged, STOP is sent.  The devices on the bus are an `App`
(`Spec/I2c.lean`).  `none` is undefined behaviour.

Simplified: the bus moves on by whole bytes, those that are received by eight bits and the acknowledge (`advance`).  The bus is never busy with others, there are no bus
errors and no lost arbitration (the interrupt for errors is not enabled by the driver).  With `RELOAD` and no bytes the peripheral is taken to stop.  All objects are of one type; `transaction` is the object
`trans`, with `attached` for a pointer that is not null.  Objects that were detached are kept in `done`, handlers that were called in `configs`.  Left out: the loop that waits
for `STOPF` (it was cleared).
-/

set_option autoImplicit false

namespace Modm.I2cStm32Ext

open Modm.I2c Modm.Spec.I2c

/-- What the bus is doing. -/
inductive Phase where
  | idle
  /-- START and the address -/
  | addr
  /-- transmitting -/
  | tx
  /-- a byte is being received -/
  | rxByte
  /-- the byte is being acknowledged -/
  | rxAck
  /-- the byte was received, `RXDR` is full -/
  | rxHold
  /-- after the last of `NBYTES` -/
  | wait
  /-- no bytes with `RELOAD` -/
  | stuck
deriving DecidableEq, Repr

structure St (α τ : Type) where
  /-- the devices -/
  app : α
  phase : Phase
  /-- `CR2`: the address and the direction -/
  cmd : Byte
  /-- the bytes of `NBYTES` that were not yet moved to the shift register, or not yet received -/
  left : Nat
  reload : Bool
  autoend : Bool
  /-- the byte that is being sent -/
  busy : Option Byte
  txdr : Option Byte
  rxdr : Option Byte
  /-- the byte received while `RXDR` is full -/
  shift : Option Byte
  stopf : Bool
  nackf : Bool
  tc : Bool
  tcr : Bool
  stopie : Bool
  tcie : Bool
  rxie : Bool
  txie : Bool
  attached : Bool
  trans : τ
  queue : List (τ × Option Nat)
  config : Option Nat
  next : Operation
  error : Error
  /-- `starting.address` -/
  address : Byte
  wbuf : Option Nat
  wlen : Nat
  rbuf : Option Nat
  rlen : Nat
  mem : Nat → Byte
  done : List τ
  configs : List Nat

variable {α τ : Type} (A : App α) (T : Transaction τ)

/-! ## The peripheral -/

def txis (s : St α τ) : Bool := decide (s.phase = .tx) && s.txdr.isNone && decide (0 < s.left)

/-- STOP. -/
def sendStop (s : St α τ) : St α τ := { s with app := A.stop s.app, phase := .idle, busy := none, stopf := true }

/-- After the last byte of `NBYTES`. -/
def ended (s : St α τ) : St α τ :=
  if s.reload then { s with phase := .wait, tcr := true }
  else if s.autoend then sendStop A s
  else { s with phase := .wait, tc := true }

/-- A byte is moved from `TXDR` to the shift register. -/
def load (s : St α τ) : St α τ :=
  if s.phase = .tx ∧ s.busy = none ∧ 0 < s.left then
    match s.txdr with
    | some b => { s with busy := some b, txdr := none, left := s.left - 1 }
    | none => s
  else s

/-- The bus moves on. -/
def advance (s : St α τ) : St α τ :=
  match s.phase with
  | .addr =>
    let x := A.address s.cmd (A.start s.app)
    let s := { s with app := x.2 }
    if x.1 then
      (if s.left = 0 then (if s.reload then { s with phase := .stuck } else ended A s)
      else load { s with phase := if s.cmd.getLsbD 0 then .rxByte else .tx })
    else sendStop A { s with nackf := true }
  | .tx =>
    match s.busy with
    | none => s
    | some b =>
      let x := A.write b s.app
      let s := { s with app := x.2, busy := none }
      if x.1 then (if s.left = 0 then ended A s else load s)
      else sendStop A { s with nackf := true }
  | .rxByte =>
    let x := A.read s.app
    let s := { s with app := x.2, left := s.left - 1 }
    if s.rxdr = none then { s with rxdr := some x.1, phase := .rxAck } else { s with shift := some x.1, phase := .rxHold }
  | .rxAck =>
    let s := { s with app := A.acked (decide (s.left ≠ 0) || s.reload) s.app }
    if s.left = 0 then ended A s else { s with phase := .rxByte }
  | _ => s

/-- `CR2 = …`; the direction is that of the last START. -/
def setCr2 (n : Nat) (reload autoend start read : Bool) (address : Byte) (s : St α τ) : St α τ :=
  let s := { s with left := n, reload := reload, autoend := autoend }
  if start then { s with phase := .addr, cmd := (address &&& 0xfe) ||| (if read then 1 else 0), tc := false, busy := none }
  else if s.tcr ∧ n ≠ 0 then load { s with tcr := false, phase := if s.cmd.getLsbD 0 then .rxByte else .tx }
  else s

/-- `TXDR = b`. -/
def writeTxdr (b : Byte) (s : St α τ) : St α τ := load { s with txdr := some b }

/-- The state after `RXDR` was read. -/
def readRxdr (s : St α τ) : St α τ :=
  match s.shift with
  | some y => { s with rxdr := some y, shift := none, phase := .rxAck }
  | none => { s with rxdr := none }

/-! ## The driver -/

/-- `CR1 &= ~(STOPIE | TCIE | RXIE | TXIE)`, then some of them are set. -/
def enable (stopie tcie rxie txie : Bool) (s : St α τ) : St α τ := { s with stopie := stopie, tcie := tcie, rxie := rxie, txie := txie }

/-- `if (writing.length > 0 and writing.buffer != nullptr) TXDR = *writing.buffer++` (i2c_master.cpp.in:97-100, 432-435). -/
def putByte (s : St α τ) : St α τ :=
  match s.wbuf with
  | some p => if 0 < s.wlen then { writeTxdr (s.mem p) s with wbuf := some (p + 1) } else s
  | none => s

/-- `callWriteOperation` (i2c_master.cpp.in:90-144). -/
def callWrite (start : Bool) (s : St α τ) : St α τ :=
  let s := putByte s
  let n := s.wlen
  let reload := decide (s.next = .write ∨ 255 < n)
  let autoend := !reload && decide (s.next = .stop)
  let s := setCr2 (if 255 < n then 255 else n) reload autoend start false s.address s
  let s := { s with wlen := n - 1 }
  if autoend && decide (s.wlen = 0) then enable true false false false s
  else if s.wlen = 0 then enable false true false false s
  else enable false true false true s

/-- `callReadOperation` (i2c_master.cpp.in:146-196). -/
def callRead (start : Bool) (s : St α τ) : St α τ :=
  let n := s.rlen
  let reload := decide (s.next ≠ .stop ∨ 255 < n)
  let s := setCr2 (if 255 < n then 255 else n) reload (!reload) start true s.address s
  if !reload && decide (n = 0) then enable true false false false s
  else if n = 0 then enable false true false false s
  else enable true reload true false s

/-- `writing = transaction->writing(); nextOperation = …` (i2c_master.cpp.in:213-214, 477-478). -/
def fetchWriting (s : St α τ) : St α τ :=
  let w := T.writing s.trans
  { s with trans := w.2, wbuf := w.1.buffer, wlen := lengthOf w.1.buffer w.1.length, next := w.1.next }

/-- `reading = transaction->reading(); …` (i2c_master.cpp.in:205-206, 485-486). -/
def fetchReading (s : St α τ) : St α τ :=
  let r := T.reading s.trans
  { s with trans := r.2, rbuf := r.1.buffer, rlen := lengthOf r.1.buffer r.1.length, next := r.1.next }

/-- `callStarting` (i2c_master.cpp.in:198-240). -/
def callStarting (s : St α τ) : Option (St α τ) :=
  if s.attached then
    let st := T.starting s.trans
    let s := { s with trans := st.2, address := st.1.address }
    let s := match st.1.next with
      | .read => callRead true (fetchReading T s)
      | .write => callWrite true (fetchWriting T s)
      | _ => enable true false false false
          (setCr2 0 false true true false s.address { s with wlen := 0, rlen := 0, next := .stop })
    some { s with error := .noError }
  else none

/-- The handler is called if there is one, and another one than the last (i2c_master.cpp.in:255-258, 616-619). -/
def configure (c : Option Nat) (s : St α τ) : St α τ :=
  match c with
  | some h => if s.config ≠ c then { s with config := c, configs := s.configs ++ [h] } else s
  | none => s

/-- `callNextTransaction` (i2c_master.cpp.in:242-265). -/
def callNext (s : St α τ) : Option (St α τ) :=
  match s.queue with
  | [] => some s
  | (t, c) :: q => callStarting T { configure c { s with queue := q } with trans := t, attached := true }

/-- `if (transaction) transaction->detaching(cause); transaction = nullptr`. -/
def detach (c : DetachCause) (s : St α τ) : St α τ :=
  if s.attached then { s with trans := T.detaching c s.trans, attached := false, done := s.done ++ [T.detaching c s.trans] }
  else s

/-- `RXNE` (i2c_master.cpp.in:373-399); `stopf` is the flag at the begin of the interrupt. -/
def onRxne (stopf : Bool) (s : St α τ) : Option (St α τ) :=
  match s.rbuf, s.rxdr with
  | some p, some b =>
    let n := if s.rlen = 0 then 4294967295 else s.rlen - 1
    let s : St α τ := { readRxdr { s with mem := Function.update s.mem p b } with rbuf := some (p + 1), rlen := n }
    if 0 < n then some { s with rxie := true }
    else if s.next = .stop ∧ stopf = false then some { s with stopie := true }
    else some s
  | _, _ => none

/-- `STOPF` (i2c_master.cpp.in:401-426); `nackf` is the flag at the begin of the interrupt. -/
def onStopf (nackf : Bool) (s : St α τ) : Option (St α τ) :=
  if nackf then
    callNext T (detach T .errorCondition { s with nackf := false, error := if s.address ≠ 0 then Error.addressNack else Error.dataNack })
  else if s.next = .stop then callNext T (detach T .normalStop s)
  else some s

/-- `TXIS` (i2c_master.cpp.in:428-458). -/
def onTxis (s : St α τ) : St α τ :=
  let s := putByte s
  let s := { s with wlen := s.wlen - 1 }
  if s.wlen = 0 then
    (if s.next = .restart ∨ s.next = .write then { s with tcie := true } else { s with stopie := true })
  else { s with txie := true, tcie := true }

/-- `TCR` (i2c_master.cpp.in:460-490). -/
def onTcr (s : St α τ) : Option (St α τ) :=
  if 0 < s.wlen then some (callWrite false s)
  else if 0 < s.rlen then some (callRead false s)
  else match s.next with
    | .write => if s.attached then some (callWrite false (fetchWriting T s)) else none
    | .read => if s.attached then some (callRead false (fetchReading T s)) else none
    | _ => some s

/-- `TC` (i2c_master.cpp.in:492-502). -/
def onTc (s : St α τ) : Option (St α τ) :=
  if s.next = .restart then callStarting T s else some s

/-- The interrupt (i2c_master.cpp.in:335-503).  The bus may move on (`race`) after `ISR` was read and before `STOPF` is cleared. -/
def isr (race : Bool) (s : St α τ) : Option (St α τ) :=
  let s1 := if race then advance A s else s
  let s1 := { enable false false false false s1 with stopf := false }
  (if s.rxdr.isSome then onRxne s.stopf s1 else some s1).bind fun s2 =>
  (if s.stopf then onStopf T s.nackf s2 else some s2).bind fun s3 =>
  (if s.tcr then onTcr T (if txis s then onTxis s3 else s3) else some (if txis s then onTxis s3 else s3)).bind fun s4 =>
  if s.tc then onTc T s4 else some s4

/-- `reset` (i2c_master.cpp.in:580-595). -/
def reset (s : St α τ) : St α τ :=
  let s := detach T .errorCondition { s with rlen := 0, wlen := 0, error := .softwareReset }
  { s with done := s.done ++ s.queue.map (fun x => T.detaching .errorCondition x.1), queue := [] }

/-- `start` (i2c_master.cpp.in:597-638) with a pointer to an object, or null, and the handler `h`; `cap` places in the queue.  Besides the object if it was
not accepted. -/
def start (cap : Nat) (t : Option τ) (h : Option Nat) (s : St α τ) : Option (Bool × Option τ × St α τ) :=
  match t with
  | none => none
  | some t =>
    let st := T.starting t
    let t := st.2
    let s := { s with address := st.1.address }
    if s.queue.length < cap then
      let a := T.attaching t
      if a.1 then
        if s.attached = false then
          (callStarting T { configure h s with trans := a.2, attached := true }).map fun s => (true, none, s)
        else some (true, none, { s with queue := s.queue ++ [(a.2, s.config)] })
      else some (false, some (T.detaching .failedToAttach a.2), s)
    else some (false, some t, s)

/-! ## Time -/

def pending (s : St α τ) : Bool :=
  (s.stopie && s.stopf) || (s.tcie && (s.tc || s.tcr)) || (s.rxie && s.rxdr.isSome) || (s.txie && txis s)

/-- The bus is going to move on without the driver. -/
def moving (s : St α τ) : Bool :=
  decide (s.phase = .addr ∨ s.phase = .rxByte ∨ s.phase = .rxAck) || (decide (s.phase = .tx) && s.busy.isSome)

/-- When an interrupt is served. -/
inductive When where
  | inTime
  /-- the bus moves on before -/
  | late
  /-- the bus moves on while it is being served -/
  | race
deriving DecidableEq, Repr

/-- One thing happens. -/
def step (c : When) (s : St α τ) : Option (St α τ) :=
  if pending s then
    match c with
    | .inTime => isr A T false s
    | .late => if moving s then some (advance A s) else isr A T false s
    | .race => isr A T true s
  else some (advance A s)

def run : Nat → (Nat → St α τ → When) → St α τ → Option (St α τ)
  | 0, _, s => some s
  | n + 1, c, s => (step A T (c 0 s) s).bind (run n fun i => c (i + 1))

end Modm.I2cStm32Ext
