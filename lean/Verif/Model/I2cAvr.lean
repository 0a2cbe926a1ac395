import Mathlib.Logic.Function.Basic
import Verif.Model.I2c
import Verif.Spec.I2c

/-!
# The I²C master of AVRs

Model of `/repo/src/modm/platform/i2c/at90_tiny_mega/i2c_master.cpp.in`.

The module TWI is modelled beside the driver, as in the data sheet of the ATmega328P: with `TWINT` written to `TWCR` it does
the next thing on the bus, and says with a status how that went; the devices on the bus are an `App` (`Spec/I2c.lean`).
`size_t` has 16 bits.  `none` is undefined behaviour.

Simplified: `transaction` is the one object `trans`, with `attached` for a pointer that is not null.  A write to `TWCR` without
`TWINT` only switches the interrupt.  Configuration handlers and `initialize` are left out.
-/

set_option autoImplicit false

namespace Modm.I2cAvr

open Modm.I2c Modm.Spec.I2c

/-- The status codes of TWI (`util/twi.h`). -/
inductive Status where
  | start | repStart
  | mtSlaAck | mtSlaNack | mtDataAck | mtDataNack
  | mrSlaAck | mrSlaNack | mrDataAck | mrDataNack
  | arbLost
  /-- anything else: a bus error, modes of a slave, or nothing to say -/
  | other
deriving DecidableEq, Repr

/-- The module TWI with the bus, and the static variables (i2c_master.cpp.in:31-44). -/
structure St (α τ : Type) where
  /-- the devices -/
  app : α
  status : Status
  /-- `TWDR` -/
  dr : Byte
  /-- an interrupt is to be served: `TWINT` is set, and `TWIE` -/
  int : Bool
  /-- `START` was sent and no `STOP` yet -/
  owned : Bool
  attached : Bool
  trans : τ
  next : Operation
  error : Error
  wbuf : Option Nat
  wlen : Nat
  rbuf : Option Nat
  rlen : Nat
  mem : Nat → Byte

variable {α τ : Type} (A : App α) (T : Transaction τ)

/-- `TWCR` is written with `TWINT` and `TWEN`, and with these bits. -/
def twcr (sta sto ea ie : Bool) (s : St α τ) : St α τ :=
  if sto then { s with app := A.stop s.app, status := .other, int := false, owned := false }
  else if sta then
    { s with app := A.start s.app, status := if s.owned then .repStart else .start, int := ie, owned := true }
  else
    match s.status with
    | .start | .repStart =>
      let x := A.address s.dr s.app
      { s with app := x.2, int := ie,
               status := if s.dr.getLsbD 0 then (if x.1 then .mrSlaAck else .mrSlaNack)
                         else (if x.1 then .mtSlaAck else .mtSlaNack) }
    | .mtSlaAck | .mtDataAck =>
      let x := A.write s.dr s.app
      { s with app := x.2, int := ie, status := if x.1 then .mtDataAck else .mtDataNack }
    | .mrSlaAck | .mrDataAck =>
      let x := A.read s.app
      { s with app := A.acked ea x.2, dr := x.1, int := ie, status := if ea then .mrDataAck else .mrDataNack }
    | _ => { s with int := false }

/-- `TWCR = (1 << TWEN)`. -/
def twcrOff (s : St α τ) : St α τ := { s with int := false }

/-- `transaction->detaching(cause); transaction = nullptr`; the pointer must not be null. -/
def detach (s : St α τ) : Option (St α τ) :=
  if s.attached then some { s with trans := T.detaching .normalStop s.trans, attached := false } else none

/-- `writing = transaction->writing(); nextOperation = …` (i2c_master.cpp.in:73-76, 110-111), with the constructor of
`Writing` (i2c_transaction.hpp:64). -/
def fetchWriting (s : St α τ) : St α τ :=
  let w := T.writing s.trans
  { s with trans := w.2, wbuf := w.1.buffer, wlen := lengthOf w.1.buffer w.1.length, next := w.1.next }

/-- `reading = transaction->reading(); nextOperation = …` (i2c_master.cpp.in:67-71). -/
def fetchReading (s : St α τ) : St α τ :=
  let r := T.reading s.trans
  { s with trans := r.2, rbuf := r.1.buffer, rlen := lengthOf r.1.buffer r.1.length, next := r.1.next }

/-- The interrupt after a START condition (i2c_master.cpp.in:53-88). -/
def onStart (s : St α τ) : Option (St α τ) :=
  if s.attached then
    let st := T.starting s.trans
    let s := { s with trans := st.2 }
    let s := match st.1.next with
      | .read => fetchReading T s
      | .write => fetchWriting T s
      | .stop => { s with wlen := 0, rlen := 0, next := .stop }
      | .restart => s
    let s := { s with dr := (if st.1.next = .read then 1 else 0) ||| (st.1.address &&& 0xfe) }
    some (twcr A false false false true s)
  else none

/-- `TWDR = *writing.buffer++; --writing.length; TWCR = …` (i2c_master.cpp.in:98-101, 112-114). -/
def writeByte (s : St α τ) : Option (St α τ) :=
  match s.wbuf with
  | none => none
  | some p => some (twcr A false false false true
      { s with dr := s.mem p, wbuf := some (p + 1), wlen := (s.wlen + 65535) % 65536 })

/-- The interrupt after an acknowledged byte (i2c_master.cpp.in:91-131). -/
def onWritten (s : St α τ) : Option (St α τ) :=
  if s.wlen > 0 then writeByte A s
  else match s.next with
    | .write => if s.attached then writeByte A (fetchWriting T s) else none
    | .restart => some (twcr A true false false true s)
    | _ => detach T (twcr A false true false false s)

/-- `*reading.buffer++ = TWDR; --reading.length` (i2c_master.cpp.in:134-136, 156-158). -/
def store (s : St α τ) : Option (St α τ) :=
  match s.rbuf with
  | none => none
  | some p => some { s with mem := Function.update s.mem p s.dr, rbuf := some (p + 1), rlen := (s.rlen + 65535) % 65536 }

/-- The next byte is to be received (i2c_master.cpp.in:139-152). -/
def receive (s : St α τ) : St α τ :=
  if s.rlen > 1 then twcr A false false true true s else twcr A false false false true s

/-- The interrupt after the last byte (i2c_master.cpp.in:153-175). -/
def onLast (s : St α τ) : Option (St α τ) := do
  let s ← store s
  match s.next with
  | .restart => some (twcr A true false false true s)
  | _ => detach T (twcr A false true false false s)

/-- The end of all errors (i2c_master.cpp.in:202-211); `e` is the error unless there is one already. -/
def fail (e : Error) (s : St α τ) : St α τ :=
  let s := { s with error := if s.error = Error.noError then e else s.error }
  let s := { s with trans := if s.attached then T.detaching .errorCondition s.trans else s.trans, attached := false, dr := 0xff }
  twcrOff s

/-- The interrupt (i2c_master.cpp.in:49-214).  `Unknown` is not among the errors of `Modm.I2c`, `busCondition` stands for it. -/
def isr (s : St α τ) : Option (St α τ) :=
  match s.status with
  | .start | .repStart => onStart A T s
  | .mtSlaAck | .mtDataAck => onWritten A T s
  | .mrDataAck => (store s).map (receive A)
  | .mrSlaAck => some (receive A s)
  | .mrDataNack => onLast A T s
  | .mtSlaNack | .mrSlaNack => some (fail T .addressNack (twcr A false true false false s))
  | .mtDataNack => some (fail T .dataNack (twcr A false true false false s))
  | .arbLost => some (fail T .arbitrationLost s)
  | .other => some (fail T .busCondition s)

/-- `start` (i2c_master.cpp.in:247-271) with the object `t`. -/
def start (t : τ) (s : St α τ) : Bool × St α τ :=
  if s.attached then (false, s)
  else
    let a := T.attaching t
    if a.1 then
      (true, twcr A true false false true { s with trans := a.2, attached := true, error := .noError })
    else (false, { s with trans := T.detaching .failedToAttach a.2 })

/-- `reset` (i2c_master.cpp.in:230-239). -/
def reset (s : St α τ) : St α τ :=
  { s with wlen := 0, rlen := 0, error := .softwareReset,
           trans := if s.attached then T.detaching .errorCondition s.trans else s.trans, attached := false }

/-- Interrupts are served as long as there are some, at most `n`. -/
def run : Nat → St α τ → Option (St α τ)
  | 0, s => some s
  | n + 1, s => if s.int then (isr A T s).bind (run n) else some s

end Modm.I2cAvr
