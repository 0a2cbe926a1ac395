import Mathlib.Logic.Function.Basic

set_option autoImplicit false

/-!
# The bit-banged I2C master and the transaction objects

Model of `src/modm/platform/i2c/bitbang/bitbang_i2c_master_impl.hpp`,
`src/modm/architecture/interface/i2c_transaction.hpp` and of `resetDevices` in
`src/modm/architecture/interface/i2c.hpp`.

The two open-drain pins and the passing of time are operations on an arbitrary environment `σ`
(`Wires`).  The object behind the pointer `I2cTransaction*` is a value of a type `τ` with the virtual
functions of the class (`Transaction`).  Buffers are addresses in a memory; a null pointer is
`none`.  The result `none` stands for undefined behaviour (a null pointer is dereferenced) and for
a transaction that goes on for more operations than the given bound.

Left out: `connect` besides `resetDevices`, and the configuration handler of `start`
(`bitbang_i2c_master_impl.hpp:98-101`), which works as the one of the SPI lock (C112).
-/

namespace Modm.I2c

abbrev Byte := BitVec 8

/-- The pins: `SCL::set`, `SDA::set` (`true` releases the line), `SCL::read`, `SDA::read`, and waiting
for a number of quarters of a clock period: `delay4` is one, `delay2` two
(`bitbang_i2c_master.hpp.in:120-128`). -/
structure Wires (σ : Type) where
  scl : Bool → σ → σ
  sda : Bool → σ → σ
  readScl : σ → Bool
  readSda : σ → Bool
  delay : Nat → σ → σ

/-- `i2c_master.hpp:38-49`. -/
inductive Error
  | noError | softwareReset | addressNack | dataNack | arbitrationLost | busCondition | busBusy
deriving DecidableEq, Repr

/-- `i2c.hpp:36-42`. -/
inductive DetachCause
  | normalStop | errorCondition | failedToAttach
deriving DecidableEq, Repr

/-- `i2c.hpp:49-56`. -/
inductive Operation
  | stop | restart | write | read
deriving DecidableEq, Repr

/-- `i2c_transaction.hpp:37-52`. -/
structure Starting where
  address : Byte
  next : Operation

/-- `i2c_transaction.hpp:54-71`. -/
structure Writing where
  buffer : Option Nat
  length : Nat
  next : Operation

/-- `i2c_transaction.hpp:73-90`. -/
structure Reading where
  buffer : Option Nat
  length : Nat
  next : Operation

/-- The virtual functions, `i2c_transaction.hpp:176-221`. -/
structure Transaction (τ : Type) where
  attaching : τ → Bool × τ
  starting : τ → Starting × τ
  writing : τ → Writing × τ
  reading : τ → Reading × τ
  detaching : DetachCause → τ → τ

/-- The static members of the master, the object behind `transactionObject`, the memory and the
environment. -/
structure Master (σ τ : Type) where
  env : σ
  /-- `transactionObject != nullptr` -/
  attached : Bool
  trans : τ
  error : Error
  /-- `starting.address` -/
  address : Byte
  mem : Nat → Byte

variable {σ τ : Type} (w : Wires σ) (T : Transaction τ)

/-- The loop `bitbang_i2c_master_impl.hpp:299-308`, with the value of `deadlockPreventer`. -/
def sclWait : Nat → σ → Bool × σ
  | 0, s => (false, s)
  | d + 1, s =>
    if w.readScl s then (true, s)
    else if w.readScl (w.delay 1 s) then (true, w.delay 1 s)
    else sclWait d (w.delay 1 (w.delay 1 s))

/-- `bitbang_i2c_master_impl.hpp:293-309`. -/
def sclSetAndWait (s : σ) : Bool × σ := sclWait w 250 (w.scl true s)

/-- `errorState = …; if (transactionObject) transactionObject->detaching(…); transactionObject = nullptr`,
`bitbang_i2c_master_impl.hpp:230-232`. -/
def giveUp (e : Error) (m : Master σ τ) : Master σ τ :=
  { m with error := e, trans := if m.attached then T.detaching .errorCondition m.trans else m.trans,
           attached := false }

/-- `bitbang_i2c_master_impl.hpp:220-255`. -/
def startCondition (m : Master σ τ) : Bool × Master σ τ :=
  let m := { m with env := w.delay 1 (w.sda true m.env) }
  if w.readSda m.env = false then (false, giveUp T .busBusy m)
  else
    let r := sclSetAndWait w m.env
    let m := { m with env := r.2 }
    if r.1 = false then (false, giveUp T .busBusy m)
    else (true, { m with env := w.delay 2 (w.scl false (w.delay 2 (w.sda false m.env))) })

/-- `bitbang_i2c_master_impl.hpp:259-289`. -/
def stopCondition (m : Master σ τ) : Bool × Master σ τ :=
  let r := sclSetAndWait w (w.sda false (w.scl false m.env))
  let m := { m with env := r.2 }
  if r.1 = false then (false, giveUp T .busCondition m)
  else
    let m := { m with env := w.delay 1 (w.sda true (w.delay 2 m.env)) }
    if w.readSda m.env = false then (false, giveUp T .busCondition m)
    else (true, m)

/-- `bitbang_i2c_master_impl.hpp:192-214`. -/
def error (e : Error) (m : Master σ τ) : Master σ τ :=
  let m := { m with env := w.delay 2 (w.sda false (w.scl false (w.delay 2 m.env))) }
  let r := stopCondition w T m
  if r.1 = false then { r.2 with error := e }
  else giveUp T e { r.2 with env := w.sda true (w.scl true r.2.env) }

/-- `bitbang_i2c_master_impl.hpp:397-414`. -/
def writeBit (bit : Bool) (s : σ) : Bool × σ :=
  let s := w.delay 2 (w.sda bit s)
  if w.readSda s = bit then
    let r := sclSetAndWait w s
    if r.1 then (true, w.scl false (w.delay 2 r.2)) else (false, r.2)
  else (false, s)

/-- The loop `bitbang_i2c_master_impl.hpp:319-328`. -/
def writeBits : Nat → Byte → σ → Bool × σ
  | 0, _, s => (true, s)
  | n + 1, data, s =>
    let r := writeBit w (data &&& 0x80#8 != 0#8) s
    if r.1 then writeBits n (data <<< 1) r.2 else (false, r.2)

/-- `bitbang_i2c_master_impl.hpp:315-356`. -/
def write (data : Byte) (m : Master σ τ) : Bool × Master σ τ :=
  let r := writeBits w 8 data m.env
  if r.1 = false then (false, error w T .arbitrationLost { m with env := r.2 })
  else
    let r := sclSetAndWait w (w.delay 2 (w.sda true r.2))
    let m := { m with env := r.2 }
    if r.1 = false then (false, error w T .busCondition m)
    else if w.readSda m.env then
      (false, error w T (if m.address != 0#8 then .addressNack else .dataNack) m)
    else (true, { m with env := w.scl false (w.delay 2 m.env) })

/-- `bitbang_i2c_master_impl.hpp:418-436`. -/
def readBit (data : Byte) (s : σ) : Bool × Byte × σ :=
  let r := sclSetAndWait w (w.delay 2 s)
  if r.1 then
    (true, if w.readSda r.2 then data ||| 0x01#8 else data, w.scl false (w.delay 2 r.2))
  else (false, data, r.2)

/-- The loop `bitbang_i2c_master_impl.hpp:368-378`. -/
def readBits : Nat → Byte → σ → Bool × Byte × σ
  | 0, data, s => (true, data, s)
  | n + 1, data, s =>
    let r := readBit w (data <<< 1) s
    if r.1 then readBits n r.2.1 r.2.2 else r

/-- `bitbang_i2c_master_impl.hpp:360-391`; `p` is the address of the byte. -/
def read (p : Nat) (ack : Bool) (m : Master σ τ) : Bool × Master σ τ :=
  let r := readBits w 8 0#8 (w.sda true m.env)
  let m := { m with env := r.2.2, mem := Function.update m.mem p r.2.1 }
  if r.1 = false then (false, error w T .arbitrationLost m)
  else
    let b := writeBit w (!ack) m.env
    let m := { m with env := b.2 }
    if b.1 = false then (false, error w T .arbitrationLost m)
    else (true, { m with env := w.sda true m.env })

/-- The loop `bitbang_i2c_master_impl.hpp:151-156`. -/
def writeLoop : Nat → Nat → Master σ τ → Bool × Master σ τ
  | 0, _, m => (true, m)
  | n + 1, p, m =>
    let r := write w T (m.mem p) m
    if r.1 then writeLoop n (p + 1) r.2 else r

/-- The loop `bitbang_i2c_master_impl.hpp:136-143` for a length of `n + 1`, or `n = 0` for a length of
0 too. -/
def readLoop : Nat → Nat → Master σ τ → Bool × Master σ τ
  | 0, p, m => read w T p false m
  | n + 1, p, m =>
    let r := read w T p true m
    if r.1 then readLoop n (p + 1) r.2 else r

/-- `bitbang_i2c_master_impl.hpp:107-122`; besides the operation `starting.next`. -/
def begin_ (m : Master σ τ) : Bool × Operation × Master σ τ :=
  let r := startCondition w T m
  if r.1 = false then (false, .stop, r.2)
  else
    let q := T.starting r.2.trans
    let m := { r.2 with trans := q.2, address := q.1.address }
    let a := (q.1.address &&& 0xfe#8) ||| (if q.1.next = .read then 0x01#8 else 0#8)
    let r := write w T a m
    if r.1 = false then (false, .stop, r.2)
    else (true, q.1.next, { r.2 with address := 0#8 })

/-- The two loops `bitbang_i2c_master_impl.hpp:105-170`, at most `k` operations. -/
def loop : Nat → Operation → Master σ τ → Option (Master σ τ)
  | 0, _, _ => none
  | k + 1, .restart, m =>
    let r := begin_ w T m
    if r.1 = false then some r.2.2 else loop k r.2.1 r.2.2
  | k + 1, .read, m =>
    let q := T.reading m.trans
    match q.1.buffer with
    | none => none
    | some p =>
      let r := readLoop w T (q.1.length - 1) p { m with trans := q.2 }
      if r.1 = false then some r.2 else loop k q.1.next r.2
  | k + 1, .write, m =>
    let q := T.writing m.trans
    match q.1.buffer with
    | none => loop k q.1.next { m with trans := q.2 }
    | some p =>
      let r := writeLoop w T q.1.length p { m with trans := q.2 }
      if r.1 = false then some r.2 else loop k q.1.next r.2
  | _ + 1, .stop, m =>
    some (stopCondition w T { m with trans := T.detaching .normalStop m.trans, attached := false }).2

/-- `bitbang_i2c_master_impl.hpp:84-174`, with the object `t`. -/
def start (k : Nat) (t : τ) (m : Master σ τ) : Option (Bool × Master σ τ) :=
  if m.attached then some (false, m)
  else
    let a := T.attaching t
    if a.1 = false then some (false, { m with trans := T.detaching .failedToAttach a.2 })
    else (loop w T k .restart { m with error := .noError, attached := true, trans := a.2 }).map (true, ·)

/-- `bitbang_i2c_master_impl.hpp:179-186`. -/
def reset (m : Master σ τ) : Master σ τ := giveUp T .softwareReset m

/-- `bitbang_i2c_master_impl.hpp:54-55`, in nanoseconds; `delayTime` is a `uint16_t`. -/
def delayTime (baudrate : Nat) : Nat :=
  let d := (250000000 / baudrate) % 65536
  if d = 0 then 1 else d

/-- The loop of `resetDevices`, `i2c.hpp:121-126`; half a period is two quarters. -/
def resetDevices (w : Wires σ) : Nat → σ → σ
  | 0, s => s
  | n + 1, s => resetDevices w n (w.delay 2 (w.scl true (w.delay 2 (w.scl false s))))

/-! ## The transaction objects -/

/-- `i2c.hpp:86-92`. -/
inductive State
  | idle | busy | error
deriving DecidableEq, Repr

/-- `attaching` of the base class, `i2c_transaction.hpp:176-183`. -/
def attachState (s : State) : Bool × State :=
  if s = .busy then (false, s) else (true, .busy)

/-- `detaching` of the base class, `i2c_transaction.hpp:217-221`. -/
def detachState (c : DetachCause) : State := if c = .normalStop then .idle else .error

/-- The constructor of `Writing` or `Reading`: `length(buffer ? length : 0)`, `i2c_transaction.hpp:64`. -/
def lengthOf (buffer : Option Nat) (length : Nat) : Nat :=
  match buffer with
  | none => 0
  | some _ => length

/-- The members of `I2cWriteReadTransaction`, `i2c_transaction.hpp:224-225, 389-393`. -/
structure WriteRead where
  address : Byte
  state : State
  readSize : Nat
  writeSize : Nat
  readBuffer : Option Nat
  writeBuffer : Option Nat
  isReading : Bool

/-- The constructor, `i2c_transaction.hpp:244-248` and `94-96`. -/
def WriteRead.new (address : Byte) : WriteRead :=
  ⟨address <<< 1, .idle, 0, 0, none, none, false⟩

/-- `i2c_transaction.hpp:257-296`. -/
def WriteRead.configure (wb : Option Nat) (ws : Nat) (rb : Option Nat) (rs : Nat) (t : WriteRead) :
    Bool × WriteRead :=
  if t.state = .busy then (false, t)
  else
    (true, { t with readBuffer := rb, readSize := rs, writeBuffer := wb, writeSize := ws,
                    isReading := decide (ws = 0) })

/-- `i2c_transaction.hpp:329-386`. -/
def writeRead : Transaction WriteRead where
  attaching t := ((attachState t.state).1, { t with state := (attachState t.state).2 })
  starting t :=
    (⟨t.address, if t.isReading then (if t.readSize ≠ 0 then .read else .stop)
      else (if t.writeSize ≠ 0 then .write else .stop)⟩, t)
  writing t :=
    (⟨t.writeBuffer, lengthOf t.writeBuffer t.writeSize, if t.readSize ≠ 0 then .restart else .stop⟩,
      { t with isReading := decide (t.readSize ≠ 0) })
  reading t := (⟨t.readBuffer, lengthOf t.readBuffer t.readSize, .stop⟩, t)
  detaching c t := { t with state := detachState c }

/-- The members of `I2cWriteTransaction` and `I2cReadTransaction`, `i2c_transaction.hpp:467-468, 541-542`. -/
structure OneWay where
  address : Byte
  state : State
  size : Nat
  buffer : Option Nat

/-- `i2c_transaction.hpp:412-415` and `487-490`. -/
def OneWay.new (address : Byte) : OneWay := ⟨address <<< 1, .idle, 0, none⟩

/-- `I2cWriteTransaction::configureWrite`, `i2c_transaction.hpp:429-439`. -/
def OneWay.configureWrite (b : Option Nat) (n : Nat) (t : OneWay) : Bool × OneWay :=
  if t.state = .busy then (false, t) else (true, { t with buffer := b, size := lengthOf b n })

/-- `I2cReadTransaction::configureRead`, `i2c_transaction.hpp:511-521`. -/
def OneWay.configureRead (b : Option Nat) (n : Nat) (t : OneWay) : Bool × OneWay :=
  if t.state = .busy then (false, t) else (true, { t with buffer := b, size := n })

/-- `I2cWriteTransaction`, `i2c_transaction.hpp:447-464`. -/
def onlyWrite : Transaction OneWay where
  attaching t := ((attachState t.state).1, { t with state := (attachState t.state).2 })
  starting t := (⟨t.address, if t.size ≠ 0 then .write else .stop⟩, t)
  writing t := (⟨t.buffer, lengthOf t.buffer t.size, .stop⟩, t)
  reading t := (⟨none, 0, .stop⟩, t)
  detaching c t := { t with state := detachState c }

/-- `I2cReadTransaction`, `i2c_transaction.hpp:522-539`. -/
def onlyRead : Transaction OneWay where
  attaching t := ((attachState t.state).1, { t with state := (attachState t.state).2 })
  starting t := (⟨t.address, if t.size ≠ 0 then .read else .stop⟩, t)
  writing t := (⟨none, 0, .stop⟩, t)
  reading t := (⟨t.buffer, lengthOf t.buffer t.size, .stop⟩, t)
  detaching c t := { t with state := detachState c }

end Modm.I2c
