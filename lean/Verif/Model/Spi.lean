import Mathlib.Logic.Function.Basic

set_option autoImplicit false

/-!
# The bit-banged SPI master and the lock of an SPI master

Model of `src/modm/platform/spi/bitbang/bitbang_spi_master_impl.hpp` and
`src/modm/architecture/interface/spi_lock.hpp`.

The three pins and the passing of time are operations on an arbitrary environment `σ` (`Wires`).
`transfer` calls `transferBlocking` and nothing else
(`bitbang_spi_master_impl.hpp:151-172`), so it is not modelled separately.  `connect` is left out.
-/

namespace Modm.Spi

abbrev Byte := BitVec 8

/-- The pins: `Sck::set`, `Mosi::set`, `Miso::read` and `delay()`. -/
structure Wires (σ : Type) where
  sck : Bool → σ → σ
  mosi : Bool → σ → σ
  miso : σ → Bool × σ
  delay : σ → σ

/-- `src/modm/architecture/interface/spi.hpp:30-37`. -/
inductive DataMode
  | mode0 | mode1 | mode2 | mode3
deriving DecidableEq, Repr

/-- `static_cast<uint8_t>(mode)`. -/
def DataMode.value : DataMode → Byte
  | .mode0 => 0b00#8
  | .mode1 => 0b01#8
  | .mode2 => 0b10#8
  | .mode3 => 0b11#8

/-- `operationMode & 0b01`, `bitbang_spi_master_impl.hpp:90`. -/
def cpha (m : Byte) : Bool := m &&& 0b01#8 != 0#8

/-- `operationMode & 0b10`, `bitbang_spi_master_impl.hpp:70`. -/
def cpol (m : Byte) : Bool := m &&& 0b10#8 != 0#8

/-- `operationMode & 0b100`, `bitbang_spi_master_impl.hpp:94`. -/
def lsbFirst (m : Byte) : Bool := m &&& 0b100#8 != 0#8

/-- The master: its static `operationMode` and the environment. -/
structure Master (σ : Type) where
  mode : Byte
  env : σ

variable {σ : Type}

/-- The pins set by `initialize`, `bitbang_spi_master_impl.hpp:61-62`; for the delay see
`delayTime`. -/
def initPins (w : Wires σ) (m : Master σ) : Master σ :=
  { m with env := w.mosi false (w.sck false m.env) }

/-- `bitbang_spi_master_impl.hpp:58-59`: `delayTime` is a `uint16_t`, in nanoseconds. -/
def delayTime (baudrate : Nat) : Nat :=
  let d := (500000000 / baudrate) % 65536
  if d = 0 then 1 else d

/-- `bitbang_spi_master_impl.hpp:67-71`. -/
def setDataMode (w : Wires σ) (mode : DataMode) (m : Master σ) : Master σ :=
  let mode' := (m.mode &&& ~~~ 0b11#8) ||| mode.value
  { mode := mode', env := w.sck (cpol mode') m.env }

/-- `bitbang_spi_master_impl.hpp:75-81`. -/
def setDataOrder (lsb : Bool) (m : Master σ) : Master σ :=
  { m with mode := if lsb then m.mode ||| 0b100#8 else m.mode &&& ~~~ 0b100#8 }

/-- `delay()` if the condition holds. -/
def delayIf (w : Wires σ) (c : Bool) (s : σ) : σ := if c then w.delay s else s

/-- One pass of the loop, `bitbang_spi_master_impl.hpp:89-127`. -/
def transferBit (w : Wires σ) (m : Byte) (data : Byte) (s : σ) : Byte × σ :=
  let s := delayIf w (cpha m) s
  let bit := if lsbFirst m then data &&& 0x01#8 != 0#8 else data &&& 0x80#8 != 0#8
  let s := w.mosi bit s
  let data := if lsbFirst m then data >>> 1 else data <<< 1
  let s := delayIf w (!cpha m) s
  let s := w.sck (!cpol m) s
  let s := delayIf w (cpha m) s
  let (read, s) := w.miso s
  let data := if read then (if lsbFirst m then data ||| 0x80#8 else data ||| 0x01#8) else data
  let s := delayIf w (!cpha m) s
  let s := w.sck (cpol m) s
  (data, s)

/-- The loop, `bitbang_spi_master_impl.hpp:87`. -/
def transferBits (w : Wires σ) (m : Byte) : Nat → Byte → σ → Byte × σ
  | 0, data, s => (data, s)
  | n + 1, data, s => transferBits w m n (transferBit w m data s).1 (transferBit w m data s).2

/-- `bitbang_spi_master_impl.hpp:85-131`. -/
def transferByte (w : Wires σ) (m : Byte) (data : Byte) (s : σ) : Byte × σ :=
  transferBits w m 8 data s

/-- `if (tx) tx_byte = tx[i]`, `bitbang_spi_master_impl.hpp:143`. -/
def fetch (tx : Option Nat) (i : Nat) (mem : Nat → Byte) (txByte : Byte) : Byte :=
  match tx with
  | some p => mem (p + i)
  | none => txByte

/-- `if (rx) rx[i] = rx_byte`, `bitbang_spi_master_impl.hpp:147`. -/
def store (rx : Option Nat) (i : Nat) (rxByte : Byte) (mem : Nat → Byte) : Nat → Byte :=
  match rx with
  | some p => Function.update mem (p + i) rxByte
  | none => mem

/-- The loop `bitbang_spi_master_impl.hpp:141-148`; a pointer is an address or null, `n` passes are
left and `i` are done. -/
def transferLoop (w : Wires σ) (m : Byte) (tx rx : Option Nat) :
    Nat → Nat → Byte → (Nat → Byte) → σ → (Nat → Byte) × σ
  | 0, _, _, mem, s => (mem, s)
  | n + 1, i, txByte, mem, s =>
    let txByte := fetch tx i mem txByte
    let (rxByte, s) := transferByte w m txByte s
    transferLoop w m tx rx n (i + 1) txByte (store rx i rxByte mem) s

/-- `bitbang_spi_master_impl.hpp:135-149`. -/
def transferBlocking (w : Wires σ) (m : Byte) (tx rx : Option Nat) (length : Nat)
    (mem : Nat → Byte) (s : σ) : (Nat → Byte) × σ :=
  transferLoop w m tx rx length 0 0xff#8 mem s

/-! ## The lock -/

/-- The static members, `spi_lock.hpp:43-45`.  Pointers are numbers with `0` for `nullptr`; `calls`
are the calls of configuration handlers, the last one first. -/
structure Lock where
  count : Byte := 0#8
  context : Nat := 0
  configuration : Nat := 0
  calls : List Nat := []
deriving DecidableEq, Repr

/-- `spi_lock.hpp:48-68`. -/
def acquire (ctx handler : Nat) (l : Lock) : Byte × Lock :=
  if l.context = 0 then
    if handler ≠ 0 ∧ l.configuration ≠ handler then
      (1#8, { count := 1#8, context := ctx, configuration := handler, calls := handler :: l.calls })
    else (1#8, { l with context := ctx, count := 1#8 })
  else if ctx = l.context then (l.count + 1#8, { l with count := l.count + 1#8 })
  else (0#8, l)

/-- `spi_lock.hpp:70-80`. -/
def release (ctx : Nat) (l : Lock) : Byte × Lock :=
  if ctx = l.context then
    if l.count - 1#8 = 0#8 then (0#8, { l with count := 0#8, context := 0 })
    else (l.count - 1#8, { l with count := l.count - 1#8 })
  else (l.count, l)

end Modm.Spi
