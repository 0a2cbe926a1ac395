import Mathlib.Logic.Function.Basic

set_option autoImplicit false

/-!
# The SPI master of STM32, by polling and by DMA

Model of `src/modm/platform/spi/stm32/spi_master.cpp.in`,
`src/modm/platform/spi/stm32/spi_master_dma_impl.hpp.in` and the parts of
`src/modm/platform/dma/stm32/dma.hpp.in` and `dma_hal.hpp.in` that the latter uses.

The peripheral is written down from the reference manuals (RM0008 chapter 25 without FIFO, RM0091
chapter 28 with FIFO; DMA chapters 13 and 10): a queue of bytes to be sent (`tx`), the shift register,
a queue of received bytes (`rx`), each queue with room for `cap` bytes (one without FIFO).  The
device on the other side is a function `ans` from the bytes it has seen so far to the byte it returns
while the next one is clocked.  The progress of the hardware is a sequence of events in any order, and
hardware may progress between any two readings of flags by the driver.

Simplifications: `Busy` is set exactly while there is a byte in `tx` or in the shift register; both DMA
channels belong to the same DMA controller; a register of a DMA controller without clock ignores
writes and the controller does nothing; with fibers a yield takes the place of the return of `Running`.
-/

namespace Model.SpiStm32

abbrev Byte := BitVec 8

/-- One channel of the DMA: enabled, bytes left, memory address, increment of it, flags for completion
and error (RM0008, 13.4). -/
structure Chan where
  en : Bool
  left : Nat
  addr : Nat
  inc : Bool
  tc : Bool
  te : Bool
deriving DecidableEq

/-- The peripheral, the two channels, the memory.  `sent` and `lost` are not visible to the driver:
the bytes that went over the wire and whether a received byte found no room (overrun). -/
structure Hw where
  tx : List Byte
  shift : Option Byte
  rx : List Byte
  sent : List Byte
  lost : Bool
  txDma : Bool
  rxDma : Bool
  clock : Bool
  ct : Chan
  cr : Chan
  mem : Nat → Byte

/-- The variables of the driver: bits 0 and 1 of `state`, the static `index`
(`spi_master.cpp.in:90`) and the flags of `spi_master_dma.hpp.in:80-82`. -/
structure Sw where
  bit0 : Bool
  bit1 : Bool
  index : Nat
  error : Bool
  txComplete : Bool
  rxComplete : Bool

structure St where
  hw : Hw
  sw : Sw

/-- The variant of the peripheral. -/
structure Cfg where
  cap : Nat
  fifo : Bool
  /-- the address of `dmaDummy` (`spi_master_dma.hpp.in:85`) -/
  dummy : Nat
  ans : List Byte → Byte

/-! ## The hardware -/

/-- The next byte is moved to the shift register (RM0008, 25.3.3 "start sequence"). -/
def load (h : Hw) : Hw :=
  match h.shift, h.tx with
  | none, b :: r => { h with tx := r, shift := some b }
  | _, _ => h

/-- The last clock of a byte (RM0008, 25.3.3, overrun: 25.3.10). -/
def finish (c : Cfg) (h : Hw) : Hw :=
  match h.shift with
  | none => h
  | some b =>
    if h.rx.length < c.cap then
      { h with shift := none, sent := h.sent ++ [b], rx := h.rx ++ [c.ans h.sent] }
    else { h with shift := none, sent := h.sent ++ [b], lost := true }

/-- One element moved by a channel (RM0008, 13.3.3). -/
def Chan.advance (k : Chan) : Chan :=
  { k with left := k.left - 1, addr := if k.inc then k.addr + 1 else k.addr, tc := k.tc || k.left == 1 }

/-- A request of the transmitter served (RM0008, 25.3.9). -/
def dmaTx (c : Cfg) (h : Hw) : Hw :=
  if h.clock && h.txDma && h.ct.en && decide (0 < h.ct.left) && decide (h.tx.length < c.cap) then
    { h with tx := h.tx ++ [h.mem h.ct.addr], ct := h.ct.advance }
  else h

/-- A request of the receiver served. -/
def dmaRx (h : Hw) : Hw :=
  match h.rx with
  | [] => h
  | b :: r =>
    if h.clock && h.rxDma && h.cr.en && decide (0 < h.cr.left) then
      { h with rx := r, mem := Function.update h.mem h.cr.addr b, cr := h.cr.advance }
    else h

/-- A bus error of a channel: the hardware disables the channel and sets the flag (RM0008, 13.3.5). -/
def Chan.fault (k : Chan) : Chan := { k with en := false, te := true }

/-! ## The DMA channel classes -/

/-- `setMemoryAddress`, `setMemoryIncrementMode`, `setDataLength`
(`dma_hal.hpp.in:181-192, 223-231, 257-266`): the registers cannot be written while the channel
is enabled, and the length has 16 bits. -/
def Chan.setup (clock : Bool) (addr : Nat) (inc : Bool) (length : Nat) (k : Chan) : Chan :=
  if clock && !k.en then { k with addr := addr, inc := inc, left := length % 65536 } else k

/-- `start` (`dma.hpp.in:154-159`, `dma_hal_impl.hpp.in:20-31`). -/
def Chan.start (clock : Bool) (k : Chan) : Chan :=
  if clock then { k with en := true, tc := false, te := false } else k

/-- `stop` (`dma_hal_impl.hpp.in:33-46`). -/
def Chan.stop (clock : Bool) (k : Chan) : Chan :=
  if clock then { k with en := false } else k

/-- `ControlHal::clearInterruptFlags(InterruptFlags::Global, …)` (`dma_hal.hpp.in:119-135`). -/
def Chan.clear (clock : Bool) (k : Chan) : Chan :=
  if clock then { k with tc := false, te := false } else k

/-- `handleDmaTransferError` (`spi_master_dma_impl.hpp.in:228-237`). -/
def handleError (s : St) : St :=
  { hw := { s.hw with txDma := false, rxDma := false, cr := s.hw.cr.stop s.hw.clock, ct := s.hw.ct.stop s.hw.clock }, sw := { s.sw with error := true } }

/-- `handleDmaReceiveComplete` (`spi_master_dma_impl.hpp.in:239-245`). -/
def handleReceive (s : St) : St :=
  { hw := { s.hw with cr := s.hw.cr.stop s.hw.clock }, sw := { s.sw with rxComplete := true } }

/-- `handleDmaTransmitComplete` (`spi_master_dma_impl.hpp.in:247-253`). -/
def handleTransmit (s : St) : St :=
  { hw := { s.hw with ct := s.hw.ct.stop s.hw.clock }, sw := { s.sw with txComplete := true } }

/-- `interruptHandler` of the channel of the transmitter (`dma.hpp.in:314-353`).  The `disable()` of line
341 is the one of the enclosing class `DmaController` (`dma.hpp.in:83-92`): it switches off the clock
of the controller. -/
def irqTx (s : St) : St :=
  if s.hw.clock && (s.hw.ct.tc || s.hw.ct.te) then
    let tc := s.hw.ct.tc
    let s1 := if s.hw.ct.te then handleError { s with hw := { s.hw with clock := false } } else s
    let s2 := if tc then handleTransmit s1 else s1
    { s2 with hw := { s2.hw with ct := s2.hw.ct.clear s2.hw.clock } }
  else s

/-- `interruptHandler` of the channel of the receiver (`dma.hpp.in:314-353`). -/
def irqRx (s : St) : St :=
  if s.hw.clock && (s.hw.cr.tc || s.hw.cr.te) then
    let tc := s.hw.cr.tc
    let s1 := if s.hw.cr.te then handleError { s with hw := { s.hw with clock := false } } else s
    let s2 := if tc then handleReceive s1 else s1
    { s2 with hw := { s2.hw with cr := s2.hw.cr.clear s2.hw.clock } }
  else s

/-- What may happen between two steps of the driver. -/
inductive Ev
  | load | finish | dmaTx | dmaRx | irqTx | irqRx | faultTx | faultRx
deriving DecidableEq

def step (c : Cfg) (e : Ev) (s : St) : St :=
  match e with
  | .load => { s with hw := load s.hw }
  | .finish => { s with hw := finish c s.hw }
  | .dmaTx => { s with hw := dmaTx c s.hw }
  | .dmaRx => { s with hw := dmaRx s.hw }
  | .irqTx => irqTx s
  | .irqRx => irqRx s
  | .faultTx => if s.hw.clock && s.hw.ct.en then { s with hw := { s.hw with ct := s.hw.ct.fault } } else s
  | .faultRx => if s.hw.clock && s.hw.cr.en then { s with hw := { s.hw with cr := s.hw.cr.fault } } else s

def steps (c : Cfg) : List Ev → St → St
  | [], s => s
  | e :: es, s => steps c es (step c e s)

/-! ## Flags -/

/-- `SPI_SR_BSY`. -/
def busy (h : Hw) : Bool := h.shift.isSome || !h.tx.isEmpty

/-- `SPI_SR_FTLVL` or `SPI_SR_FRLVL` not zero. -/
def levels (h : Hw) : Bool := !h.tx.isEmpty || !h.rx.isEmpty

/-! ## The transfer by polling -/

/-- `read(uint8_t&)` (`spi_hal_impl.hpp.in:139-143`): the access has the width of the register, with a
FIFO it takes two bytes if there are two (RM0091, 28.5.9). -/
def read (c : Cfg) (h : Hw) : Byte × Hw :=
  (h.rx.headD 0, { h with rx := h.rx.drop (if c.fifo then 2 else 1) })

/-- `transfer(uint8_t)` (`spi_master.cpp.in:46-66`, with fibers `23-36`); `mid` is the progress of the
hardware between the two flags.  `none` is `Running`. -/
def transferByte (c : Cfg) (data : Byte) (mid : List Ev) (s : St) : Option Byte × St :=
  if !s.sw.bit0 && decide (s.hw.tx.length ≥ c.cap) then (none, s)
  else
    let s1 := if s.sw.bit0 then s
      else { hw := { s.hw with tx := s.hw.tx ++ [data] }, sw := { s.sw with bit0 := true } }
    let s2 := steps c mid s1
    if s2.hw.rx.isEmpty then (none, s2)
    else
      let r := read c s2.hw
      (some r.1, { hw := r.2, sw := { s2.sw with bit0 := false } })

/-- The arguments of `transfer(tx, rx, length)`; `none` is the null pointer. -/
structure Args where
  tx : Option Nat
  rx : Option Nat
  length : Nat

/-- `tx ? tx[index] : 0` (`spi_master.cpp.in:108`). -/
def Args.byte (a : Args) (mem : Nat → Byte) (i : Nat) : Byte :=
  match a.tx with
  | none => 0
  | some p => mem (p + i)

/-- `if (rx) rx[index] = …` (`spi_master.cpp.in:115`). -/
def Args.store (a : Args) (i : Nat) (b : Byte) (h : Hw) : Hw :=
  match a.rx with
  | none => h
  | some p => { h with mem := Function.update h.mem (p + i) b }

/-- The loop (`spi_master.cpp.in:101-122`), entered at `default` (`103`).  `mids` is the progress of the
hardware within the call; the call ends where it is used up, which is the same as a further reading of
flags without progress. -/
def loop (c : Cfg) (a : Args) : List (List Ev) → St → Bool × St
  | [], s => (false, s)
  | mid :: mids, s =>
    match transferByte c (a.byte s.hw.mem s.sw.index) mid s with
    | (none, s1) => (false, s1)
    | (some b, s1) =>
      let s2 : St := { hw := a.store s1.sw.index b s1.hw, sw := { s1.sw with index := s1.sw.index + 1 } }
      if s2.sw.index < a.length then loop c a mids s2
      else (true, { s2 with sw := { s2.sw with bit1 := false } })

/-- One call of `transfer(tx, rx, length)` (`spi_master.cpp.in:70-125`); `true` is `Stop`. -/
def transfer (c : Cfg) (a : Args) (mids : List (List Ev)) (s : St) : Bool × St :=
  if s.sw.bit1 then loop c a mids s
  else
    let s1 : St := { s with sw := { s.sw with bit1 := true, index := 0 } }
    if 0 < a.length then loop c a mids s1
    else (true, { s1 with sw := { s1.sw with bit1 := false } })

/-! ## The transfer by DMA -/

/-- The first visit (`spi_master_dma_impl.hpp.in:173-201`, with fibers `118-143`). -/
def begin (c : Cfg) (a : Args) (s : St) : St :=
  let h := s.hw
  { hw := { h with txDma := true, rxDma := true, ct := (h.ct.setup h.clock (a.tx.getD c.dummy) a.tx.isSome a.length).start h.clock, cr := (h.cr.setup h.clock (a.rx.getD c.dummy) a.rx.isSome a.length).start h.clock }, sw := { s.sw with bit1 := true, error := false, txComplete := false, rxComplete := false } }

/-- The end (`spi_master_dma_impl.hpp.in:219-223`). -/
def finishDma (s : St) : St :=
  { hw := { s.hw with txDma := false, rxDma := false }, sw := { s.sw with bit1 := false } }

/-- The conditions (`spi_master_dma_impl.hpp.in:206-223`, with fibers `145-161`); `m1`, `m2`: progress of the
hardware between the variables, `Busy` and the levels. -/
def check (c : Cfg) (m1 m2 : List Ev) (s : St) : Bool × St :=
  if s.sw.error then (true, finishDma s)
  else if !s.sw.txComplete && !s.sw.rxComplete then (false, s)
  else
    let s1 := steps c m1 s
    if busy s1.hw then (false, s1)
    else
      let s2 := steps c m2 s1
      if c.fifo && levels s2.hw then (false, s2)
      else (true, finishDma s2)

/-- One call of `transfer(tx, rx, length)` (`spi_master_dma_impl.hpp.in:112-226`). -/
def transferDma (c : Cfg) (a : Args) (m0 m1 m2 : List Ev) (s : St) : Bool × St :=
  let s1 := if s.sw.bit1 then s else begin c a s
  check c m1 m2 (steps c m0 s1)

/-- `transfer(uint8_t)` of the class with DMA (`spi_master_dma_impl.hpp.in:53-110`). -/
def transferByteDma (c : Cfg) (data : Byte) (mid : List Ev) (s : St) : Option Byte × St :=
  transferByte c data mid (if s.sw.bit0 then s else { s with hw := { s.hw with txDma := false, rxDma := false } })

/-! ## Executions -/

/-- A call that polls, or progress of the hardware between calls. -/
inductive Act
  | hw (e : Ev)
  | call (m0 m1 m2 : List Ev)

/-- Calls until one returns `Stop`. -/
def execDma (c : Cfg) (a : Args) : List Act → St → Bool × St
  | [], s => (false, s)
  | .hw e :: as, s => execDma c a as (step c e s)
  | .call m0 m1 m2 :: as, s =>
    match transferDma c a m0 m1 m2 s with
    | (true, s1) => (true, s1)
    | (false, s1) => execDma c a as s1

/-- The same for the transfer by polling. -/
inductive PollAct
  | hw (e : Ev)
  | call (mids : List (List Ev))

def exec (c : Cfg) (a : Args) : List PollAct → St → Bool × St
  | [], s => (false, s)
  | .hw e :: as, s => exec c a as (step c e s)
  | .call mids :: as, s =>
    match transfer c a mids s with
    | (true, s1) => (true, s1)
    | (false, s1) => exec c a as s1

/-- After `initialize` (`spi_master_dma_impl.hpp.in:15-51`, `spi_master.hpp.in:89-102`). -/
def fresh (mem : Nat → Byte) : St :=
  let k : Chan := { en := false, left := 0, addr := 0, inc := true, tc := false, te := false }
  { hw := { tx := [], shift := none, rx := [], sent := [], lost := false, txDma := false, rxDma := false, clock := true, ct := k, cr := k, mem := mem }, sw := { bit0 := false, bit1 := false, index := 0, error := false, txComplete := false, rxComplete := false } }

end Model.SpiStm32
