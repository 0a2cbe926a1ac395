import Verif.Model.AtomicQueue

set_option autoImplicit false

/-!
# Buffered UART of the STM32

Model of `src/modm/platform/uart/stm32/uart.cpp.in`, with the option `buffer.tx`, with or without
`buffer.rx`, and of the registers used in `uart_hal_impl.hpp.in`.

The main program, the interrupt handler and the hardware run interleaved.  Every access to a register or
to a member of a queue which the other side changes is one step.  While the handler is active the main
program stands still; the hardware does not.  The queues are those of `Verif.Model.AtomicQueue`; the
handler's calls of the queues are one step each, since nobody else runs that could use a queue.
`none` is an access outside of the buffer of a queue.

Hardware: a data register and a shift register for sending; a data register for receiving.  A write to
the data register replaces what it contains.  A byte which arrives when the data register is full is lost
and sets the overrun flag.  Parity, noise and framing errors are not modelled.
-/

namespace Modm.Uart

open Modm.AtomicQueue (Q next)

variable {α : Type}

/-- The variants of the driver. -/
structure Config where
  /-- `buffer.tx`, the size of the transmit queue. -/
  txSize : Nat
  /-- `buffer.rx`, if it is not zero. -/
  rxSize : Nat
  /-- `extended_driver`: separate registers and a register to clear flags. -/
  extended : Bool
  /-- The interrupt is shared with another UART, `uart_shared.cpp.in:28-36`. -/
  shared : Bool
  deriving DecidableEq

/-- The registers: the data and the shift register of the transmitter, what has been sent completely, the
data register of the receiver, the overrun flag, the flag `TXEIE` in `CR1`. -/
structure Hw (α : Type) where
  tdr : Option α
  shift : Option α
  wire : List α
  rdr : Option α
  ore : Bool
  txeie : Bool
  deriving DecidableEq

/-- Calls of the main program.  A single byte is a block of length one. -/
inductive Call (α : Type) where
  | write (x : α) (rest : List α)
  | writeBlocking (x : α) (rest : List α)
  | isWriteFinished
  | flushWriteBuffer
  | discardTransmitBuffer
  | read (n : Nat)
  | discardReceiveBuffer
  | transmitBufferSize
  | receiveBufferSize
  | clearError
  deriving DecidableEq

/-- Results of the calls. -/
inductive Result (α : Type) where
  | wrote (n : Nat)
  | blocked
  | finished (b : Bool)
  | discardedTx (n : Nat)
  | received (xs : List α)
  /-- `read` returned a byte which was not there. -/
  | stale
  | discardedRx (n : Nat)
  | txSize (n : Nat)
  | rxSize (n : Nat)
  | cleared
  deriving DecidableEq

/-- What happens. -/
inductive Ev (α : Type) where
  | called (c : Call α)
  /-- The driver has taken the byte from the caller. -/
  | accepted (x : α)
  /-- A byte has been received. -/
  | arrived (x : α)
  /-- The byte received is lost because the one before was not read. -/
  | overrun (x : α)
  /-- The handler's `push` found the receive queue full. -/
  | full (x : α)
  /-- A byte was in the data register when flags were cleared by reading it. -/
  | eaten (x : α)
  /-- `read` has copied the byte. -/
  | got (x : α)
  /-- `discardTransmitBuffer` or `discardReceiveBuffer` has removed a byte. -/
  | droppedTx
  | droppedRx
  /-- The call returns. -/
  | done (r : Result α)
  deriving DecidableEq

/-- Places in `write`. -/
inductive WriteAt where
  | empty     -- line 73, `txBuffer.isEmpty()`
  | txe       -- line 73, `isTransmitRegisterEmpty()`
  | direct    -- line 74
  | full      -- `push`: `tmphead == tail`
  | store     -- `push`: `buffer[head] = value`
  | publish   -- `push`: `head = tmphead`
  | enable    -- lines 79-81
  deriving DecidableEq

/-- The place of the main program. -/
inductive Main (α : Type) where
  | idle
  | write (k : WriteAt) (x : α) (rest : List α) (i : Nat)
  | blocking (ready : Bool) (x : α) (rest : List α)
  | finish (empty : Bool) (loop : Bool)
  | discardRead                             -- line 133, reading `CR1`
  | discardWrite                            -- line 133, writing `CR1`
  | discardLoop (count : Nat)               -- line 134
  | discardPop (count : Nat)                -- line 136, `pop` reads `tail`
  | discardStore (count t : Nat)            -- line 136, `pop` writes `tail`
  | read (n : Nat) (got : List α)           -- line 148 or 156, 172 or 182
  | readGet (n : Nat) (got : List α)        -- line 151 or 175
  | readPop (n : Nat) (got : List α)        -- line 152 or 176, `pop` reads `tail`
  | readStore (n : Nat) (got : List α) (t : Nat)
  | readDirect                              -- line 157
  | dropLoop (count : Nat)                  -- line 205
  | dropPop (count : Nat)
  | dropStore (count t : Nat)
  | txSize (head : Option Nat)              -- `getSize`, after reading `head`
  | rxSize (head : Option Nat)
  | clear (sr : Bool)                       -- `acknowledgeInterruptFlags`, after reading `SR`
  deriving DecidableEq

/-- The place of the interrupt handler, lines 239-269. -/
inductive Isr (α : Type) where
  | none
  | rxCheck           -- line 248
  | rxRead            -- line 251
  | rxPush (x : α)    -- line 252
  | txCheck           -- line 256
  | txEmpty           -- line 257
  | txDisable         -- line 259
  | txWrite           -- line 262
  | txPop             -- line 263
  | ack               -- line 267; reading `SR`
  | ackRead           -- reading `DR`
  deriving DecidableEq

/-- The memory and the two places. -/
structure State (α : Type) where
  hw : Hw α
  tx : Q α
  rx : Q α
  main : Main α
  isr : Isr α
  deriving DecidableEq

/-- What the scheduler chooses. -/
inductive Act (α : Type) where
  | call (c : Call α)
  | main
  | interrupt
  | isr
  | load              -- the data register is moved to the shift register
  | sent              -- the last bit has been sent
  | arrive (x : α)
  deriving DecidableEq

/-- An interrupt is requested: `TXE` with `TXEIE`, or `RXNE` or `ORE` with `RXNEIE`, which is set when there
is a receive queue (`uart.hpp.in:87-89`). -/
def pending (cfg : Config) (h : Hw α) : Bool :=
  (h.txeie && h.tdr.isNone) || (cfg.rxSize != 0 && (h.rdr.isSome || h.ore))

/-- The event of a byte which is lost when the data register is read to clear flags. -/
def eatenBy (h : Hw α) : List (Ev α) := match h.rdr with | some x => [.eaten x] | Option.none => []

/-- One step of the interrupt handler. -/
def isrStep (cfg : Config) (s : State α) : Option (State α × List (Ev α)) :=
  match s.isr with
  | .none => some (s, [])
  | .rxCheck => some ({ s with isr := if s.hw.rdr.isSome then .rxRead else .txCheck }, [])
  | .rxRead => match s.hw.rdr with
    | some x => some ({ s with isr := .rxPush x, hw := { s.hw with rdr := none, ore := s.hw.ore && cfg.extended } }, [])
    | none => some ({ s with isr := .txCheck }, [])
  | .rxPush x => match AtomicQueue.push cfg.rxSize s.rx x with
    | none => none
    | some (q, ok) => some ({ s with rx := q, isr := .txCheck }, if ok then [] else [.full x])
  | .txCheck => some ({ s with isr := if s.hw.tdr.isNone then .txEmpty else .ack }, [])
  | .txEmpty => some ({ s with isr := if AtomicQueue.isEmpty s.tx then .txDisable else .txWrite }, [])
  | .txDisable => some ({ s with isr := .ack, hw := { s.hw with txeie := false } }, [])
  | .txWrite => match AtomicQueue.get s.tx with
    | none => none
    | some x => some ({ s with isr := .txPop, hw := { s.hw with tdr := some x } }, [])
  | .txPop => some ({ s with isr := .ack, tx := AtomicQueue.pop cfg.txSize s.tx }, [])
  | .ack =>
    if cfg.extended then some ({ s with isr := .none, hw := { s.hw with ore := false } }, [])
    else some ({ s with isr := .ackRead }, [])
  | .ackRead => some ({ s with isr := .none, hw := { s.hw with rdr := none, ore := false } }, eatenBy s.hw)

/-- `write` goes on with the next byte, or returns (`uart.cpp.in:95-105`). -/
def nextByte : List α → Nat → Main α × List (Ev α)
  | [], i => (.idle, [.done (.wrote i)])
  | x :: rest, i => (.write .empty x rest i, [])

/-- One step of `write`, `uart.cpp.in:70-92`. -/
def writeStep (cfg : Config) (s : State α) (k : WriteAt) (x : α) (rest : List α) (i : Nat) : Option (State α × List (Ev α)) :=
  match k with
  | .empty => some ({ s with main := .write (if AtomicQueue.isEmpty s.tx then .txe else .full) x rest i }, [])
  | .txe => some ({ s with main := .write (if s.hw.tdr.isNone then .direct else .full) x rest i }, [])
  | .direct =>
    some ({ s with hw := { s.hw with tdr := some x }, main := (nextByte rest (i + 1)).1 }, [.accepted x] ++ (nextByte rest (i + 1)).2)
  | .full =>
    if next cfg.txSize s.tx.head = s.tx.tail then some ({ s with main := .idle }, [.done (.wrote i)])
    else some ({ s with main := .write .store x rest i }, [])
  | .store =>
    if s.tx.head < s.tx.buf.length then
      some ({ s with tx := { s.tx with buf := s.tx.buf.set s.tx.head x }, main := .write .publish x rest i }, [])
    else none
  | .publish => some ({ s with tx := { s.tx with head := next cfg.txSize s.tx.head }, main := .write .enable x rest i }, [.accepted x])
  | .enable =>
    some ({ s with hw := { s.hw with txeie := true }, main := (nextByte rest (i + 1)).1 }, (nextByte rest (i + 1)).2)

/-- `read` returns, `uart.cpp.in:145-187`. -/
def readDone (got : List α) : Ev α := .done (.received got)

/-- One step of the main program. -/
def mainStep (cfg : Config) (s : State α) : Option (State α × List (Ev α)) :=
  match s.main with
  | .idle => some (s, [])
  | .write k x rest i => writeStep cfg s k x rest i
  -- `writeBlocking`, 44-57
  | .blocking false x rest => some ({ s with main := .blocking s.hw.tdr.isNone x rest }, [])
  | .blocking true x rest =>
    some ({ s with hw := { s.hw with tdr := some x }, main := match rest with | [] => .idle | y :: ys => .blocking false y ys },
      [.accepted x] ++ match rest with | [] => [.done .blocked] | _ :: _ => [])
  -- `isWriteFinished`, 107-115, and `flushWriteBuffer`, 59-67
  | .finish false loop =>
    if AtomicQueue.isEmpty s.tx then some ({ s with main := .finish true loop }, [])
    else if loop then some (s, [])
    else some ({ s with main := .idle }, [.done (.finished false)])
  | .finish true loop =>
    if s.hw.tdr.isNone then some ({ s with main := .idle }, [.done (.finished true)])
    else if loop then some ({ s with main := .finish false loop }, [])
    else some ({ s with main := .idle }, [.done (.finished false)])
  -- `discardTransmitBuffer`, 127-142
  | .discardRead => some ({ s with main := .discardWrite }, [])
  | .discardWrite => some ({ s with hw := { s.hw with txeie := false }, main := .discardLoop 0 }, [])
  | .discardLoop count =>
    if AtomicQueue.isEmpty s.tx then some ({ s with main := .idle }, [.done (.discardedTx count)])
    else some ({ s with main := .discardPop (count + 1) }, [])
  | .discardPop count => some ({ s with main := .discardStore count (next cfg.txSize s.tx.tail) }, [])
  | .discardStore count t => some ({ s with tx := { s.tx with tail := t }, main := .discardLoop count }, [.droppedTx])
  -- `read`, 144-187
  | .read n got =>
    if cfg.rxSize = 0 then
      if s.hw.rdr.isSome then some ({ s with main := .readDirect }, [])
      else some ({ s with main := .idle }, [readDone got])
    else if n = 0 then some ({ s with main := .idle }, [readDone got])
    else if AtomicQueue.isEmpty s.rx then some ({ s with main := .idle }, [readDone got])
    else some ({ s with main := .readGet (n - 1) got }, [])
  | .readGet n got => match AtomicQueue.get s.rx with
    | none => none
    | some x => some ({ s with main := .readPop n (got ++ [x]) }, [.got x])
  | .readPop n got => some ({ s with main := .readStore n got (next cfg.rxSize s.rx.tail) }, [])
  | .readStore n got t => some ({ s with rx := { s.rx with tail := t }, main := .read n got }, [])
  | .readDirect => match s.hw.rdr with
    | some x => some ({ s with hw := { s.hw with rdr := none, ore := s.hw.ore && cfg.extended }, main := .idle }, [.got x, readDone [x]])
    | none => some ({ s with main := .idle }, [.done .stale])
  -- `discardReceiveBuffer`, 200-213
  | .dropLoop count =>
    if cfg.rxSize = 0 then some ({ s with main := .idle }, [.done (.discardedRx count)])   -- 0
    else if AtomicQueue.isEmpty s.rx then some ({ s with main := .idle }, [.done (.discardedRx count)])
    else some ({ s with main := .dropPop (count + 1) }, [])
  | .dropPop count => some ({ s with main := .dropStore count (next cfg.rxSize s.rx.tail) }, [])
  | .dropStore count t => some ({ s with rx := { s.rx with tail := t }, main := .dropLoop count }, [.droppedRx])
  -- `transmitBufferSize`, 117-125, and `receiveBufferSize`, 190-198
  | .txSize none => some ({ s with main := .txSize (some s.tx.head) }, [])
  | .txSize (some h) => some ({ s with main := .idle }, [.done (.txSize (AtomicQueue.getSize cfg.txSize { s.tx with head := h }))])
  | .rxSize none =>
    if cfg.rxSize = 0 then some ({ s with main := .idle }, [.done (.rxSize (if s.hw.rdr.isSome then 1 else 0))])
    else some ({ s with main := .rxSize (some s.rx.head) }, [])
  | .rxSize (some h) => some ({ s with main := .idle }, [.done (.rxSize (AtomicQueue.getSize cfg.rxSize { s.rx with head := h }))])
  -- `clearError`, 225-234, and `acknowledgeInterruptFlags`, `uart_hal_impl.hpp.in:271-292`
  | .clear false =>
    if cfg.extended then some ({ s with main := .idle, hw := { s.hw with ore := false } }, [.done .cleared])
    else some ({ s with main := .clear true }, [])
  | .clear true => some ({ s with main := .idle, hw := { s.hw with rdr := none, ore := false } }, eatenBy s.hw ++ [.done .cleared])

/-- The first place in a call. -/
def start : Call α → Main α
  | .write x rest => .write .empty x rest 0
  | .writeBlocking x rest => .blocking false x rest
  | .isWriteFinished => .finish false false
  | .flushWriteBuffer => .finish false true
  | .discardTransmitBuffer => .discardRead
  | .read n => .read n []
  | .discardReceiveBuffer => .dropLoop 0
  | .transmitBufferSize => .txSize none
  | .receiveBufferSize => .rxSize none
  | .clearError => .clear false

/-- One step.  A choice that does not apply leaves the state as it is. -/
def step (cfg : Config) (s : State α) : Act α → Option (State α × List (Ev α))
  | .call c => match s.main, s.isr with
    | .idle, .none => some ({ s with main := start c }, [.called c])
    | _, _ => some (s, [])
  | .main => match s.isr with
    | .none => mainStep cfg s
    | _ => some (s, [])
  | .interrupt => match s.isr with
    | .none => if pending cfg s.hw || cfg.shared then some ({ s with isr := if cfg.rxSize = 0 then .txCheck else .rxCheck }, []) else some (s, [])
    | _ => some (s, [])
  | .isr => isrStep cfg s
  | .load => match s.hw.tdr, s.hw.shift with
    | some x, none => some ({ s with hw := { s.hw with tdr := none, shift := some x } }, [])
    | _, _ => some (s, [])
  | .sent => match s.hw.shift with
    | some x => some ({ s with hw := { s.hw with shift := none, wire := s.hw.wire ++ [x] } }, [])
    | none => some (s, [])
  | .arrive x => match s.hw.rdr with
    | none => some ({ s with hw := { s.hw with rdr := some x } }, [.arrived x])
    | some _ => some ({ s with hw := { s.hw with ore := true } }, [.arrived x, .overrun x])

/-- A whole schedule with what happens. -/
def run (cfg : Config) (s : State α) : List (Act α) → Option (State α × List (Ev α))
  | [] => some (s, [])
  | a :: as => do
    let (s', e) ← step cfg s a
    let (s'', es) ← run cfg s' as
    pure (s'', e ++ es)

/-- All executions from `s0` in which every choice is one of those allowed. -/
inductive Reach (cfg : Config) (ok : State α → Act α → Prop) (s0 : State α) : State α → List (Ev α) → Prop
  | start : Reach cfg ok s0 s0 []
  | step {s s' : State α} {tr e : List (Ev α)} (a : Act α) :
    Reach cfg ok s0 s tr → ok s a → step cfg s a = some (s', e) → Reach cfg ok s0 s' (tr ++ e)

/-- After `initialize`; the memory of the queues is arbitrary. -/
def init (txMem rxMem : List α) : State α :=
  ⟨⟨none, none, [], none, false, false⟩, AtomicQueue.init txMem, AtomicQueue.init rxMem, .idle, .none⟩

end Modm.Uart
