set_option autoImplicit false

/-!
# Buffered UART of the AVR

Model of `src/modm/platform/uart/at90_tiny_mega/uart_tx.cpp.in` and `uart_rx.cpp.in`.

The main program, the two interrupt handlers and the hardware run interleaved.  The queues are lists of
bounded length; a call of a queue is one step (that they may be used from a handler and the main program at
once is the subject of `Verif.Props.AtomicQueueConc`).  Handlers are one step each, as they are not
interrupted.  In the main program every access to something that a handler or the hardware changes is a
step, sections with a lock are one step.

Hardware after the data sheet of the ATmega: transmitter with data register and shift register.  The
receiver holds up to three frames (two in the buffer, one in the shift register); a frame that arrives then
is lost and the flag `DOR` is set until the data register is read.  Every frame has its flag `FE`.  Parity
is not used by the driver and left out; so are `connect` and `initialize`.
-/

namespace Modm.AvrUart

variable {α : Type}

/-! ## Transmitter -/

/-- Where the main program is: not in a call; in `write` after `push`; in `isWriteFinished` after the queue
was found empty; in `discardTransmitBuffer` after the interrupt was disabled, having dropped `i` bytes. -/
inductive Pc where
  | idle
  | enable
  | flag
  | drop (i : Nat)
  deriving DecidableEq

/-- What the caller sees: `write` returned true or false, `isWriteFinished` returned, or
`discardTransmitBuffer` returned the number of bytes. -/
inductive Ev (α : Type) where
  | wrote (x : α)
  | refused (x : α)
  | finished (b : Bool)
  | discarded (n : Nat)
  deriving DecidableEq

/-- Queue, `UDRIE`, data register, shift register, frames sent completely; main program; what the
caller has seen, latest first. -/
structure Tx (α : Type) where
  q : List α := []
  udrie : Bool := false
  udr : Option α := none
  sh : Option α := none
  wire : List α := []
  pc : Pc := .idle
  log : List (Ev α) := []
  deriving DecidableEq

/-- The steps: three calls, the main program continues, the handler, the data register moves to the shift
register, the shift register is empty. -/
inductive Act (α : Type) where
  | write (x : α)
  | isWriteFinished
  | discard
  | go
  | isr
  | load
  | out
  deriving DecidableEq

/-- `MODM_ISR(USART_UDRE)`, `uart_tx.cpp.in:33-46`; it runs if the data register is empty and the interrupt
enabled. -/
def isr (s : Tx α) : Tx α :=
  match s.q with
  | [] => { s with udrie := false }
  | x :: q => { s with q := q, udr := some x }

/-- One step; `none` if it is not possible. -/
def step (n : Nat) (s : Tx α) : Act α → Option (Tx α)
  -- `write`, `uart_tx.cpp.in:81-93`: `push`
  | .write x =>
    if s.pc = .idle then
      if s.q.length < n then some { s with q := s.q ++ [x], pc := .enable, log := .wrote x :: s.log }
      else some { s with log := .refused x :: s.log }
    else none
  -- `isWriteFinished`, `uart_tx.cpp.in:109-113`: `isEmpty`
  | .isWriteFinished =>
    if s.pc = .idle then
      if s.q = [] then some { s with pc := .flag } else some { s with log := .finished false :: s.log }
    else none
  -- `discardTransmitBuffer`, `uart_tx.cpp.in:116-133`: disable the interrupt under the lock
  | .discard => if s.pc = .idle then some { s with udrie := false, pc := .drop 0 } else none
  | .go =>
    match s.pc with
    | .idle => none
    -- `UCSRB |= (1 << UDRIE)` under the lock, line 90
    | .enable => some { s with udrie := true, pc := .idle }
    -- `!(UCSRB & (1 << UDRIE))`, line 112
    | .flag => some { s with pc := .idle, log := .finished (!s.udrie) :: s.log }
    -- lines 125-130
    | .drop i =>
      match s.q with
      | [] => some { s with pc := .idle, log := .discarded i :: s.log }
      | _ :: q => some { s with q := q, pc := .drop (i + 1) }
  | .isr => if s.udrie = true ∧ s.udr = none then some (isr s) else none
  | .load => if s.sh = none ∧ s.udr ≠ none then some { s with sh := s.udr, udr := none } else none
  | .out => if s.sh ≠ none then some { s with sh := none, wire := s.wire ++ s.sh.toList } else none

/-- A sequence of steps. -/
def run (n : Nat) (s : Tx α) : List (Act α) → Option (Tx α)
  | [] => some s
  | a :: l => (step n s a).bind fun s => run n s l

/-! ## Receiver -/

/-- Frames in the hardware, each with its flag `FE`; flag `DOR`; queue; `error` (`FE`, `DOR`).  For the
statements: bytes read, number of frames lost by the hardware since the error was acknowledged. -/
structure Rx (α : Type) where
  hw : List (α × Bool) := []
  dor : Bool := false
  q : List α := []
  fe : Bool := false
  ov : Bool := false
  got : List α := []
  deriving DecidableEq

/-- A frame arrives, the handler runs, the main program reads, discards, acknowledges. -/
inductive RAct (α : Type) where
  | frame (x : α) (fe : Bool)
  | isr
  | read (n : Nat)
  | discardQ
  | discardHw
  | ack
  deriving DecidableEq

/-- `read(uint8_t *buffer, std::size_t length)`, `uart_rx.cpp.in:82-97`; `read(uint8_t&)`, lines 69-80, is
the case of length one.  Bytes that the handler adds while the loop runs are read as if they had been there
before. -/
def readMany (q : List α) : Nat → List α × List α
  | 0 => ([], q)
  | n + 1 =>
    match q with
    | [] => ([], [])
    | x :: q =>
      let r := readMany q n
      (x :: r.1, r.2)

/-- One step. -/
def rstep (n : Nat) (s : Rx α) : RAct α → Option (Rx α)
  | .frame x fe => if s.hw.length < 3 then some { s with hw := s.hw ++ [(x, fe)] } else some { s with dor := true }
  -- `MODM_ISR(USART_RX)`, lines 32-40
  | .isr =>
    match s.hw with
    | [] => none
    | (x, fe) :: hw =>
      let s := { s with fe := s.fe || fe, ov := s.ov || s.dor }
      let s := { s with hw := hw, dor := false }
      if s.q.length < n then some { s with q := s.q ++ [x] } else some s
  | .read k =>
    let r := readMany s.q k
    some { s with q := r.2, got := s.got ++ r.1 }
  -- `discardReceiveBuffer`, lines 100-120: the first loop
  | .discardQ => some { s with q := [] }
  -- a pass of the second loop, line 114
  | .discardHw =>
    match s.hw with
    | [] => none
    | _ :: hw => some { s with hw := hw, dor := false }
  -- `acknowledgeErrorFlags`, lines 129-133
  | .ack => some { s with fe := false, ov := false }

/-- `getErrorFlags`, `uart_rx.cpp.in:123-127`. -/
def getErrorFlags (s : Rx α) : Bool × Bool := (s.fe, s.ov)

/-- A sequence of steps. -/
def rrun (n : Nat) (s : Rx α) : List (RAct α) → Option (Rx α)
  | [] => some s
  | a :: l => (rstep n s a).bind fun s => rrun n s l

end Modm.AvrUart
