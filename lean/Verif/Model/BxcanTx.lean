import Verif.Model.AtomicQueue

set_option autoImplicit false

/-!
# Transmission of the STM32 bxCAN driver

Model of `sendMessage`, `isReadyToSend`, `sendMailbox` and the transmit interrupt handler in
`src/modm/platform/can/stm32/can.cpp.in`, with the option `buffer.tx` (`txSize ≠ 0`) or without it.

The main program, the interrupt handler and the hardware run interleaved, as in `Verif.Model.Uart`.  Every access to
`TSR`, to the members of the queue which the other side changes, and the request of a transmission is one step.  The
registers of a mailbox are written in two steps, one for identifier and length (`TIR`, `TDTR`), one for the data
(`TDLR`, `TDHR`).  A frame is therefore a pair: the message which its header is taken from and the message
which its data are taken from.

Hardware (reference manual, bxCAN): three mailboxes.  `TXRQ` makes a mailbox pending; the registers of a pending mailbox are
write protected; mailboxes are sent in the order of the requests (`TXFP` is set, lines 87-94); every message is sent eventually
(automatic retransmission).  At the end of a transmission the mailbox is empty and its flag `RQCP` is set, which
a new request or a write to `TSR` clears.  The interrupt line is high while a flag `RQCP` is set (`TMEIE`, line 113).  The NVIC notes an
interrupt on a rising edge and while the line is high and the handler is not active, and forgets it on
entry.
-/

namespace Modm.BxcanTx

open Modm.AtomicQueue (Q next)

variable {α : Type}

/-- The variants of the driver. -/
structure Config where
  /-- `buffer.tx` -/
  txSize : Nat
  /-- The field `CODE` of `TSR`, by the pending mailboxes. -/
  code : List Nat → Nat

/-- The registers. -/
structure Hw (α : Type) where
  /-- the message whose identifier and length are in mailbox `k` -/
  hdr : Nat → α
  /-- the message whose data are in mailbox `k` -/
  dat : Nat → α
  /-- the pending mailboxes, in the order of the requests -/
  boxes : List Nat
  /-- `RQCP0` to `RQCP2` in `TSR` -/
  rqcp : Nat → Bool
  /-- the interrupt is pending in the NVIC -/
  pend : Bool
  /-- the frames sent -/
  wire : List (α × α)

/-- A function changed at one place. -/
def upd {β : Type} (f : Nat → β) (k : Nat) (v : β) : Nat → β := fun j => if j = k then v else f j

/-- `TME0`, `TME1` or `TME2` is set. -/
def anyEmpty (h : Hw α) : Bool := !h.boxes.contains 0 || !h.boxes.contains 1 || !h.boxes.contains 2

/-- The interrupt line. -/
def line (h : Hw α) : Bool := h.rqcp 0 || h.rqcp 1 || h.rqcp 2

/-- `TIR` and `TDTR` are written, `sendMailbox`, lines 167-179. -/
def writeHeader (h : Hw α) (k : Nat) (m : α) : Hw α := if h.boxes.contains k then h else { h with hdr := upd h.hdr k m }

/-- `TDLR` and `TDHR` are written, lines 181-184. -/
def writeData (h : Hw α) (k : Nat) (m : α) : Hw α := if h.boxes.contains k then h else { h with dat := upd h.dat k m }

/-- `TXRQ` is set, line 187. -/
def request (h : Hw α) (k : Nat) : Hw α :=
  if h.boxes.contains k then h else { h with boxes := h.boxes ++ [k], rqcp := upd h.rqcp k false }

/-- Calls. -/
inductive Call (α : Type) where
  | send (m : α)
  | ready
  deriving DecidableEq

/-- What the caller sees. -/
inductive Ev (α : Type) where
  | called (c : Call α)
  /-- `sendMessage(m)` has returned. -/
  | sent (m : α) (ok : Bool)
  /-- `isReadyToSend()` has returned. -/
  | ready (b : Bool)
  deriving DecidableEq

/-- The place of the main program. -/
inductive Main (α : Type) where
  | idle
  | tsr (m : α)               -- line 438, reading `TSR`
  | code (m : α)              -- line 453, reading `TSR` again
  | header (m : α) (k : Nat)  -- line 455
  | data (m : α) (k : Nat)
  | request (m : α) (k : Nat)
  | full (m : α)              -- line 442, `push`: `tmphead == tail`
  | store (m : α)             -- `push`: `buffer[head] = value`
  | publish (m : α)           -- `push`: `head = tmphead`
  | ready                     -- lines 424-428
  deriving DecidableEq

/-- The place of the handler, lines 228-250. -/
inductive Isr where
  | none
  | tsr                       -- line 230
  | clear (k : Nat)           -- lines 232-243
  | check (k : Nat)           -- line 245
  | header (k : Nat)          -- line 247
  | data (k : Nat)
  | request (k : Nat)
  | pop                       -- line 248
  deriving DecidableEq

structure State (α : Type) where
  hw : Hw α
  q : Q α
  main : Main α
  isr : Isr

/-- What the scheduler chooses. -/
inductive Act (α : Type) where
  | call (c : Call α)
  | main
  | interrupt
  | isr
  | complete                  -- a transmission ends
  deriving DecidableEq

/-- One step of the main program. -/
def mainStep (cfg : Config) (s : State α) : Option (State α × List (Ev α)) :=
  match s.main with
  | .idle => some (s, [])
  | .tsr m =>
    if anyEmpty s.hw then some ({ s with main := .code m }, [])
    else if cfg.txSize = 0 then some ({ s with main := .idle }, [.sent m false])
    else some ({ s with main := .full m }, [])
  | .code m => some ({ s with main := .header m (cfg.code s.hw.boxes) }, [])
  | .header m k => some ({ s with hw := writeHeader s.hw k m, main := .data m k }, [])
  | .data m k => some ({ s with hw := writeData s.hw k m, main := .request m k }, [])
  | .request m k => some ({ s with hw := request s.hw k, main := .idle }, [.sent m true])
  | .full m =>
    if next cfg.txSize s.q.head = s.q.tail then some ({ s with main := .idle }, [.sent m false])
    else some ({ s with main := .store m }, [])
  | .store m =>
    if s.q.head < s.q.buf.length then some ({ s with q := { s.q with buf := s.q.buf.set s.q.head m }, main := .publish m }, [])
    else none
  | .publish m => some ({ s with q := { s.q with head := next cfg.txSize s.q.head }, main := .idle }, [.sent m true])
  | .ready =>
    if cfg.txSize = 0 then some ({ s with main := .idle }, [.ready (anyEmpty s.hw)])
    else some ({ s with main := .idle }, [.ready (!AtomicQueue.isFull cfg.txSize s.q)])

/-- The handler returns. -/
def leave (s : State α) : State α := { s with isr := .none, hw := { s.hw with pend := s.hw.pend || line s.hw } }

/-- One step of the handler. -/
def isrStep (cfg : Config) (s : State α) : Option (State α × List (Ev α)) :=
  match s.isr with
  | .none => some (s, [])
  | .tsr => some ({ s with isr := .clear (if s.hw.rqcp 2 then 2 else if s.hw.rqcp 1 then 1 else 0) }, [])
  | .clear k => some ({ s with isr := .check k, hw := { s.hw with rqcp := upd s.hw.rqcp k false } }, [])
  | .check k => if AtomicQueue.isEmpty s.q then some (leave s, []) else some ({ s with isr := .header k }, [])
  | .header k => match AtomicQueue.get s.q with
    | none => none
    | some m => some ({ s with hw := writeHeader s.hw k m, isr := .data k }, [])
  | .data k => match AtomicQueue.get s.q with
    | none => none
    | some m => some ({ s with hw := writeData s.hw k m, isr := .request k }, [])
  | .request k => some ({ s with hw := request s.hw k, isr := .pop }, [])
  | .pop => some (leave { s with q := AtomicQueue.pop cfg.txSize s.q }, [])

/-- One step.  A choice that does not apply leaves the state as it is. -/
def step (cfg : Config) (s : State α) : Act α → Option (State α × List (Ev α))
  | .call c => match s.main, s.isr with
    | .idle, .none => some ({ s with main := match c with | .send m => .tsr m | .ready => .ready }, [.called c])
    | _, _ => some (s, [])
  | .main => match s.isr with
    | .none => mainStep cfg s
    | _ => some (s, [])
  | .interrupt => match s.isr with
    | .none =>
      if cfg.txSize ≠ 0 ∧ s.hw.pend = true then some ({ s with isr := .tsr, hw := { s.hw with pend := false } }, [])
      else some (s, [])
    | _ => some (s, [])
  | .isr => isrStep cfg s
  | .complete => match s.hw.boxes with
    | [] => some (s, [])
    | k :: rest =>
      some ({ s with hw := { s.hw with
        boxes := rest
        rqcp := upd s.hw.rqcp k true
        pend := s.hw.pend || !line s.hw || s.isr == .none
        wire := s.hw.wire ++ [(s.hw.hdr k, s.hw.dat k)] } }, [])

/-- A whole schedule with what happens. -/
def run (cfg : Config) (s : State α) : List (Act α) → Option (State α × List (Ev α))
  | [] => some (s, [])
  | a :: as => do
    let (s', e) ← step cfg s a
    let (s'', e') ← run cfg s' as
    return (s'', e ++ e')

/-- After `initialize`: `x` stands for what is in the registers, `mem` for what is in the memory of the queue. -/
def init (x : α) (mem : List α) : State α :=
  ⟨⟨fun _ => x, fun _ => x, [], fun _ => false, false, []⟩, AtomicQueue.init mem, .idle, .none⟩

/-- The states reachable by choices `ok`, with what has happened. -/
inductive Reach (cfg : Config) (ok : State α → Act α → Prop) (s₀ : State α) : State α → List (Ev α) → Prop
  | start : Reach cfg ok s₀ s₀ []
  | step {s s' : State α} {tr e : List (Ev α)} (a : Act α) : Reach cfg ok s₀ s tr → ok s a → step cfg s a = some (s', e) →
      Reach cfg ok s₀ s' (tr ++ e)

end Modm.BxcanTx
