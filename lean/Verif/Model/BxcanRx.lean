import Verif.Model.AtomicQueue

set_option autoImplicit false

/-!
# Reception of the STM32 bxCAN driver

Model of `getMessage`, `isMessageAvailable`, `readMailbox` and the receive interrupt handlers in
`src/modm/platform/can/stm32/can.cpp.in`, with the option `buffer.rx` (`rxSize ≠ 0`) or without it.

The main program, the handlers and the hardware run interleaved.  Every access to a register of a FIFO or to a queue is one step; the
output mailbox and the message in the queue are read in two steps, one for identifier and length, one for the data.  The two handlers have the same priority
(lines 123-124), so that only one of them is active.  `none` is an access outside of the buffer of the queue.

Hardware (reference manual, bxCAN): two FIFOs of three messages.  A message which comes when the FIFO is full sets `FOVR`; it is discarded if
`RFLM` is set (`locked`), otherwise it replaces the last message.  Writing `RFOM` removes the first message.  The interrupt is requested while
there is a message (`FMPIE`, with the queue only, line 140) or `FOVR` is set (`FOVIE`, line 110); with the queue only the handlers remove messages and
clear `FOVR`, so that a request does not vanish before the handler is entered.
-/

namespace Modm.BxcanRx

open Modm.AtomicQueue (Q next)

variable {α : Type}

/-- The variants of the driver. -/
structure Config where
  /-- `buffer.rx` -/
  rxSize : Nat
  /-- not `overwriteOnOverrun`, lines 86-93 -/
  locked : Bool

/-- A message in the queue: the FIFO, the message whose header and the message whose data it has. -/
structure Item (α : Type) where
  fifo : Bool
  hdr : α
  dat : α
  deriving DecidableEq

/-- Calls. -/
inductive Call where
  | get
  | available
  deriving DecidableEq

inductive Ev (α : Type) where
  | called (c : Call)
  /-- a message has been received for the FIFO -/
  | arrived (i : Bool) (m : α)
  /-- a message received is lost because the FIFO was full -/
  | overrun (i : Bool) (m : α)
  /-- the handler has removed a message without reading it -/
  | dropped (i : Bool) (m : α)
  /-- the handler's `push` found the queue full -/
  | full (x : Item α)
  /-- a mailbox was read or released though there was no message in it -/
  | stale
  /-- `getMessage` has returned `true` with this message -/
  | got (x : Item α)
  /-- `getMessage` has returned `false` -/
  | nothing
  | available (b : Bool)
  deriving DecidableEq

/-- The place of the main program. -/
inductive Main (α : Type) where
  | idle
  | check                              -- line 387
  | get                                -- lines 393-395: `memcpy`, the header
  | more (x : Item α)                  -- the data
  | pop (x : Item α)                   -- line 396
  | fmp (i : Bool)                     -- lines 400, 408
  | header (i : Bool)                  -- lines 402, 410
  | data (i : Bool) (h : α)
  | release (i : Bool) (h d : α)       -- lines 405, 413
  | available               -- lines 372-380
  deriving DecidableEq

/-- The place of the handler of a FIFO, lines 259-312. -/
inductive Isr (α : Type) where
  | none
  | check (i : Bool)                   -- lines 265, 295
  | discard (i : Bool)                 -- lines 269, 299
  | header (i : Bool)                  -- lines 274, 304
  | data (i : Bool) (h : α)
  | release (i : Bool) (h d : α)       -- lines 277, 307
  | push (x : Item α)                  -- lines 279, 309
  deriving DecidableEq

structure State (α : Type) where
  /-- the FIFOs -/
  f : Bool → List α
  fovr : Bool → Bool
  q : Q (Item α)
  main : Main α
  isr : Isr α

inductive Act (α : Type) where
  | call (c : Call)
  | main
  | interrupt (i : Bool)
  | isr
  | arrive (i : Bool) (m : α)
  deriving DecidableEq

/-- A function changed at one place. -/
def upd {β : Type} (f : Bool → β) (i : Bool) (v : β) : Bool → β := fun j => if j = i then v else f j

/-- One step of the main program. -/
def mainStep (cfg : Config) (s : State α) : Option (State α × List (Ev α)) :=
  match s.main with
  | .idle => some (s, [])
  | .check =>
    if AtomicQueue.isEmpty s.q then some ({ s with main := .idle }, [.nothing])
    else some ({ s with main := .get }, [])
  | .get => match AtomicQueue.get s.q with
    | none => none
    | some x => some ({ s with main := .more x }, [])
  | .more x => match AtomicQueue.get s.q with
    | none => none
    | some y => some ({ s with main := .pop { x with dat := y.dat } }, [])
  | .pop x => some ({ s with q := AtomicQueue.pop cfg.rxSize s.q, main := .idle }, [.got x])
  | .fmp i =>
    if s.f i ≠ [] then some ({ s with main := .header i }, [])
    else if i then some ({ s with main := .idle }, [.nothing])
    else some ({ s with main := .fmp true }, [])
  | .header i => match s.f i with
    | [] => some ({ s with main := .idle }, [.stale])
    | h :: _ => some ({ s with main := .data i h }, [])
  | .data i h => match s.f i with
    | [] => some ({ s with main := .idle }, [.stale])
    | d :: _ => some ({ s with main := .release i h d }, [])
  | .release i h d => some ({ s with f := upd s.f i (s.f i).tail, main := .idle }, [.got ⟨i, h, d⟩])
  | .available =>
    if cfg.rxSize ≠ 0 then some ({ s with main := .idle }, [.available (!AtomicQueue.isEmpty s.q)])
    else some ({ s with main := .idle }, [.available (!(s.f false).isEmpty || !(s.f true).isEmpty)])

/-- One step of a handler. -/
def isrStep (cfg : Config) (s : State α) : Option (State α × List (Ev α)) :=
  match s.isr with
  | .none => some (s, [])
  | .check i =>
    if s.fovr i then some ({ s with isr := .discard i }, [])
    else some ({ s with isr := if cfg.rxSize = 0 then .none else .header i }, [])
  | .discard i =>
    some ({ s with f := upd s.f i (s.f i).tail, fovr := upd s.fovr i false, isr := if cfg.rxSize = 0 then .none else .header i },
      match s.f i with | [] => [.stale] | m :: _ => [.dropped i m])
  | .header i => match s.f i with
    | [] => some ({ s with isr := .none }, [.stale])
    | h :: _ => some ({ s with isr := .data i h }, [])
  | .data i h => match s.f i with
    | [] => some ({ s with isr := .none }, [.stale])
    | d :: _ => some ({ s with isr := .release i h d }, [])
  | .release i h d => some ({ s with f := upd s.f i (s.f i).tail, isr := .push ⟨i, h, d⟩ }, [])
  | .push x => match AtomicQueue.push cfg.rxSize s.q x with
    | none => none
    | some (q, ok) => some ({ s with q := q, isr := .none }, if ok then [] else [.full x])

/-- The interrupt of the FIFO is requested. -/
def pending (cfg : Config) (s : State α) (i : Bool) : Bool := s.fovr i || (cfg.rxSize != 0 && !(s.f i).isEmpty)

/-- The first place in a call. -/
def start (cfg : Config) : Call → Main α
  | .get => if cfg.rxSize ≠ 0 then .check else .fmp false
  | .available => .available

/-- One step.  A choice that does not apply leaves the state as it is. -/
def step (cfg : Config) (s : State α) : Act α → Option (State α × List (Ev α))
  | .call c => match s.main, s.isr with
    | .idle, .none => some ({ s with main := start cfg c }, [.called c])
    | _, _ => some (s, [])
  | .main => match s.isr with
    | .none => mainStep cfg s
    | _ => some (s, [])
  | .interrupt i => match s.isr with
    | .none => if pending cfg s i then some ({ s with isr := .check i }, []) else some (s, [])
    | _ => some (s, [])
  | .isr => isrStep cfg s
  | .arrive i m =>
    if (s.f i).length < 3 then some ({ s with f := upd s.f i (s.f i ++ [m]) }, [.arrived i m])
    else if cfg.locked then some ({ s with fovr := upd s.fovr i true }, [.arrived i m, .overrun i m])
    else some ({ s with f := upd s.f i ((s.f i).dropLast ++ [m]), fovr := upd s.fovr i true },
      .arrived i m :: ((s.f i).getLast?.map (Ev.overrun i)).toList)

/-- A whole schedule with what happens. -/
def run (cfg : Config) (s : State α) : List (Act α) → Option (State α × List (Ev α))
  | [] => some (s, [])
  | a :: as => do
    let (s', e) ← step cfg s a
    let (s'', e') ← run cfg s' as
    return (s'', e ++ e')

/-- After `initialize`; `mem` is what is in the memory of the queue. -/
def init (mem : List (Item α)) : State α := ⟨fun _ => [], fun _ => false, AtomicQueue.init mem, .idle, .none⟩

/-- The states reachable by choices `ok`, with what has happened. -/
inductive Reach (cfg : Config) (ok : State α → Act α → Prop) (s₀ : State α) : State α → List (Ev α) → Prop
  | start : Reach cfg ok s₀ s₀ []
  | step {s s' : State α} {tr e : List (Ev α)} (a : Act α) : Reach cfg ok s₀ s tr → ok s a → step cfg s a = some (s', e) →
      Reach cfg ok s₀ s' (tr ++ e)

end Modm.BxcanRx
