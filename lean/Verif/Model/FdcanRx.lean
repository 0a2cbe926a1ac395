set_option autoImplicit false

/-!
# Reception of the STM32 FDCAN driver

Model of `getMessage`, `isMessageAvailable`, `readMsg` and the handler of the interrupt line 1 in `src/modm/platform/can/stm32-fdcan/can.cpp.in` with the
option `buffer.rx` (without it the file does not compile: `releaseRxFifo0Message` is not declared anywhere).

The main program, the handler and the hardware run interleaved.  Every access to `RXFxS`, `RXFxA`, `IR`, `ILE` and to the queue is one step; an element in the message RAM is
read in two steps, headers and data.  What is in an element is in `Verif.Model.CanFrame`.  The queue is a list: the handler is not interrupted by the program, and
`modm::atomic::Queue` itself is in `Verif.Model.AtomicQueue`.

Hardware (reference manual, FDCAN): two FIFOs of three elements in the message RAM with get index and fill level.  A message for a full FIFO is lost, or, with `overwriteOnOverrun` (the
default), overwrites the oldest element, and the get index is incremented.  Writing an index to `RXFxA` sets the get index to the next one and updates the fill level; what
the fill level is if that element has been overwritten meanwhile is not documented, and is a parameter here (`refill`).  A message sets `RFxN`.  The interrupt is requested while `EINT1` and one of
the flags are set.  The handler may also be entered at other times, because the line may be shared (`can_shared_irqs.cpp.in`).
-/

namespace Modm.FdcanRx

variable {α : Type}

/-- The variants of the driver and of the hardware. -/
structure Config where
  /-- `buffer.rx` -/
  rxSize : Nat
  /-- `overwriteOnOverrun`, line 195 -/
  overwrite : Bool
  refill : Fin 3 → Fin 3 → Nat

/-- A message in the queue: the FIFO, the message whose header and the message whose data it has. -/
structure Item (α : Type) where
  fifo : Bool
  hdr : α
  dat : α
  deriving DecidableEq

structure Fifo (α : Type) where
  mem : Fin 3 → α
  get : Fin 3
  fill : Nat

inductive Call where
  | get
  | available
  deriving DecidableEq

inductive Ev (α : Type) where
  | called (c : Call)
  /-- a message has been put into the FIFO -/
  | arrived (i : Bool) (m : α)
  /-- a message has been discarded or overwritten because the FIFO was full -/
  | overrun (i : Bool) (m : α)
  /-- the handler's `push` found the queue full -/
  | full (x : Item α)
  | got (x : Item α)
  | nothing
  | available (b : Bool)
  deriving DecidableEq

/-- The place of the main program. -/
inductive Main (α : Type) where
  | idle
  | check                                         -- line 390
  | get                                           -- lines 394-395
  | pop (x : Item α)                              -- line 402
  | enable (x : Item α)                           -- line 403
  | available                                     -- line 380
  deriving DecidableEq

/-- The place of the handler, lines 255-279; `n` is `msgRetrieveLimit`. -/
inductive Isr (α : Type) where
  | none
  | limit                                         -- line 255
  | loop (i : Bool) (n : Nat)                     -- lines 259, 265
  | index (i : Bool) (n : Nat)                    -- line 99
  | header (i : Bool) (n : Nat) (g : Fin 3)       -- lines 102-122
  | data (i : Bool) (n : Nat) (g : Fin 3) (h : α) -- line 127
  | ack (i : Bool) (n : Nat) (g : Fin 3) (h d : α) -- line 128
  | push (n : Nat) (x : Item α)                   -- lines 261, 267
  | full                                          -- line 271
  | disable                                       -- line 276
  | clear                                         -- line 278
  deriving DecidableEq

structure State (α : Type) where
  fifo : Bool → Fifo α
  /-- `RF0N`, `RF1N` -/
  rf : Bool → Bool
  /-- `EINT1` -/
  ile : Bool
  queue : List (Item α)
  main : Main α
  isr : Isr α

inductive Act (α : Type) where
  | call (c : Call)
  | main
  | interrupt
  | isr
  | arrive (i : Bool) (m : α)
  /-- the lock in `sendMessage` restores an older value of `ILE`, lines 441-447 -/
  | restore
  deriving DecidableEq

def upd {β : Type} (f : Bool → β) (i : Bool) (v : β) : Bool → β := fun j => if j = i then v else f j

def set (f : Fin 3 → α) (k : Fin 3) (v : α) : Fin 3 → α := fun j => if j = k then v else f j

/-- A message comes. -/
def accept (cfg : Config) (f : Fifo α) (i : Bool) (m : α) : Fifo α × List (Ev α) :=
  if f.fill < 3 then ({ f with mem := set f.mem (f.get + Fin.ofNat 3 f.fill) m, fill := f.fill + 1 }, [.arrived i m])
  else if cfg.overwrite then ({ f with mem := set f.mem f.get m, get := f.get + 1 }, [.overrun i (f.mem f.get), .arrived i m])
  else (f, [.overrun i m])

/-- `acknowledgeRxFifoRead`, lines 62-71 -/
def acknowledge (cfg : Config) (f : Fifo α) (g : Fin 3) : Fifo α :=
  { f with get := g + 1, fill := if f.get = g then f.fill - 1 else cfg.refill (f.get + Fin.ofNat 3 f.fill) (g + 1) }

/-- One step of the main program. -/
def mainStep (s : State α) : Option (State α × List (Ev α)) :=
  match s.main with
  | .idle => some (s, [])
  | .check => if s.queue.isEmpty then some ({ s with main := .idle }, [.nothing]) else some ({ s with main := .get }, [])
  | .get => match s.queue with
    | [] => none
    | x :: _ => some ({ s with main := .pop x }, [])
  | .pop x => some ({ s with queue := s.queue.tail, main := .enable x }, [])
  | .enable x => some ({ s with ile := true, main := .idle }, [.got x])
  | .available => some ({ s with main := .idle }, [.available (!s.queue.isEmpty)])

/-- One step of the handler. -/
def isrStep (cfg : Config) (s : State α) : State α × List (Ev α) :=
  match s.isr with
  | .none => (s, [])
  | .limit => ({ s with isr := .loop false (cfg.rxSize - s.queue.length) }, [])
  | .loop i n =>
    if 0 < (s.fifo i).fill ∧ 0 < n then ({ s with isr := .index i n }, [])
    else if i then ({ s with isr := .full }, [])
    else ({ s with isr := .loop true n }, [])
  | .index i n => ({ s with isr := .header i n (s.fifo i).get }, [])
  | .header i n g => ({ s with isr := .data i n g ((s.fifo i).mem g) }, [])
  | .data i n g h => ({ s with isr := .ack i n g h ((s.fifo i).mem g) }, [])
  | .ack i n g h d => ({ s with fifo := upd s.fifo i (acknowledge cfg (s.fifo i) g), isr := .push n ⟨i, h, d⟩ }, [])
  | .push n x =>
    if s.queue.length < cfg.rxSize then ({ s with queue := s.queue ++ [x], isr := .loop x.fifo (n - 1) }, [])
    else ({ s with isr := .loop x.fifo (n - 1) }, [.full x])
  | .full => ({ s with isr := if s.queue.length = cfg.rxSize then .disable else .clear }, [])
  | .disable => ({ s with ile := false, isr := .none }, [])
  | .clear => ({ s with rf := fun _ => false, isr := .none }, [])

/-- One step.  A choice that does not apply leaves the state as it is. -/
def step (cfg : Config) (s : State α) : Act α → Option (State α × List (Ev α))
  | .call c => match s.main, s.isr with
    | .idle, .none => some ({ s with main := match c with | .get => .check | .available => .available }, [.called c])
    | _, _ => some (s, [])
  | .main => match s.isr with
    | .none => mainStep s
    | _ => some (s, [])
  | .interrupt => match s.isr with
    | .none => some ({ s with isr := .limit }, [])
    | _ => some (s, [])
  | .isr => some (isrStep cfg s)
  | .arrive i m =>
    some ({ s with fifo := upd s.fifo i (accept cfg (s.fifo i) i m).1,
                   rf := if (s.fifo i).fill < 3 ∨ cfg.overwrite then upd s.rf i true else s.rf },
      (accept cfg (s.fifo i) i m).2)
  | .restore => match s.isr with
    | .none => some ({ s with ile := true }, [])
    | _ => some (s, [])

/-- The interrupt is requested. -/
def requested (s : State α) : Bool := s.ile && (s.rf false || s.rf true)

/-- A whole schedule with what happens. -/
def run (cfg : Config) (s : State α) : List (Act α) → Option (State α × List (Ev α))
  | [] => some (s, [])
  | a :: as => do
    let (s', e) ← step cfg s a
    let (s'', e') ← run cfg s' as
    return (s'', e ++ e')

/-- After `initialize`; `ram` is what is in the message RAM. -/
def init (ram : Fin 3 → α) : State α := ⟨fun _ => ⟨ram, 0, 0⟩, fun _ => false, true, [], .idle, .none⟩

/-- The states reachable by choices `ok`, with what has happened. -/
inductive Reach (cfg : Config) (ok : State α → Act α → Prop) (s₀ : State α) : State α → List (Ev α) → Prop
  | start : Reach cfg ok s₀ s₀ []
  | step {s s' : State α} {tr e : List (Ev α)} (a : Act α) : Reach cfg ok s₀ s tr → ok s a → step cfg s a = some (s', e) →
      Reach cfg ok s₀ s' (tr ++ e)

end Modm.FdcanRx
