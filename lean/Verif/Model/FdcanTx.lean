set_option autoImplicit false

/-!
# Transmission of the STM32 FDCAN driver

Model of `sendMessage`, `isReadyToSend`, `sendMsg` and the handler of the interrupt line 0 in
`src/modm/platform/can/stm32-fdcan/can.cpp.in`, with the option `buffer.tx` (`txSize ≠ 0`) or without it.

The main program, the handler and the hardware run interleaved.  Every access to `TXFQS`, `IR`, `ILE`, `TXBAR` and to the queue is one step; a
buffer in the message RAM is written in two steps, one for the headers, one for the data, and a frame is the pair of the messages which its
headers and its data are from.  What a frame looks like in the message RAM is in `Verif.Model.CanFrame`.  The queue is a list: `push` and `pop` exclude each other
by the lock, and `modm::atomic::Queue` itself is in `Verif.Model.AtomicQueue`.

Hardware (reference manual, FDCAN, queue mode, line 201): three buffers.  The put index is a free buffer if there is one; which one, is the choice of the
hardware (`k` in `Act`).  A write to `TXBAR` makes a buffer pending.  At the end of a transmission the buffer is free and `TC` is set.  The handler may be
entered whenever `EINT0` is set, also without `TC`, because the errors have the same line.  Assumption: it is not entered after the write which
clears `ILE` (the core might still take an interrupt which came a few cycles before).  Shared interrupts are in `stepShared`.
-/

namespace Modm.FdcanTx

variable {α : Type}

/-- Calls. -/
inductive Call (α : Type) where
  | send (m : α)
  | ready
  deriving DecidableEq

/-- What the caller sees. -/
inductive Ev (α : Type) where
  | called (c : Call α)
  | sent (m : α) (ok : Bool)
  | ready (b : Bool)
  deriving DecidableEq

/-- The place of the main program. -/
inductive Main (α : Type) where
  | idle
  | lock (m : α)                  -- lines 439-448
  | full (m : α)                  -- line 451
  | room (m : α)                  -- line 453
  | push (m : α)                  -- line 456
  | again (m : α)                 -- lines 462, 138: `sendMsg` looks again
  | header (m : α)                -- lines 142-145
  | data (m : α) (k : Fin 3)      -- line 150
  | request (m : α) (k : Fin 3)   -- line 153
  | unlock (m : α) (ok : Bool)    -- line 447
  | ready                         -- lines 420-428
  deriving DecidableEq

/-- The place of the handler, lines 223-231. -/
inductive Isr where
  | none
  | flag                          -- line 223
  | clear                         -- line 224
  | check                         -- line 225
  | full                          -- line 138
  | header                        -- lines 142-145
  | data (k : Fin 3)              -- line 150
  | request (k : Fin 3)           -- line 153
  | pop                           -- line 228
  deriving DecidableEq

structure State (α : Type) where
  /-- the message whose headers are in buffer `k` -/
  hdr : Fin 3 → α
  /-- the message whose data are in buffer `k` -/
  dat : Fin 3 → α
  pending : Fin 3 → Bool
  /-- `TC` in `IR` -/
  tc : Bool
  /-- `EINT0` in `ILE` -/
  ile : Bool
  /-- the frames sent -/
  wire : List (α × α)
  /-- `txQueue` -/
  queue : List α
  main : Main α
  isr : Isr

/-- What the scheduler chooses. -/
inductive Act (α : Type) where
  | call (c : Call α)
  /-- a step of the main program; `k` is the put index if it is read -/
  | main (k : Fin 3)
  | interrupt
  /-- a step of the handler -/
  | isr (k : Fin 3)
  /-- the transmission from buffer `k` ends -/
  | complete (k : Fin 3)
  deriving DecidableEq

/-- A function changed at one place. -/
def upd {β : Type} (f : Fin 3 → β) (k : Fin 3) (v : β) : Fin 3 → β := fun j => if j = k then v else f j

/-- `isHardwareTxQueueFull`, lines 44-48 -/
def hwFull (s : State α) : Bool := s.pending 0 && s.pending 1 && s.pending 2

/-- After the body of `sendMessage`: with the queue the destructor of the lock, without it the return. -/
def leave (txSize : Nat) (s : State α) (m : α) (ok : Bool) : State α × List (Ev α) :=
  if txSize = 0 then ({ s with main := .idle }, [.sent m ok]) else ({ s with main := .unlock m ok }, [])

/-- One step of the main program. -/
def mainStep (txSize : Nat) (s : State α) (k : Fin 3) : State α × List (Ev α) :=
  match s.main with
  | .idle => (s, [])
  | .lock m => ({ s with ile := false, main := .full m }, [])
  | .full m =>
    if hwFull s then
      if txSize = 0 then leave txSize s m false else ({ s with main := .room m }, [])
    else ({ s with main := .again m }, [])
  | .room m => if s.queue.length = txSize then leave txSize s m false else ({ s with main := .push m }, [])
  | .push m => leave txSize { s with queue := s.queue ++ [m] } m true
  | .again m => if hwFull s then leave txSize s m false else ({ s with main := .header m }, [])
  | .header m =>
    if s.pending k then (s, []) else ({ s with hdr := upd s.hdr k m, main := .data m k }, [])
  | .data m k => ({ s with dat := upd s.dat k m, main := .request m k }, [])
  | .request m k => leave txSize { s with pending := upd s.pending k true } m true
  | .unlock m ok => ({ s with ile := true, main := .idle }, [.sent m ok])
  | .ready =>
    if txSize = 0 then ({ s with main := .idle }, [.ready (hwFull s)])
    else ({ s with main := .idle }, [.ready (s.queue.length != txSize)])

/-- One step of the handler; `none`: `get` on an empty queue. -/
def isrStep (s : State α) (k : Fin 3) : Option (State α) :=
  match s.isr with
  | .none => some s
  | .flag => some { s with isr := if s.tc then .clear else .none }
  | .clear => some { s with tc := false, isr := .check }
  | .check => some { s with isr := if s.queue.isEmpty then .none else .full }
  | .full => some { s with isr := if hwFull s then .none else .header }
  | .header => match s.queue with
    | [] => none
    | m :: _ => if s.pending k then some s else some { s with hdr := upd s.hdr k m, isr := .data k }
  | .data k => match s.queue with
    | [] => none
    | m :: _ => some { s with dat := upd s.dat k m, isr := .request k }
  | .request k => some { s with pending := upd s.pending k true, isr := .pop }
  | .pop => some { s with queue := s.queue.tail, isr := .none }

/-- The first place in a call. -/
def start (txSize : Nat) : Call α → Main α
  | .send m => if txSize = 0 then .full m else .lock m
  | .ready => .ready

/-- One step.  A choice that does not apply leaves the state as it is. -/
def step (txSize : Nat) (s : State α) : Act α → Option (State α × List (Ev α))
  | .call c => match s.main, s.isr with
    | .idle, .none => some ({ s with main := start txSize c }, [.called c])
    | _, _ => some (s, [])
  | .main k => match s.isr with
    | .none => some (mainStep txSize s k)
    | _ => some (s, [])
  | .interrupt => match s.isr with
    | .none => if txSize ≠ 0 ∧ s.ile = true then some ({ s with isr := .flag }, []) else some (s, [])
    | _ => some (s, [])
  | .isr k => (isrStep s k).map fun s' => (s', [])
  | .complete k =>
    if s.pending k then
      some ({ s with pending := upd s.pending k false, tc := true, wire := s.wire ++ [(s.hdr k, s.dat k)] }, [])
    else some (s, [])

/-- One step if the two controllers of a chip share the interrupt (`can_shared_irqs.cpp.in`): the handlers of both are called for the interrupt of either, so that this
one is entered also while its own `ILE` is cleared. -/
def stepShared (txSize : Nat) (s : State α) : Act α → Option (State α × List (Ev α))
  | .interrupt => match s.isr with
    | .none => if txSize ≠ 0 then some ({ s with isr := .flag }, []) else some (s, [])
    | _ => some (s, [])
  | a => step txSize s a

def runShared (txSize : Nat) (s : State α) : List (Act α) → Option (State α × List (Ev α))
  | [] => some (s, [])
  | a :: as => do
    let (s', e) ← stepShared txSize s a
    let (s'', e') ← runShared txSize s' as
    return (s'', e ++ e')

/-- A whole schedule with what happens. -/
def run (txSize : Nat) (s : State α) : List (Act α) → Option (State α × List (Ev α))
  | [] => some (s, [])
  | a :: as => do
    let (s', e) ← step txSize s a
    let (s'', e') ← run txSize s' as
    return (s'', e ++ e')

/-- After `initialize`; `ram` is what is in the message RAM. -/
def init (ram : Fin 3 → α) : State α := ⟨ram, ram, fun _ => false, false, true, [], [], .idle, .none⟩

/-- The states reachable by choices `ok`, with what has happened. -/
inductive Reach (txSize : Nat) (ok : State α → Act α → Prop) (s₀ : State α) : State α → List (Ev α) → Prop
  | start : Reach txSize ok s₀ s₀ []
  | step {s s' : State α} {tr e : List (Ev α)} (a : Act α) : Reach txSize ok s₀ s tr → ok s a → step txSize s a = some (s', e) →
      Reach txSize ok s₀ s' (tr ++ e)

end Modm.FdcanTx
