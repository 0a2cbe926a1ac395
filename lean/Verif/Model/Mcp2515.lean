import Verif.Model.CanFrame

set_option autoImplicit false

/-!
# The receive and transmit buffers of the MCP2515

Model of `getMessage`, `sendMessage` and `isReadyToSend` in `src/modm/driver/can/mcp2515_impl.hpp` with the buffers of the chip.
What a frame looks like in the registers is in `Verif.Model.CanFrame`; here a frame is a value of any type.

Every SPI command is one step; frames arrive, and transmissions end, between any two commands.

The chip (data sheet, 3.0, 4.0 and figure 4-3): a frame which the filters of the first receive buffer let pass goes there if it is empty; if it is
full the frame goes to the second one if that is empty and `BUKT` is set, and is lost otherwise.  A frame which only the filters of the
second buffer let pass goes there or is lost.  A buffer is free again after it has been read.  A transmit buffer is pending from the command
`RTS` until its frame has been sent; of several pending buffers with the same priority, the one with the highest number is next.
-/

namespace Modm.Mcp2515

variable {α : Type}

/-! ## Receiving -/

namespace Rx

/-- `getMessage` before the command `READ_RX`: the buffer to be read -/
inductive Main where
  | idle
  | read (second : Bool)
  deriving DecidableEq

structure State (α : Type) where
  b0 : Option α
  b1 : Option α
  main : Main

/-- What can be observed. -/
inductive Ev (α : Type) where
  | arrived (m : α)
  | lost (m : α)
  /-- `getMessage` has returned; `none` is `false`. -/
  | got (r : Option α)
  deriving DecidableEq

inductive Act (α : Type) where
  /-- a frame ends on the bus; the filters of which buffers let it pass -/
  | arrive (m : α) (first second : Bool)
  /-- `getMessage` is called and reads the status, lines 199-213 -/
  | get
  /-- `getMessage` reads the buffer, lines 215-233 -/
  | main
  deriving DecidableEq

/-- the bits of the status, as `mcpGet` sees them -/
def statusByte (b0 b1 : Option α) : BitVec 8 := (if b0.isSome then 0x40#8 else 0#8) ||| (if b1.isSome then 0x80#8 else 0#8)

def step (bukt : Bool) (s : State α) : Act α → Option (State α × List (Ev α))
  | .arrive m first second =>
    if first then
      if s.b0.isNone then some ({ s with b0 := some m }, [.arrived m])
      else if bukt && s.b1.isNone then some ({ s with b1 := some m }, [.arrived m])
      else some (s, [.arrived m, .lost m])
    else if second then
      if s.b1.isNone then some ({ s with b1 := some m }, [.arrived m]) else some (s, [.arrived m, .lost m])
    else some (s, [])
  | .get => match s.main with
    | .idle =>
      if statusByte s.b0 s.b1 &&& 0x40#8 ≠ 0#8 then some ({ s with main := .read false }, [])
      else if statusByte s.b0 s.b1 &&& 0x80#8 ≠ 0#8 then some ({ s with main := .read true }, [])
      else some (s, [.got none])
    | _ => some (s, [])
  | .main => match s.main with
    | .idle => some (s, [])
    | .read false => match s.b0 with
      | some m => some ({ s with b0 := none, main := .idle }, [.got (some m)])
      | none => none
    | .read true => match s.b1 with
      | some m => some ({ s with b1 := none, main := .idle }, [.got (some m)])
      | none => none

def init : State α := ⟨none, none, .idle⟩

/-- The states reachable by choices `ok`, with what has happened. -/
inductive Reach (bukt : Bool) (ok : State α → Act α → Prop) : State α → List (Ev α) → Prop
  | start : Reach bukt ok init []
  | step {s s' : State α} {tr e : List (Ev α)} (a : Act α) : Reach bukt ok s tr → ok s a → step bukt s a = some (s', e) →
      Reach bukt ok s' (tr ++ e)

/-- A whole schedule. -/
def run (bukt : Bool) (s : State α) : List (Act α) → Option (State α × List (Ev α))
  | [] => some (s, [])
  | a :: as => do
    let (s', e) ← step bukt s a
    let (s'', e') ← run bukt s' as
    return (s'', e ++ e')

end Rx

/-! ## Sending -/

namespace Tx

/-- The place in `sendMessage`. -/
inductive Main (α : Type) where
  | idle
  | write (m : α) (k : Fin 3)    -- lines 282-298
  | rts (m : α) (k : Fin 3)      -- lines 300-305
  deriving DecidableEq

structure State (α : Type) where
  /-- the registers of the transmit buffers -/
  reg : Fin 3 → Option α
  /-- `TXREQ` -/
  pending : Fin 3 → Bool
  main : Main α

inductive Ev (α : Type) where
  /-- `sendMessage` has returned. -/
  | sent (m : α) (ok : Bool)
  /-- `isReadyToSend` has returned. -/
  | ready (b : Bool)
  /-- a frame on the bus -/
  | wire (m : α)
  deriving DecidableEq

inductive Act (α : Type) where
  /-- `sendMessage` is called and reads the status, lines 261-280 -/
  | send (m : α)
  /-- `isReadyToSend`, lines 242-256 -/
  | ready
  | main
  /-- the frame of buffer `k` has been sent -/
  | complete (k : Fin 3)
  deriving DecidableEq

/-- the answer to `READ_STATUS` -/
def statusByte (p : Fin 3 → Bool) : BitVec 8 :=
  (if p 0 then 0x04#8 else 0#8) ||| (if p 1 then 0x10#8 else 0#8) ||| (if p 2 then 0x40#8 else 0#8)

def upd {β : Type} (f : Fin 3 → β) (k : Fin 3) (v : β) : Fin 3 → β := fun j => if j = k then v else f j

def step (s : State α) : Act α → Option (State α × List (Ev α))
  | .send m => match s.main with
    | .idle => match Modm.CanFrame.mcpBuffer (statusByte s.pending) with
      | some k => some ({ s with main := .write m k }, [])
      | none => some (s, [.sent m false])
    | _ => some (s, [])
  | .ready => match s.main with
    | .idle => some (s, [.ready (statusByte s.pending &&& 0x54#8 != 0x54#8)])
    | _ => some (s, [])
  | .main => match s.main with
    | .idle => some (s, [])
    | .write m k => some ({ s with reg := upd s.reg k (some m), main := .rts m k }, [])
    | .rts m k => some ({ s with pending := upd s.pending k true, main := .idle }, [.sent m true])
  | .complete k =>
    if s.pending k then match s.reg k with
      | some m => some ({ s with pending := upd s.pending k false }, [.wire m])
      | none => none
    else some (s, [])

def init : State α := ⟨fun _ => none, fun _ => false, .idle⟩

inductive Reach (ok : State α → Act α → Prop) : State α → List (Ev α) → Prop
  | start : Reach ok init []
  | step {s s' : State α} {tr e : List (Ev α)} (a : Act α) : Reach ok s tr → ok s a → step s a = some (s', e) → Reach ok s' (tr ++ e)

def run (s : State α) : List (Act α) → Option (State α × List (Ev α))
  | [] => some (s, [])
  | a :: as => do
    let (s', e) ← step s a
    let (s'', e') ← run s' as
    return (s'', e ++ e')

end Tx

end Modm.Mcp2515
