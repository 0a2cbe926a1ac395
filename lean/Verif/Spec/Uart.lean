import Verif.Model.Uart

set_option autoImplicit false

/-!
# What a user of a UART sees

`api` reads a trace the way the caller does: only calls and their results.  It says which bytes the driver
has agreed to send and which bytes it has delivered.
-/

namespace Spec.Uart

open Modm.Uart

variable {α : Type}

/-- What the caller knows. -/
structure Api (α : Type) where
  /-- The call in progress. -/
  current : Option (Call α)
  /-- The bytes which `write` and `writeBlocking` have taken, in order. -/
  written : List α
  /-- The bytes which `read` has delivered, in order. -/
  received : List α
  /-- The number of bytes which `discardTransmitBuffer` has reported. -/
  discardedTx : Nat
  /-- The number of bytes which `discardReceiveBuffer` has reported. -/
  discardedRx : Nat
  deriving DecidableEq

/-- The data of a call. -/
def data : Call α → List α
  | .write x rest => x :: rest
  | .writeBlocking x rest => x :: rest
  | _ => []

/-- What the caller learns from a call or from its result. -/
def learn (a : Api α) : Ev α → Api α
  | .called c => { a with current := some c }
  | .done (.wrote n) => { a with written := a.written ++ ((a.current.map data).getD []).take n }
  | .done .blocked => { a with written := a.written ++ (a.current.map data).getD [] }
  | .done (.received xs) => { a with received := a.received ++ xs }
  | .done (.discardedTx n) => { a with discardedTx := a.discardedTx + n }
  | .done (.discardedRx n) => { a with discardedRx := a.discardedRx + n }
  | _ => a

/-- What the caller knows after a trace. -/
def api (tr : List (Ev α)) : Api α := tr.foldl learn ⟨none, [], [], 0, 0⟩

/-- The bytes which have arrived at the receiver. -/
def arrivals : List (Ev α) → List α
  | [] => []
  | .arrived x :: tr => x :: arrivals tr
  | _ :: tr => arrivals tr

/-- The bytes lost because the data register or the receive queue was full. -/
def overflows : List (Ev α) → List α
  | [] => []
  | .overrun x :: tr => x :: overflows tr
  | .full x :: tr => x :: overflows tr
  | _ :: tr => overflows tr

/-- The bytes lost because the data register was read to clear a flag. -/
def eatens : List (Ev α) → List α
  | [] => []
  | .eaten x :: tr => x :: eatens tr
  | _ :: tr => eatens tr

/-- Choices other than `writeBlocking` and `discardTransmitBuffer`. -/
def Plain : Act α → Prop
  | .call (.writeBlocking _ _) => False
  | .call .discardTransmitBuffer => False
  | _ => True

/-- Choices in which `writeBlocking` is called only while the transmit queue is empty. -/
def Polite (s : State α) : Act α → Prop
  | .call (.writeBlocking _ _) => Modm.AtomicQueue.isEmpty s.tx = true
  | .call .discardTransmitBuffer => False
  | _ => True

/-- The same, with `discardTransmitBuffer`. -/
def PoliteDiscard (s : State α) : Act α → Prop
  | .call (.writeBlocking _ _) => Modm.AtomicQueue.isEmpty s.tx = true
  | _ => True

end Spec.Uart
