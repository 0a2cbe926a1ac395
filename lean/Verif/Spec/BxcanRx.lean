import Verif.Model.BxcanRx

set_option autoImplicit false

/-!
# What a user of a CAN driver expects when receiving

The bus brings messages for one of two FIFOs; the caller sees what `getMessage` and `isMessageAvailable` return.
-/

namespace Spec.BxcanRx

open Modm.BxcanRx

variable {α : Type}

/-- The messages received for a FIFO. -/
def arrived (i : Bool) : List (Ev α) → List α
  | [] => []
  | .arrived j m :: tr => if j = i then m :: arrived i tr else arrived i tr
  | _ :: tr => arrived i tr

/-- The messages delivered from a FIFO: the message which the header, and the one which the data are from. -/
def got (i : Bool) : List (Ev α) → List (α × α)
  | [] => []
  | .got x :: tr => if x.fifo = i then (x.hdr, x.dat) :: got i tr else got i tr
  | _ :: tr => got i tr

/-- A message as it is. -/
def frame (m : α) : α × α := (m, m)

/-- How many messages were lost because the FIFO was full. -/
def overruns (i : Bool) : List (Ev α) → Nat
  | [] => 0
  | .overrun j _ :: tr => (if j = i then 1 else 0) + overruns i tr
  | _ :: tr => overruns i tr

/-- How many messages the handler has removed without reading them. -/
def drops (i : Bool) : List (Ev α) → Nat
  | [] => 0
  | .dropped j _ :: tr => (if j = i then 1 else 0) + drops i tr
  | _ :: tr => drops i tr

/-- How many messages were lost because the queue was full. -/
def fulls (i : Bool) : List (Ev α) → Nat
  | [] => 0
  | .full x :: tr => (if x.fifo = i then 1 else 0) + fulls i tr
  | _ :: tr => fulls i tr

/-- `isMessageAvailable` has returned `true`, and `getMessage` has not returned since. -/
def announced : Bool → List (Ev α) → Bool
  | b, [] => b
  | _, .available b :: tr => announced b tr
  | _, .got _ :: tr => announced false tr
  | _, .nothing :: tr => announced false tr
  | b, _ :: tr => announced b tr

/-- The size and the memory of the queue. -/
structure Fits (cfg : Config) (mem : List (Item α)) : Prop where
  size : cfg.rxSize ≤ 65535
  mem : mem.length = cfg.rxSize + 1

/-- Nothing arrives. -/
def Quiet : Act α → Prop
  | .arrive _ _ => False
  | _ => True

end Spec.BxcanRx
