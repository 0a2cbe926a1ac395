import Verif.Model.FdcanRx

set_option autoImplicit false

/-!
# What a user of the FDCAN driver expects when receiving
-/

namespace Spec.FdcanRx

open Modm.FdcanRx

variable {α : Type}

/-- The messages put into a FIFO. -/
def arrived (i : Bool) : List (Ev α) → List α
  | [] => []
  | .arrived j m :: tr => if j = i then m :: arrived i tr else arrived i tr
  | _ :: tr => arrived i tr

/-- The messages delivered from a FIFO: the message which the header, and the one which the data are from. -/
def got (i : Bool) : List (Ev α) → List (α × α)
  | [] => []
  | .got x :: tr => if x.fifo = i then (x.hdr, x.dat) :: got i tr else got i tr
  | _ :: tr => got i tr

/-- A message as it is. -/
def frame (m : α) : α × α := (m, m)

/-- The messages in the queue from a FIFO. -/
def queued (i : Bool) (q : List (Item α)) : List (α × α) := (q.filter fun x => x.fifo == i).map fun x => (x.hdr, x.dat)

/-- The elements in a FIFO, the oldest first. -/
def contents (f : Fifo α) : List α := [f.mem f.get, f.mem (f.get + 1), f.mem (f.get + 2)].take f.fill

/-- `isMessageAvailable` has returned `true`, and `getMessage` has not returned since. -/
def announced : Bool → List (Ev α) → Bool
  | b, [] => b
  | _, .available b :: tr => announced b tr
  | _, .got _ :: tr => announced false tr
  | _, .nothing :: tr => announced false tr
  | b, _ :: tr => announced b tr

/-- No element is overwritten. -/
def NoOverwrite (cfg : Config) (s : State α) : Act α → Prop
  | .arrive i _ => cfg.overwrite = false ∨ (s.fifo i).fill < 3
  | _ => True

/-- The handler has already seen that there is no message in FIFO `i`, and has not left. -/
def Passed (i : Bool) : Isr α → Prop
  | .loop j _ | .index j _ | .header j _ _ | .data j _ _ _ | .ack j _ _ _ _ => i = false ∧ j = true
  | .push _ x => i = false ∧ x.fifo = true
  | .full | .clear => True
  | _ => False

/-- In addition, no message comes for a FIFO which the handler has passed. -/
def Seen (cfg : Config) (s : State α) : Act α → Prop
  | .arrive i m => NoOverwrite cfg s (.arrive i m) ∧ ¬ Passed i s.isr
  | _ => True

end Spec.FdcanRx
