import Verif.Model.AvrUart

set_option autoImplicit false

/-! # What the caller of a UART may expect -/

namespace Modm.AvrUart.Spec

variable {α : Type}

/-- The bytes that have to be sent, after what the caller has seen (latest first): those written, without
the last ones if they were discarded. -/
def accepted : List (Ev α) → List α
  | [] => []
  | .wrote x :: l => accepted l ++ [x]
  | .refused _ :: l => accepted l
  | .finished _ :: l => accepted l
  | .discarded n :: l => (accepted l).take ((accepted l).length - n)

/-- Steps that the main program does not take. -/
def Device : Act α → Bool
  | .isr | .load | .out => true
  | _ => false

/-- The bytes of the frames that arrive. -/
def arrived : List (RAct α) → List α
  | [] => []
  | .frame x _ :: l => x :: arrived l
  | _ :: l => arrived l

/-- No byte is discarded. -/
def Keeps : RAct α → Bool
  | .discardQ | .discardHw => false
  | _ => true

end Modm.AvrUart.Spec
