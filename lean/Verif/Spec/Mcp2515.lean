import Verif.Model.Mcp2515

set_option autoImplicit false

/-!
What a user expects of the buffers of the MCP2515: every frame is delivered once and in order, every accepted message is sent once and
in order.
-/

namespace Spec.Mcp2515

variable {α : Type}

section
open Modm.Mcp2515.Rx

/-- the frames which passed the filters -/
def arrivals : List (Ev α) → List α
  | [] => []
  | .arrived m :: tr => m :: arrivals tr
  | _ :: tr => arrivals tr

/-- the frames the chip had no place for -/
def losses : List (Ev α) → List α
  | [] => []
  | .lost m :: tr => m :: losses tr
  | _ :: tr => losses tr

/-- the messages returned by `getMessage` -/
def gots : List (Ev α) → List α
  | [] => []
  | .got (some m) :: tr => m :: gots tr
  | _ :: tr => gots tr

/-- the frames in the buffers -/
def held (s : State α) : List α := s.b0.toList ++ s.b1.toList

/-- No frame arrives while the second buffer is full, and all frames are for the first buffer. -/
def InTime (s : State α) : Act α → Prop
  | .arrive _ first _ => first = true ∧ s.b1 = none
  | _ => True
end

section
open Modm.Mcp2515.Tx

/-- the messages `sendMessage` returned `true` for -/
def taken : List (Ev α) → List α
  | [] => []
  | .sent m true :: tr => m :: taken tr
  | _ :: tr => taken tr

/-- the frames on the bus -/
def wires : List (Ev α) → List α
  | [] => []
  | .wire m :: tr => m :: wires tr
  | _ :: tr => wires tr

/-- the pending frames -/
def waiting (s : State α) : List α := [0, 1, 2].flatMap fun k => if s.pending k then (s.reg k).toList else []

/-- `sendMessage` is only called while nothing is pending. -/
def OneAtATime (s : State α) : Act α → Prop
  | .send _ => s.pending = fun _ => false
  | _ => True

/-- The choice of the chip among the pending buffers. -/
def Priority (s : State α) : Act α → Prop
  | .complete k => ∀ j, s.pending j = true → j ≤ k
  | _ => True
end

end Spec.Mcp2515
