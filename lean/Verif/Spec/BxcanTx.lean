import Verif.Model.BxcanTx

set_option autoImplicit false

/-!
# What a user of a CAN driver expects when sending

The caller sees calls and their results.  A frame is as expected if header and data come from the same message.
-/

namespace Spec.BxcanTx

open Modm.BxcanTx

variable {α : Type}

/-- The messages for which `sendMessage` has returned `true`, in order. -/
def taken : List (Ev α) → List α
  | [] => []
  | .sent m true :: tr => m :: taken tr
  | _ :: tr => taken tr

/-- The messages which have been passed to `sendMessage`. -/
def offered : List (Ev α) → List α
  | [] => []
  | .called (.send m) :: tr => m :: offered tr
  | _ :: tr => offered tr

/-- The frame of a message. -/
def frame (m : α) : α × α := (m, m)

/-- `isReadyToSend` has returned `true`, and `sendMessage` has not returned since. -/
def announced : Bool → List (Ev α) → Bool
  | b, [] => b
  | _, .ready b :: tr => announced b tr
  | _, .sent _ _ :: tr => announced false tr
  | b, _ :: tr => announced b tr

/-- `CODE` is the number of a free mailbox if there is one. -/
def CodeOk (cfg : Config) : Prop := ∀ l, cfg.code l < 3 ∧ ((∃ k, k < 3 ∧ k ∉ l) → cfg.code l ∉ l)

/-- The size and the memory of the queue. -/
structure Fits (cfg : Config) (mem : List α) : Prop where
  size : cfg.txSize ≤ 65535
  mem : mem.length = cfg.txSize + 1

/-- No transmission ends during a call, and there is no call while the interrupt is pending. -/
def Calm (s : State α) : Act α → Prop
  | .call _ => s.hw.pend = false
  | .complete => s.main = .idle
  | _ => True

/-- What happens without the program. -/
def Auto : Act α → Prop
  | .interrupt => True
  | .isr => True
  | .complete => True
  | _ => False

end Spec.BxcanTx
