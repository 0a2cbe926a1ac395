import Verif.Model.FdcanTx

set_option autoImplicit false

/-!
# What a user of the FDCAN driver expects when sending
-/

namespace Spec.FdcanTx

open Modm.FdcanTx

variable {α : Type}

/-- The messages for which `sendMessage` has returned `true`, in order. -/
def taken : List (Ev α) → List α
  | [] => []
  | .sent m true :: tr => m :: taken tr
  | _ :: tr => taken tr

/-- The frame of a message: header and data are its own. -/
def frame (m : α) : α × α := (m, m)

/-- The frames which wait in the hardware. -/
def waiting (s : State α) : List (α × α) := [0, 1, 2].flatMap fun k => if s.pending k then [(s.hdr k, s.dat k)] else []

/-- `isReadyToSend` has returned `true`, and `sendMessage` has not returned since. -/
def announced : Bool → List (Ev α) → Bool
  | b, [] => b
  | _, .ready b :: tr => announced b tr
  | _, .sent _ _ :: tr => announced false tr
  | b, _ :: tr => announced b tr

/-- Nothing is running, nothing is pending, no interrupt is requested. -/
structure AtRest (txSize : Nat) (s : State α) : Prop where
  main : s.main = .idle
  isr : s.isr = .none
  pending : ∀ k, s.pending k = false
  tc : txSize ≠ 0 → s.tc = false

/-- `sendMessage` is only called while no message waits. -/
def OneAtATime (s : State α) : Act α → Prop
  | .call (.send _) => s.queue = [] ∧ ∀ k, s.pending k = false
  | _ => True

/-- What happens without the program: a transmission ends, the handler is entered for it, the handler goes on (with a free put index). -/
def Auto (txSize : Nat) (s : State α) : Act α → Prop
  | .complete k => s.pending k = true
  | .interrupt => txSize ≠ 0 ∧ s.ile = true ∧ s.isr = .none ∧ s.tc = true
  | .isr k => s.isr ≠ .none ∧ (s.isr = .header → s.pending k = false)
  | _ => False

/-- A run without the program. -/
inductive Runs (txSize : Nat) : State α → Nat → State α → Prop
  | refl (s : State α) : Runs txSize s 0 s
  | step {s s' s'' : State α} {e : List (Ev α)} {n : Nat} (a : Act α) : Auto txSize s a → step txSize s a = some (s', e) → Runs txSize s' n s'' →
      Runs txSize s (n + 1) s''

/-- The order of the hardware in queue mode: the lowest identifier first, and of several buffers with the same identifier the lowest buffer. -/
def Priority (id : α → Nat) (s : State α) : Act α → Prop
  | .complete k => ∀ j, s.pending j = true → id (s.hdr k) < id (s.hdr j) ∨ id (s.hdr k) = id (s.hdr j) ∧ k ≤ j
  | _ => True

end Spec.FdcanTx
