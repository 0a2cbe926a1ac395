import Mathlib.Logic.Function.Basic
/-
Model of the fiber scheduler (/repo/src/modm/processing/fiber/scheduler.hpp.in and task.hpp) of one core.

A task is named by a number (its address); `next` and `scheduler` are its fields. A context switch changes which fiber runs, so its
effect is the new value of `current`; the stacks and the assembler code of `modm_context_jump` are not modelled. `switches` records
the fibers to which control was passed. Using a null pointer is `none`.
-/
set_option autoImplicit false
namespace Modm.Fiber

/-- scheduler.hpp.in:41-42 and task.hpp:57-58 -/
structure State where
  last : Option Nat
  current : Option Nat
  next : Nat → Option Nat
  scheduled : Nat → Bool
  switches : List Nat

/-- the initial state; the pointers `next` of the tasks are not initialised (task.hpp:57) -/
def State.init (next : Nat → Option Nat) : State := ⟨none, none, next, fun _ => false, []⟩

/-- scheduler.hpp.in:52-57 (`runLast`): `z` is `last` -/
def runLast (s : State) (t z : Nat) : State :=
  { s with next := Function.update (Function.update s.next t (s.next z)) z (some t), last := some t }

/-- scheduler.hpp.in:113-114 -/
def addFirst (s : State) (t : Nat) : State := { s with next := Function.update s.next t (some t), last := some t }

/-- scheduler.hpp.in:110 -/
def attach (s : State) (t : Nat) : State := { s with scheduled := Function.update s.scheduled t true }

/-- scheduler.hpp.in:108-118 (`add`) -/
def add (s : State) (t : Nat) : State :=
  match s.last with
  | none => addFirst (attach s t) t
  | some z => runLast (attach s t) t z

/-- task.hpp:150-157 (`Task::start`), for the current core's scheduler -/
def startTask (s : State) (t : Nat) : Bool × State := if s.scheduled t then (false, s) else (true, add s t)

/-- scheduler.hpp.in:75-81 (`jump`) -/
def jump (s : State) (t : Nat) : State := { s with current := some t, switches := s.switches ++ [t] }

/-- scheduler.hpp.in:89 -/
def setLast (s : State) (c : Nat) : State := { s with last := some c }

/-- scheduler.hpp.in:83-91 (`yield`) -/
def yield (s : State) : Option State :=
  match s.current with
  | none => some s
  | some c => (s.next c).map fun n => if n = c then s else jump (setLast s c) n

/-- scheduler.hpp.in:64-65 -/
def detach (s : State) (c : Nat) : State :=
  { s with next := Function.update s.next c none, scheduled := Function.update s.scheduled c false }

/-- scheduler.hpp.in:62 -/
def dropLast (s : State) : State := { s with last := none }

/-- scheduler.hpp.in:63: `z` is `last` -/
def bypass (s : State) (c z : Nat) : State := { s with next := Function.update s.next z (s.next c) }

/-- scheduler.hpp.in:59-67 (`removeCurrent`) -/
def removeCurrent (s : State) (c : Nat) : Option State :=
  if s.last = some c then some (detach (dropLast s) c)
  else s.last.map fun z => detach (bypass s c z) c

/-- scheduler.hpp.in:98-103 -/
def leave (n : Option Nat) (s : State) : Option State :=
  match s.last with
  | none => some { s with current := none }
  | some _ => n.map (jump s)

/-- scheduler.hpp.in:93-105 (`unschedule`), called when the function of the running fiber returns (task.hpp:122, 142); reaching
`modm_context_end` continues the main program, which is no fiber -/
def unschedule (s : State) : Option State := s.current.bind fun c => (removeCurrent s c).bind (leave (s.next c))

/-- scheduler.hpp.in:120-127 (`start`), called by the main program -/
def start (s : State) : Option (Bool × State) :=
  match s.last with
  | none => some (false, s)
  | some z => (s.next z).map fun n => (true, jump s n)

end Modm.Fiber
