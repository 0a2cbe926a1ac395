import Mathlib.Logic.Function.Basic
/-
What a priority scheduler for periodic tasks promises, independent of how it is programmed.
-/
set_option autoImplicit false
namespace Spec.Tasks

/-- a task: period, priority and the number of ticks before it was added -/
structure Task where
  period : Nat
  prio : Nat
  born : Nat

/-- is the task due on tick number `now` (the first tick is number 1)? -/
def Task.due (t : Task) (now : Nat) : Prop := t.born < now ∧ t.period ∣ now - t.born

/-- `runs` is the right sequence of runs for tick `now`, given the tasks in the order in which they were added: exactly the due tasks,
each once, higher priorities first, among equal priorities the youngest task first -/
structure Right (tasks : List Task) (now : Nat) (runs : List Nat) : Prop where
  due : ∀ i, i ∈ runs ↔ ∃ t, tasks[i]? = some t ∧ t.due now
  order : runs.Pairwise fun i j => ∀ t u, tasks[i]? = some t → tasks[j]? = some u → u.prio < t.prio ∨ (t.prio = u.prio ∧ j < i)
  once : runs.Nodup

end Spec.Tasks
