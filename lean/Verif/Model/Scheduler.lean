import Mathlib.Logic.Function.Basic
/-
Model of `modm::Scheduler` (/repo/src/modm/processing/scheduler/scheduler.hpp, scheduler.cpp, scheduler_impl.hpp).

A task item is named by a number, in the order of the `scheduleTask` calls. `taskList` is only ever prepended to
(scheduler.cpp:27-35), so it is the list of the names, newest first; `nextReady` and `readyList` are modelled as pointers. Loops take
a bound on the number of iterations; running out of it is `none` (the theorems quantify over the bound). A call of `schedule()`
(a tick) may be nested in the run of a task, because the task list is documented to be driven from an interrupt and the item runs
with interrupts enabled: `script` holds for every run, in the order in which the runs start, how many ticks happen during it (none
for runs beyond its end). The state field (RUNNING, READY, WAITING) of an item is written but never read and is left out.
-/
set_option autoImplicit false
namespace Modm.Scheduler

/-- scheduler.hpp:73-99 (`TaskListItem`): `period` and `time` are `uint16_t`, `prio` is `uint8_t` -/
structure Item where
  period : Nat
  time : Nat
  prio : Nat
  deriving DecidableEq

/-- what can be observed: the runs of the tasks -/
inductive Event where
  | start (i : Nat)
  | finish (i : Nat)
  deriving DecidableEq

/-- scheduler.hpp:101-104 -/
structure Sched where
  count : Nat
  item : Nat → Item
  nextReady : Nat → Option Nat
  readyList : Option Nat
  cur : Nat
  log : List Event
  script : List Nat

/-- scheduler.cpp:16-19 -/
def Sched.init (script : List Nat) : Sched := ⟨0, fun _ => ⟨0, 0, 0⟩, fun _ => none, none, 0, [], script⟩

/-- the items in the order of `taskList` -/
def Sched.tasks (s : Sched) : List Nat := (List.range s.count).reverse

/-- scheduler.cpp:22-36 and the constructor scheduler.hpp:75-82 -/
def scheduleTask (s : Sched) (period prio : Nat) : Sched :=
  { s with count := s.count + 1, item := Function.update s.item s.count ⟨period, period, prio⟩,
           nextReady := Function.update s.nextReady s.count none }

/-- scheduler_impl.hpp:65-66: link `i` behind `at` -/
def link (s : Sched) (i at' : Nat) : Sched :=
  { s with nextReady := Function.update (Function.update s.nextReady i (s.nextReady at')) at' (some i) }

/-- scheduler_impl.hpp:58-70: the search for the place of `i` behind `at` -/
def walk (s : Sched) (i : Nat) : Nat → Nat → Option Sched
  | 0, _ => none
  | fuel + 1, at' =>
    match s.nextReady at' with
    | none => some (link s i at')
    | some n => if (s.item n).prio < (s.item i).prio then some (link s i at') else walk s i fuel n

/-- scheduler_impl.hpp:54-55 -/
def linkFront (s : Sched) (i : Nat) : Sched :=
  { s with nextReady := Function.update s.nextReady i s.readyList, readyList := some i }

/-- scheduler_impl.hpp:50-71 -/
def insertReady (fuel : Nat) (s : Sched) (i : Nat) : Option Sched :=
  match s.readyList with
  | none => some (linkFront s i)
  | some r => if (s.item r).prio < (s.item i).prio then some (linkFront s i) else walk s i fuel r

/-- scheduler_impl.hpp:46: `item->time--` on a `uint16_t` -/
def lowered (it : Item) : Nat := (it.time + 65535) % 65536

/-- scheduler_impl.hpp:46-48 -/
def stepped (it : Item) : Item := { it with time := if lowered it = 0 then it.period else lowered it }

/-- scheduler_impl.hpp:46-48: the item after its time was counted down -/
def setItem (s : Sched) (i : Nat) : Sched := { s with item := Function.update s.item i (stepped (s.item i)) }

/-- scheduler_impl.hpp:46-73 -/
def update (fuel : Nat) (s : Sched) (i : Nat) : Option Sched :=
  if lowered (s.item i) = 0 then insertReady fuel (setItem s i) i else some (setItem s i)

/-- scheduler_impl.hpp:44-75 -/
def sweep (fuel : Nat) : List Nat → Sched → Option Sched
  | [], s => some s
  | i :: l, s => (update fuel s i).bind (sweep fuel l)

/-- scheduler_impl.hpp:81-83 -/
def begin' (s : Sched) (i : Nat) : Sched :=
  { s with readyList := s.nextReady i, cur := (s.item i).prio, log := s.log ++ [.start i], script := s.script.tail }

/-- scheduler_impl.hpp:91-92 -/
def end' (s : Sched) (i : Nat) : Sched := { s with cur := 0, log := s.log ++ [.finish i] }

/-- the remaining work of the processor: a tick, the second loop of a tick, the end of a run, in the order of execution -/
inductive Job where
  | tick
  | drain
  | finish (i : Nat)
  deriving DecidableEq

/-- scheduler_impl.hpp:36-94 (`scheduleInterupt`), as a machine with an explicit stack of the interrupted activations -/
def step (fuel : Nat) (s : Sched) : List Job → Option (Sched × List Job)
  | [] => some (s, [])
  | .tick :: js => if s.count = 0 then some (s, js) else (sweep fuel s.tasks s).map fun s' => (s', .drain :: js)
  | .drain :: js =>
    match s.readyList with
    | none => some (s, js)
    | some i =>
      if s.cur < (s.item i).prio then
        some (begin' s i, List.replicate (s.script.headD 0) .tick ++ .finish i :: .drain :: js)
      else some (s, js)
  | .finish i :: js => some (end' s i, js)

/-- run until the stack is empty -/
def exec (fuel : Nat) : Nat → Sched → List Job → Option Sched
  | _, s, [] => some s
  | 0, _, _ :: _ => none
  | n + 1, s, j :: js => (step fuel s (j :: js)).bind fun r => exec fuel n r.1 r.2

/-- one call of `schedule()` (scheduler.cpp:46-50) that is not nested in another -/
def tick (fuel n : Nat) (s : Sched) : Option Sched := exec fuel n s [.tick]

end Modm.Scheduler
