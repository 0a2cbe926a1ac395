/-!
The semaphore of threads.

Models `/repo/src/modm/processing/rtos/stdlib/semaphore.cpp` with a condition variable as of the C++
standard: a waiting thread may resume at any time (also without a notification), holds the mutex when it
does, and `wait_for()` reports a timeout exactly if the deadline has been reached then.  Each step below
is one section under the mutex, in any order.
-/

set_option autoImplicit false

namespace Model.ThreadSemaphore

/-- A thread inside of `wait_for()`: since when it is in `acquire()`, its `timeout` argument, the deadline
of the present wait and whether it has been notified. -/
structure Waiter where
  since : Nat
  timeout : Nat
  deadline : Nat
  notified : Bool
  deriving DecidableEq

/-- semaphore.hpp:98-109: the members, the waiting threads and the time in milliseconds. -/
structure St where
  count : Nat
  max : Nat
  now : Nat
  waiters : List Waiter
  deriving DecidableEq

/-- What can happen: a call of `acquire()`, a call of `release()` (if a thread is notified, which one is up
to the system), a waiting thread resumes, a millisecond passes. -/
inductive Ev
  | acquire (timeout : Nat)
  | release (k : Nat)
  | resume (i : Nat)
  | tick

/-- semaphore.hpp:70: `timeout = -1` as `uint32_t`. -/
def defaultTimeout : Nat := 2 ^ 32 - 1

/-- semaphore.cpp:27-29: the loop of `acquire()` until it returns or waits; `since` is the time of the
call. -/
def tryTake (s : St) (since timeout : Nat) : St × Option Bool :=
  if s.count = 0 then ({ s with waiters := s.waiters ++ [⟨since, timeout, s.now + timeout, false⟩] }, none)
  else ({ s with count := s.count - 1 }, some true)

/-- The condition variable: `notify_one()` wakes one of the threads that wait and are not yet notified, if
there are any; `none` if the choice `k` is not one of them. -/
def notifyOne (ws : List Waiter) (k : Nat) : Option (List Waiter) :=
  if ws.any (!·.notified) then
    match ws[k]? with
    | some w => if w.notified then none else some (ws.set k { w with notified := true })
    | none => none
  else some ws

/-- semaphore.cpp:23-52: one step with the value that a call of `acquire()` returns. -/
def step (s : St) : Ev → Option (St × Option Bool)
  | .acquire timeout => some (tryTake s s.now timeout)
  | .release k =>
    if s.count < s.max then
      (notifyOne s.waiters k).map fun ws => ({ s with count := s.count + 1, waiters := ws }, none)
    else some (s, none)
  | .resume i =>
    match s.waiters[i]? with
    | none => none
    | some w =>
      let s := { s with waiters := s.waiters.eraseIdx i }
      if w.deadline ≤ s.now then some (s, some false) else some (tryTake s w.since w.timeout)
  | .tick => some ({ s with now := s.now + 1 }, none)

/-- An execution with what was returned after each step. -/
def run (s : St) : List Ev → Option (St × List (Option Bool))
  | [] => some (s, [])
  | e :: es => do
    let (s, o) ← step s e
    let (s, os) ← run s es
    pure (s, o :: os)

/-- semaphore.cpp:17-20. -/
def init (max initial : Nat) : St := ⟨initial, max, 0, []⟩

end Model.ThreadSemaphore
