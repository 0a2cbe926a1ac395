/-
Model of `modm::GenericTimeout` (src/modm/processing/timer/timeout.hpp:46-134, timeout_impl.hpp:16-141) and
`modm::GenericPeriodicTimer` (periodic_timer.hpp:37-76).

`W` is the number of values of the unsigned `duration::rep` (2^16 for the Short timers, 2^32 otherwise).
Absolute time is a natural number of ticks; the code only sees it modulo `W`: the 32-bit clock wraps and
`time_point_cast<duration>` truncates (timeout_impl.hpp:136-141; W divides 2^32).
All subtractions of `std::chrono` values of type `duration` are modulo `W`.
-/
set_option autoImplicit false
namespace Modm.Timer

/-- InternalState bits (timeout.hpp:118-126). -/
def STOPPED : BitVec 8 := 1
def EXPIRED : BitVec 8 := 2
def ARMED : BitVec 8 := 4
def EXECUTED : BitVec 8 := 8
def STATUS_MASK : BitVec 8 := 7

/-- Members `_start`, `_interval`, `_state` (timeout.hpp:128-130). -/
structure T where
  start : Nat
  interval : Nat
  state : BitVec 8
deriving Repr, DecidableEq

/-- Default constructor (timeout.hpp:67, 128-130): a stopped timeout. -/
def init : T := { start := 0, interval := 0, state := STOPPED }

/-- `now()` at absolute time `t` (timeout_impl.hpp:136-141). -/
def now (W t : Nat) : Nat := t % W

/-- modular difference of two values of the unsigned rep -/
def sub (W a b : Nat) : Nat := (a + W - b) % W

/-- `restart(interval)` for a non-negative interval that is already in ticks of the timer and fits
(timeout_impl.hpp:33-43), executed at absolute time `t`. The conversion is `restartFrom` below. -/
def restart (W t i : Nat) (_ : T) : T := { start := now W t, interval := i, state := ARMED }

/-- `restart()` (timeout_impl.hpp:24-28). -/
def restartSame (W t : Nat) (x : T) : T := restart W t x.interval x

/-- `stop()` (timeout_impl.hpp:54-58). -/
def stop (x : T) : T := { x with state := STOPPED, interval := 0 }

/-- `checkExpiration()` (timeout_impl.hpp:132-135). -/
def checkExpiration (W t : Nat) (x : T) : Bool :=
  (x.state &&& ARMED) != 0 && decide (sub W (now W t) x.start ≥ x.interval)

/-- `execute()` (timeout_impl.hpp:63-76). -/
def execute (W t : Nat) (x : T) : T × Bool :=
  if (x.state &&& (EXECUTED ||| STOPPED)) != 0 then (x, false)
  else if x.state == EXPIRED || checkExpiration W t x then ({ x with state := EXPIRED ||| EXECUTED }, true)
  else (x, false)

/-- `state()` (timeout_impl.hpp:99-104); it writes the mutable `_state`. The result is the masked byte, a
`TimerState` (Stopped = 1, Expired = 2, Armed = 4). -/
def state (W t : Nat) (x : T) : T × BitVec 8 :=
  let x := if checkExpiration W t x then { x with state := (x.state &&& ~~~ARMED) ||| EXPIRED } else x
  (x, x.state &&& STATUS_MASK)

/-- `isStopped()` (timeout_impl.hpp:108-113). -/
def isStopped (x : T) : Bool := x.state == STOPPED
/-- `isArmed()` (timeout_impl.hpp:117-120). -/
def isArmed (W t : Nat) (x : T) : T × Bool := let (x, s) := state W t x; (x, s == ARMED)
/-- `isExpired()` (timeout_impl.hpp:124-127). -/
def isExpired (W t : Nat) (x : T) : T × Bool := let (x, s) := state W t x; (x, s == EXPIRED)

/-- `remaining()` (timeout_impl.hpp:80-87): the three values are converted to a wider signed type first, so
the arithmetic is exact on the counter values. -/
def remaining (W t : Nat) (x : T) : Int :=
  if x.state == STOPPED then 0 else (x.interval : Int) + x.start - now W t

/-- Calls made at an absolute time. -/
inductive Op where
  | restart (i : Nat) | restartSame | stop | execute | isStopped | isArmed | isExpired
deriving Repr, DecidableEq

/-- One call; queries and `execute` return a boolean, the others return `none`. -/
def step (W t : Nat) (x : T) : Op → T × Option Bool
  | .restart i => (restart W t i x, none)
  | .restartSame => (restartSame W t x, none)
  | .stop => (stop x, none)
  | .execute => let (x, b) := execute W t x; (x, some b)
  | .isStopped => (x, some (isStopped x))
  | .isArmed => let (x, b) := isArmed W t x; (x, some b)
  | .isExpired => let (x, b) := isExpired W t x; (x, some b)

/-- A history of calls with their absolute times. -/
def run (W : Nat) (x : T) : List (Nat × Op) → T × List (Option Bool)
  | [] => (x, [])
  | (t, o) :: os =>
    let (x, r) := step W t x o
    let (x, rs) := run W x os
    (x, r :: rs)

/-- `GenericTimeout::restart(std::chrono::duration<Rep, Period>)` (timeout_impl.hpp:33-50) with requested
`count` in units of `num/den` timer ticks. Result: new timer and whether an assertion was reported
(lines 38-39 and 46-48). `duration_cast` computes `count * num / den` in the 64-bit common type (assumed
large enough) and converts to the timer's rep. The assertion looks at the *unconverted* count. -/
def restartFrom (W t : Nat) (count : Int) (num den : Nat) (x : T) : T × Bool :=
  if 0 ≤ count then
    let cast := (count.toNat * num / den) % W
    let assertOk := decide (count ≤ (W - 1 : Nat))
    ({ start := now W t, interval := cast, state := ARMED }, !assertOk)
  else (stop x, true)

/-! ### Periodic timer -/

/-- The loop of `GenericPeriodicTimer::execute` (periodic_timer.hpp:56-62) with the clock value `n` read
once at line 55; `none` when `fuel` iterations are not enough. -/
def catchUp (W n i : Nat) : Nat → Nat → Nat → Option (Nat × Nat)
  | 0, _, _ => none
  | fuel + 1, start, count =>
    let start := (start + i) % W
    let diff := sub W n start
    let count := if diff != i then count + 1 else count
    if diff < i then some (start, count) else catchUp W n i fuel start count

/-- `GenericPeriodicTimer::execute` (periodic_timer.hpp:47-75). The clock is read at absolute time `t1` for the
expiry check and again at `t2` (lines 55, 65). `none`: the loop did not finish within `fuel` iterations. -/
def pexecute (W t1 t2 fuel : Nat) (x : T) : Option (T × Nat) :=
  match execute W t1 x with
  | (x, false) => some (x, 0)
  | (x, true) =>
    if x.interval != 0 then do
      let (s, c) ← catchUp W (now W t2) x.interval fuel x.start 0
      some ({ x with start := s, state := ARMED }, c)
    else some ({ x with start := now W t2, state := ARMED }, 1)

/-- polls of a periodic timer: pairs (t1, t2) of the two clock reads -/
def prun (W fuel : Nat) (x : T) : List (Nat × Nat) → Option (T × List Nat)
  | [] => some (x, [])
  | (t1, t2) :: ps => do
    let (x, c) ← pexecute W t1 t2 fuel x
    let (x, cs) ← prun W fuel x ps
    some (x, c :: cs)

end Modm.Timer
