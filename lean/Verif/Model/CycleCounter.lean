/-!
The cycle counter for measuring short times.

Models `/repo/src/modm/driver/time/cycle_counter.hpp.in`.  Time is a number of cycles of the counter
since any origin; `start()` samples the counter at `t0`, `stop()` at `t1`.
-/

set_option autoImplicit false

namespace Model.CycleCounter

/-- Unsigned subtraction with `w` bits. -/
def sub (w a b : Nat) : Nat := (a + 2 ^ w - b % 2 ^ w) % 2 ^ w

/-- cycle_counter.hpp.in:58,62: `TCNT1` (16 bits) and `DWT->CYCCNT` (32 bits) count up. -/
def counter (w t : Nat) : Nat := t % 2 ^ w

/-- cycle_counter.hpp.in:94: `cycles()` of the AVR (`w = 16`) and of the DWT (`w = 32`). -/
def cycles (w overhead t0 t1 : Nat) : Nat := sub w (sub w (counter w t1) (counter w t0)) overhead

/-- `SysTick->VAL`: counts down from `load` to 0 and starts again, a period is `load + 1` cycles. -/
def sysTick (load t : Nat) : Nat := load - t % (load + 1)

/-- The two members of the class. -/
structure Samples where
  start_ : Nat
  stop_ : Nat
  deriving DecidableEq

/-- cycle_counter.hpp.in:60,73: `start()` at `t0` and `stop()` at `t1` of the Cortex-M0. -/
def sample (load t0 t1 : Nat) : Samples := { start_ := sysTick load t1, stop_ := sysTick load t0 }

/-- cycle_counter.hpp.in:84-87: the underflow. -/
def underflow (load : Nat) (s : Samples) : Samples :=
  if s.stop_ < s.start_ then { s with stop_ := s.stop_ + load } else s

/-- cycle_counter.hpp.in:81-96: `cycles()` of the Cortex-M0 with the changed members; `div` is 1 or the
divider of the reference clock. -/
def cyclesM0 (load div overhead : Nat) (s : Samples) : Nat × Samples :=
  let s := underflow load s
  (sub 32 ((sub 32 s.stop_ s.start_ * div) % 2 ^ 32) overhead, s)

/-- cycle_counter.hpp.in:45: `-1ul` in the register of 24 bits. -/
def loadInit : Nat := (2 ^ 32 - 1) % 2 ^ 24

/-- cycle_counter.hpp.in:98-117: `milliseconds()`, `microseconds()` and `nanoseconds()` with `unit` as
1000, 1000000 and 1000000000: the product has 64 bits, the result 32. -/
def inUnit (unit clock cycles : Nat) : Nat := (cycles * unit % 2 ^ 64) / clock % 2 ^ 32

end Model.CycleCounter
