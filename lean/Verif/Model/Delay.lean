import Mathlib.Algebra.Order.Floor.Ring
import Mathlib.Data.Rat.Floor
import Mathlib.Data.Nat.Log
import Mathlib.Data.Nat.Size

set_option autoImplicit false

/-!
# Busy-waiting delays

`src/modm/platform/core/cortex/delay_impl.hpp.in`, `delay.cpp.in`, `delay_ns.cpp.in`, `delay_ns.hpp.in` with the values the modules of `stm32`, `sam` and `rp` put in;
`src/modm/platform/core/avr/delay_impl.hpp.in` with `avr/module.lb`; and the overloads of `modm::delay` in `src/modm/architecture/interface/delay.hpp`.

Floats are rationals and every operation is rounded by a parameter `rnd`. Conversions of a number out of range are `none` (undefined behaviour). How many cycles the instructions take is not in
the source; it is a parameter.
-/

namespace Modm.Delay

/-- `us_shift` (stm32/module.lb:79, sam/module.lb:45, rp/module.lb:57); `fmax` is the highest frequency of the device -/
def usShift (fmax : Nat) : Nat := 32 - Nat.clog 2 fmax

/-- `std::round` of a number that is not negative -/
def roundF (q : ℚ) : Nat := ⌊q + 1 / 2⌋.toNat

/-- conversion to `uint16_t` -/
def toU16 (n : Nat) : Option Nat := if n < 2 ^ 16 then some n else none

/-- `computeDelayMhz` (delay_impl.hpp.in:36-37) -/
def computeMhz (rnd : ℚ → ℚ) (s hz : Nat) : Option Nat := toU16 (roundF (rnd (rnd (rnd hz / 1000000) * 2 ^ s)))

/-- `cycles` in `delay_us` of a release build (delay.cpp.in:29-33, delay_ns.cpp.in:56-60); `m` is `delay_fcpu_MHz` -/
def usCycles (m s us : Nat) : Nat := (m * us) % 2 ^ 32 / 2 ^ s

/-- the loop of `delay_us` with the cycle counter (delay.cpp.in:16, 34-38): the index of the reading with which it ends -/
def poll (start : BitVec 32) (cycles : Nat) : List (BitVec 32) → Option Nat
  | [] => none
  | now :: rest => if cycles ≤ (now - start).toNat then some 0 else (poll start cycles rest).map (· + 1)

/-- `delay_ms` (delay_impl.hpp.in:51-62): the calls of `delay_us` -/
def msCalls (ms : Nat) : List Nat :=
  if h : ms ≤ 1000 then [ms * 1000] else 1000000 :: msCalls (ms - 1000)
termination_by ms

/-- `subs` and `bpl` in a loop (delay_ns.cpp.in:30-39, 61-66): with `x` in the register and `p` to subtract, the loop is passed `k` times -/
inductive Loops (p : BitVec 32) : BitVec 32 → Nat → Prop
  | last {x : BitVec 32} : (x - p).msb = true → Loops p x 1
  | again {x : BitVec 32} {k : Nat} : (x - p).msb = false → Loops p (x - p) k → Loops p x (k + 1)

/-- `computeDelayNsPerLoop` (delay_ns.hpp.in:21-25); `loop` is the cycles of a pass (stm32/module.lb:58-75) -/
def computeNsPerLoop (rnd : ℚ → ℚ) (loop hz : Nat) : Option Nat := toU16 (roundF (rnd (loop * 1000000000 / hz)))

/-- what is in the register when `delay_ns` comes to the loop (delay_ns.cpp.in:26-29); the overhead is `2 ^ sh` passes -/
def nsRegister (p sh ns : Nat) : BitVec 32 := BitVec.ofNat 32 ns - (BitVec.ofNat 32 p <<< sh)

/-- `delay_ns` passes the loop `k` times -/
def nsLoops (p sh ns k : Nat) : Prop := Loops (BitVec.ofNat 32 p) (nsRegister p sh ns) k

/-- `delay_us` of the Cortex-M0 passes the loop `k` times (delay_ns.cpp.in:45-67) -/
def usLoops (loop m s us k : Nat) : Prop := Loops (BitVec.ofNat 32 loop) (BitVec.ofNat 32 (usCycles m s us)) k

/-- AVR: `shift` (avr/module.lb:45) -/
def avrShift (f : Nat) : Nat := Nat.size (4000000000 / f)

/-- AVR, `delay_ns` of a number that is not constant (avr/delay_impl.hpp.in:31-32): the loops of four cycles -/
def avrNsLoops (f ns : Nat) : Nat := ns / 2 ^ avrShift f % 2 ^ 16

/-- AVR, all three of a constant (avr/delay_impl.hpp.in:28-29, 40-41, 59-60); `d` is the number of units in a second -/
def avrConst (rnd : ℚ → ℚ) (f n d : Nat) : Option Nat :=
  let c := ⌈rnd (rnd (rnd f * rnd n) / d)⌉.toNat
  if c < 2 ^ 32 then some c else none

/-- AVR, the loop of `delay_us` up to 6 MHz (avr/delay_impl.hpp.in:44-46): passed `k` times -/
inductive AvrLoops (c : Int) : Int → Nat → Prop
  | done {x : Int} : x ≤ 0 → AvrLoops c x 0
  | again {x : Int} {k : Nat} : 0 < x → AvrLoops c (x - c) k → AvrLoops c x (k + 1)

/-- AVR, `delay_us` up to 6 MHz of a number that is not constant -/
def avrUsSlow (f us k : Nat) : Prop := AvrLoops ((f / 1000000 : Nat) : Int) (BitVec.ofNat 32 us).toInt k

/-- AVR, `delay_us` above 6 MHz of a number that is not constant (avr/delay_impl.hpp.in:48-50): the cycles, `over` for the loop itself -/
def avrUsFast (f over us : Nat) : Nat := us * (f / 1000000 - 6 + over)

/-- AVR, `delay_ms` of a number that is not constant (avr/delay_impl.hpp.in:62), from 10 kHz -/
def avrMs (f over ms : Nat) : Nat := ms * (f / 1000 - 10 + over)

/-- which function `modm::delay` calls -/
inductive Call
  | ns (n : Nat)
  | us (n : Nat)
  | ms (n : Nat)
  deriving DecidableEq

/-- `count()` of 64 bit for a parameter `uint32_t` -/
def toU32 (n : Int) : Nat := (n % 2 ^ 32).toNat

/-- `modm::delay` (interface/delay.hpp:70-97) of `count` units of `num / den` seconds in lowest terms -/
def delay (count : Int) (num den : Nat) : Call :=
  if num = 1 ∧ den = 1000000000 then .ns (toU32 count)
  else if num = 1 ∧ den = 1000000 then .us (toU32 count)
  else if num = 1 ∧ den = 1000 then .ms (toU32 count)
  else .ms (toU32 ((count * num * 1000).tdiv den))

end Modm.Delay
