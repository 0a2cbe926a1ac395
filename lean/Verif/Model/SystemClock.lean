import Verif.Model.Prescaler

set_option autoImplicit false

/-!
# The clocks `modm::Clock` and `modm::PreciseClock` on Cortex-M and AVR

Model of `milli_clock::now` and `micro_clock::now` with the interrupt that counts the periods of a timer: `src/modm/platform/clock/systick/systick_timer.cpp.in`,
`systick_timer.hpp.in` (SysTick of Cortex-M) and `src/modm/platform/clock/avr/clock.cpp.in`, `avr/module.lb` (timer 0 of AVR).

The caller, the interrupt and the timer run interleaved.  Every access to `interrupt`, to the counter of the timer and to the variable with the time is one step; on AVR the latter is
read byte by byte.  The SysTick counts down and its interrupt becomes pending one clock before it is reloaded; since entering the handler takes at least twelve cycles of the
processor, and the SysTick counts at least every eighth of them, the handler comes after the reload, which is therefore the moment the interrupt becomes pending here.
-/

namespace Modm.SystemClock

/-- The variants. -/
structure Config where
  /-- clocks of the timer from one interrupt to the next -/
  period : Nat
  /-- what the handler adds -/
  step : Nat
  /-- what `now` adds for the clocks since the last interrupt -/
  interp : Nat → Nat
  /-- the variable is read in `parts` accesses of `width` bits -/
  width : Nat
  parts : Nat

/-- The place in `now`; lines of systick_timer.cpp.in and avr/clock.cpp.in. -/
inductive Main where
  | idle
  | clear                             -- lines 119, 97
  | val                               -- lines 120, 98
  | time (v : Nat) (acc : List Nat)   -- lines 121, 99; the counter and the parts read
  | check (v : Nat) (acc : List Nat)  -- lines 123, 101
  deriving DecidableEq

structure State where
  /-- clocks since the timer started again (for the SysTick `LOAD - VAL`, for AVR `TCNT0`) -/
  cnt : Nat
  /-- how often the timer has started again -/
  periods : Nat
  /-- how often the handler has run; `micro_time` is `step` times this -/
  handled : Nat
  /-- the interrupt is pending -/
  pend : Bool
  /-- steps of the caller while the interrupt was pending -/
  late : Nat
  /-- `interrupt` -/
  flag : Bool
  main : Main
  deriving DecidableEq

/-- What happens, with the time in clocks of the timer. -/
inductive Ev where
  | called (t : Nat)
  | returned (r t : Nat)
  /-- a call from an interrupt or another thread has returned -/
  | other (r t : Nat)
  deriving DecidableEq

inductive Act where
  | tick
  | handler
  | call
  | main
  | other
  deriving DecidableEq

/-- the time in clocks of the timer -/
def now (cfg : Config) (s : State) : Nat := s.periods * cfg.period + s.cnt

/-- the variable with the time -/
def variable_ (cfg : Config) (s : State) : Nat := cfg.step * s.handled % 2 ^ 32

/-- part `i` of a value -/
def part (cfg : Config) (v i : Nat) : Nat := v / 2 ^ (cfg.width * i) % 2 ^ cfg.width

/-- the value of parts, the lowest first -/
def assemble (cfg : Config) : List Nat → Nat
  | [] => 0
  | p :: ps => p + 2 ^ cfg.width * assemble cfg ps

/-- the result (lines 125-136, 103-105) -/
def result (cfg : Config) (time v : Nat) : Nat := (time + cfg.interp v) % 2 ^ 32

/-- One step of `now` (systick_timer.cpp.in:109-137, avr/clock.cpp.in:88-106). -/
def mainStep (cfg : Config) (s : State) : State × List Ev :=
  match s.main with
  | .idle => (s, [])
  | .clear => ({ s with flag := false, main := .val }, [])
  | .val => ({ s with main := .time s.cnt [] }, [])
  | .time v acc =>
    let acc' := acc ++ [part cfg (variable_ cfg s) acc.length]
    ({ s with main := if acc'.length < cfg.parts then .time v acc' else .check v acc' }, [])
  | .check v acc =>
    if s.flag then ({ s with main := .clear }, [])
    else ({ s with main := .idle }, [.returned (result cfg (assemble cfg acc) v) (now cfg s)])

/-- One step.  A choice that does not apply leaves the state as it is. -/
def step (cfg : Config) (s : State) : Act → State × List Ev
  | .tick =>
    if s.cnt + 1 < cfg.period then ({ s with cnt := s.cnt + 1 }, [])
    else ({ s with cnt := 0, periods := s.periods + 1, pend := true, late := 0 }, [])
  /- `SysTick_Handler` (systick_timer.cpp.in:29-46), `TIMER0_COMPA` (avr/clock.cpp.in:67-72) -/
  | .handler =>
    if s.pend then ({ s with handled := s.handled + 1, flag := true, pend := false }, []) else (s, [])
  | .call => match s.main with
    | .idle => ({ s with main := .clear }, [.called (now cfg s)])
    | _ => (s, [])
  | .main =>
    let (s', e) := mainStep cfg s
    ({ s' with late := if s.pend then s.late + 1 else s.late }, e)
  /- a whole call of `now` from an interrupt, which the handler cannot interrupt, at one moment -/
  | .other => ({ s with flag := false }, [.other (result cfg (variable_ cfg s) s.cnt) (now cfg s)])

def run (cfg : Config) (s : State) : List Act → State × List Ev
  | [] => (s, [])
  | a :: as =>
    let r := step cfg s a
    let r' := run cfg r.1 as
    (r'.1, r.2 ++ r'.2)

/-- The timer has just been started. -/
def init : State := ⟨0, 0, 0, false, 0, false, .idle⟩

/-- The states reachable by choices `ok`, with what has happened. -/
inductive Reach (cfg : Config) (ok : State → Act → Prop) : State → List Ev → Prop
  | start : Reach cfg ok init []
  | step {s : State} {tr : List Ev} (a : Act) : Reach cfg ok s tr → ok s a → Reach cfg ok (step cfg s a).1 (tr ++ (step cfg s a).2)

/-! ### The SysTick -/

/-- What `initialize` sets up (systick_timer.hpp.in:33-67). -/
structure Setup where
  /-- divider of the processor clock -/
  div : Nat
  /-- `result.prescaler`; the reload value `result.index` is one less -/
  period : Nat
  /-- `us_per_Ncycles` -/
  us : Nat
  /-- `ms_per_Ncycles` -/
  ms : Nat
  deriving DecidableEq

/-- `Ncycles` (systick_timer.hpp.in:86-104) -/
def ncycles (freq : Nat) : Nat := if freq = 1000 then 20 else 32

/-- `SysTickTimer::initialize` (systick_timer.hpp.in:33-67) with the default tolerance of zero; `freq` is `systick_frequency`, `ref` is `ref_clk`.  `none`: does not compile.  The tolerance
is checked for the frequencies as integers. -/
def setup (rnd : ℚ → ℚ) (f freq ref : Nat) : Option Setup :=
  if ¬ f < 2 ^ 24 * ref * freq then none
  else
    let div := if ref = 1 ∨ f < ref * 1000000 then 1 else ref
    match Prescaler.fromLinear rnd (f / div) freq 1 (2 ^ 24 - 1) with
    | none => none
    | some r =>
      if f / div / r.prescaler = freq then
        some ⟨div, r.index + 1, 2 ^ ncycles freq * (div * 1000000) / f % 2 ^ 32, 2 ^ ncycles freq * (div * 1000) / f % 2 ^ 32⟩
      else none

/-- what `micro_clock::now` adds (systick_timer.cpp.in:124-136) -/
def interpUs (freq us diff : Nat) : Nat :=
  if freq = 1000 then (diff * us % 2 ^ 32) / 2 ^ 20 else diff * us / 2 ^ 32 % 2 ^ 32

/-- what `milli_clock::now` adds for other frequencies than 1000 Hz (systick_timer.cpp.in:99-103) -/
def interpMs (ms diff : Nat) : Nat := diff * ms / 2 ^ 32 % 2 ^ 32

/-- `micro_clock` (systick_timer.cpp.in:22, 36-37, 109-137) -/
def sysTickMicro (freq : Nat) (c : Setup) : Config := ⟨c.period, 1000 / freq * 1000, interpUs freq c.us, 32, 1⟩

/-- `milli_clock` for other frequencies than 1000 Hz (systick_timer.cpp.in:82-105) -/
def sysTickMilli (freq : Nat) (c : Setup) : Config := ⟨c.period, 1000 / freq, interpMs c.ms, 32, 1⟩

/-! ### AVR -/

/-- the divider (avr/module.lb:53-60) -/
def avrDiv (f : Nat) : Nat := if f ≤ 250000 then 1 else if f ≤ 2000000 then 8 else if f ≤ 16000000 then 64 else 256

/-- `overflow` (avr/module.lb:61), the value of `OCR0A` -/
def avrOverflow (f : Nat) : Nat := f / (avrDiv f * 1000)

/-- `scaler` (avr/module.lb:63) -/
def avrScaler (f : Nat) : Nat := avrDiv f * 1000000 * 2 ^ 6 / f

/-- what `micro_clock::now` adds (avr/clock.cpp.in:103) -/
def avrInterp (f v : Nat) : Nat := v * (avrScaler f % 2 ^ 16) % 2 ^ 16 / 2 ^ 6

/-- `micro_clock`: the timer counts from 0 to `OCR0A`. -/
def avrMicro (f : Nat) : Config := ⟨avrOverflow f + 1, 1000, avrInterp f, 8, 4⟩

/-- `milli_clock` (avr/clock.cpp.in:75-86); it does not use the counter, so that reading it is a step without effect -/
def avrMilli (f : Nat) : Config := ⟨avrOverflow f + 1, 1, fun _ => 0, 8, 4⟩

end Modm.SystemClock
