import Verif.Model.Saturated
/-
Models of the filters in src/modm/math/filter: moving average, FIR, debounce, ramp and PID. Integer types are
described by `Modm.Saturated.Ty` (signedness and width); `int` has 32 bits. `none` is undefined behaviour.
-/
set_option autoImplicit false
namespace Modm.Filter
open Modm.Saturated (Ty)

/-- Store the exact result of an arithmetic expression on operands of type `t` into an object of type `t`.
Types narrower than `int` are computed in `int` and converted (modulo); unsigned types are modular; signed types of
32 bits and more overflow with undefined behaviour. -/
def store (t : Ty) (v : Int) : Option Int :=
  if t.signed = true ∧ 32 ≤ t.bits ∧ ¬ t.fits v then none else some (t.wrap v)

/-! ### Moving average (moving_average.hpp:63-108), integer `T` -/

structure Avg where
  index : Nat
  buffer : List Int
  sum : Int
deriving Repr, DecidableEq

/-- constructor / `reset` (moving_average.hpp:67-78): `sum = N * input` is computed in `size_t` and converted -/
def Avg.init (t : Ty) (n : Nat) (v : Int) : Avg := ⟨0, List.replicate n v, t.wrap (n * v)⟩

/-- `reset` keeps the index (moving_average.hpp:74-78) -/
def Avg.reset (t : Ty) (n : Nat) (x : Avg) (v : Int) : Avg :=
  { x with buffer := List.replicate x.buffer.length v, sum := t.wrap (n * v) }

/-- `update`, integer branch (moving_average.hpp:81-95); `none` also stands for an index outside the buffer. -/
def Avg.update (t : Ty) (n : Nat) (x : Avg) (v : Int) : Option Avg := do
  let old ← x.buffer[x.index]?
  let s ← store t (x.sum - old)
  let s ← store t (s + v)
  some ⟨if x.index + 1 = n then 0 else x.index + 1, x.buffer.set x.index v, s⟩

/-- `getValue` (moving_average.hpp:98-102): `sum / static_cast<T>(N)`; `none` is division by zero. -/
def Avg.getValue (t : Ty) (n : Nat) (x : Avg) : Option Int :=
  if t.wrap n = 0 then none else some (x.sum.tdiv (t.wrap n))

def Avg.run (t : Ty) (n : Nat) (x : Avg) : List Int → Option Avg
  | [] => some x
  | v :: vs => do
    let y ← x.update t n v
    y.run t n vs

/-! ### FIR filter (fir.hpp:31-83, fir_impl.hpp:35-132)

`T` is any type with a zero, a multiply-accumulate `mac sum tap coefficient` (the statement
`sum += tap[i]*coefficients[i]`) and a final scaling `fin` (`sum / ScaleFactor`), so that all rounding and overflow
behaviour of `T` is covered. -/

universe u
structure Ops (T : Type u) where
  zero : T
  mac : T → T → T → T
  fin : T → T

structure Fir (T : Type u) where
  taps : List T
  index : Nat
  output : T

/-- `reset` (fir_impl.hpp:56-63) -/
def Fir.reset {T : Type u} (o : Ops T) (n b : Nat) (out : T) : Fir T := ⟨List.replicate (n + b) o.zero, b, out⟩

/-- the shift loop of `append` (fir_impl.hpp:81-82): `for (i = N+B-1; i > B; i--) taps[i] = taps[i-B-1]`, `k` counts
the remaining iterations, `i = B + k` -/
def Fir.shift {T : Type u} (b : Nat) : Nat → List T → List T
  | 0, l => l
  | k + 1, l => shift b k (match l[k]? with | some v => l.set (b + (k + 1)) v | none => l)

/-- `append` (fir_impl.hpp:67-96) -/
def Fir.append {T : Type u} (n b : Nat) (x : Fir T) (v : T) : Fir T :=
  if x.index > 0 then { x with index := x.index - 1, taps := x.taps.set (x.index - 1) v }
  else { x with index := b, taps := (shift b (n - 1) x.taps).set b v }

/-- one `sum += tap[i]*coefficients[i]` with `tap = taps + taps_index`; `none` is an access out of bounds -/
def Fir.acc {T : Type u} (o : Ops T) (x : Fir T) (c : List T) (s : T) (i : Nat) : Option T := do
  let t ← x.taps[x.index + i]?
  let h ← c[i]?
  some (o.mac s t h)

/-- first loop of `update` (fir_impl.hpp:113-122): four accumulations per iteration; `k` iterations from `i` -/
def Fir.loop4 {T : Type u} (o : Ops T) (x : Fir T) (c : List T) : Nat → Nat → T → Option T
  | 0, _, s => some s
  | k + 1, i, s => do
    let s ← x.acc o c s i
    let s ← x.acc o c s (i + 1)
    let s ← x.acc o c s (i + 2)
    let s ← x.acc o c s (i + 3)
    loop4 o x c k (i + 4) s

/-- second loop of `update` (fir_impl.hpp:123-126) -/
def Fir.loop1 {T : Type u} (o : Ops T) (x : Fir T) (c : List T) : Nat → Nat → T → Option T
  | 0, _, s => some s
  | k + 1, i, s => do
    let s ← x.acc o c s i
    loop1 o x c k (i + 1) s

/-- `update` (fir_impl.hpp:101-131). The bound `N - N%4` of the first loop is a multiple of four. -/
def Fir.update {T : Type u} (o : Ops T) (n : Nat) (c : List T) (x : Fir T) : Option (Fir T) := do
  let s ← x.loop4 o c ((n - n % 4) / 4) 0 o.zero
  let s ← x.loop1 o c (n % 4) (n - n % 4) s
  some { x with output := o.fin s }

/-! ### Debounce (debounce_impl.hpp:19-67), unsigned `T` -/

structure Debounce where
  max : Nat
  sum : Nat
  lower : Nat
  upper : Nat
  state : Bool
deriving Repr, DecidableEq

/-- constructor (debounce_impl.hpp:20-27) -/
def Debounce.init (max lower upper : Nat) : Debounce :=
  ⟨max, max / 2, lower, if upper ≠ 0 then upper else max, false⟩

/-- `update` (debounce_impl.hpp:31-46) -/
def Debounce.update (x : Debounce) (input : Bool) : Debounce :=
  let sum := if input && decide (x.sum < x.max) then x.sum + 1
    else if !input && decide (x.sum > 0) then x.sum - 1 else x.sum
  let state := if x.state && decide (sum ≤ x.lower) then false
    else if !x.state && decide (sum ≥ x.upper) then true else x.state
  { x with sum := sum, state := state }

/-- `reset` (debounce_impl.hpp:57-67) -/
def Debounce.reset (x : Debounce) (s : Bool) : Debounce :=
  if s then { x with sum := x.max, state := true } else { x with sum := 0, state := false }

def Debounce.run (x : Debounce) (l : List Bool) : Debounce := l.foldl Debounce.update x

/-! ### Ramp (ramp_impl.hpp:19-89), integer `T` -/

structure Ramp where
  target : Int
  value : Int
  reached : Bool
  inc : Int
  dec : Int
deriving Repr, DecidableEq

/-- constructor (ramp_impl.hpp:20-27) -/
def Ramp.init (inc dec v : Int) : Ramp := ⟨v, v, true, inc, dec⟩
/-- `setTarget` (ramp_impl.hpp:32-36) -/
def Ramp.setTarget (x : Ramp) (v : Int) : Ramp := { x with target := v, reached := false }
/-- `reset` (ramp_impl.hpp:70-73) -/
def Ramp.reset (x : Ramp) (v : Int) : Ramp := { x with value := v }

/-- `update` (ramp_impl.hpp:41-65) -/
def Ramp.update (t : Ty) (x : Ramp) : Option Ramp :=
  if x.target > x.value then do
    let variation ← store t (x.target - x.value)
    if variation > x.inc then
      let v ← store t (x.value + x.inc)
      some { x with value := v }
    else some { x with value := x.target, reached := true }
  else do
    let variation ← store t (x.value - x.target)
    if variation > x.dec then
      let v ← store t (x.value - x.dec)
      some { x with value := v }
    else some { x with value := x.target, reached := true }

/-- `n` updates -/
def Ramp.run (t : Ty) : Nat → Ramp → Option Ramp
  | 0, x => some x
  | n + 1, x => do
    let y ← x.update t
    run t n y

/-! ### PID controller (pid.hpp:55-186, pid_impl.hpp:18-107), signed integer `T` of `w` bits, `WideType` of `2w` -/

structure PidParam where
  kp : Int
  ki : Int
  kd : Int
  maxErrorSum : Int
  maxOutput : Int
deriving Repr, DecidableEq

structure Pid where
  errorSum : Int
  lastError : Int
  output : Int
deriving Repr, DecidableEq

/-- `reset` (pid_impl.hpp:51-56) -/
def Pid.reset : Pid := ⟨0, 0, 0⟩

/-- the type `T` -/
def ty (w : Nat) : Ty := ⟨true, w⟩

/-- value of an `int`-or-wider expression: operands promoted to `int` if narrower; overflow is undefined -/
def arith (w : Nat) (v : Int) : Option Int :=
  if (ty (Nat.max 32 w)).fits v then some v else none

/-- `tmp = tmp / ScaleFactor` (pid_impl.hpp:84) with `unsigned int ScaleFactor` (pid.hpp:55): when `WideType` is not
wider than 32 bits the dividend is converted to `unsigned int`. -/
def scaleDiv (w : Nat) (scale : Nat) (tmp : Int) : Int :=
  if 2 * w ≤ 32 then (ty (2 * w)).wrap ((tmp % 2 ^ 32) / scale) else tmp.tdiv scale

/-- limit the new error sum (pid_impl.hpp:72-77) -/
def limitSum (w : Nat) (p : PidParam) (nm e0 : Int) : Option Int :=
  if e0 > p.maxErrorSum then some p.maxErrorSum
  else if e0 < nm then store (ty w) nm
  else some e0

/-- limit the output and note the limitation (pid_impl.hpp:86-96) -/
def limitOut (w : Nat) (p : PidParam) (no tmp : Int) (ext : Bool) : Option (Int × Bool) :=
  if tmp > p.maxOutput then some (p.maxOutput, true)
  else if tmp < no then (store (ty w) no).map fun o => (o, true)
  else (store (ty w) tmp).map fun o => (o, ext)

/-- `update` (pid_impl.hpp:67-107) -/
def Pid.update (w scale : Nat) (p : PidParam) (x : Pid) (input : Int) (externalLimitation : Bool) : Option Pid := do
  let e0 ← store (ty w) (x.errorSum + input)
  let nm ← arith w (-p.maxErrorSum)
  let e ← limitSum w p nm e0
  -- 79-82
  let a ← arith (2 * w) (p.kp * input)
  let t1 ← store (ty (2 * w)) (0 + a)
  let b ← arith (2 * w) (p.ki * e)
  let t2 ← store (ty (2 * w)) (t1 + b)
  let d ← arith w (input - x.lastError)
  let c ← arith (2 * w) (p.kd * d)
  let t3 ← store (ty (2 * w)) (t2 + c)
  let no ← arith w (-p.maxOutput)
  let r ← limitOut w p no (scaleDiv w scale t3) externalLimitation
  -- 101-106
  some ⟨if !r.2 || decide (e.natAbs < x.errorSum.natAbs) then e else x.errorSum, input, r.1⟩

/-- a sequence of (input, externalLimitation) -/
def Pid.run (w scale : Nat) (p : PidParam) (x : Pid) : List (Int × Bool) → Option Pid
  | [] => some x
  | i :: is => do
    let y ← x.update w scale p i.1 i.2
    y.run w scale p is

end Modm.Filter
