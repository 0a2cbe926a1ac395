/-
Model of the animations (src/modm/ui/animation: interpolation.hpp, base.hpp, base_impl.hpp, key_frame.hpp, key_frame_impl.hpp, indicator.hpp, pulse.hpp, strobe.hpp).

Values of type `T` are `BitVec v`.  Not modelled: the ramp with floats (for `T` = float, and 32 bits on AVR).
-/
set_option autoImplicit false
namespace Modm.Animation

/-- The widths of the types.  `v`: bits of `T`, and whether it is signed; `f`: bits of the fraction; `w`: bits of `accumulatedValue` and `deltaValue`;
`sw`: bits of the signed type `steps` is cast to; `pw`: bits of `T` after integral promotion; `tb`: bits of `StepType`; `fast8`: bits of `uint_fast8_t`. -/
structure Config where
  v : Nat
  signed : Bool
  f : Nat
  w : Nat
  sw : Nat
  pw : Nat
  tb : Nat
  fast8 : Nat

/-- 8 bits on AVR (`int_fast16_t` and `int` have 16 bits), Cortex-M (32) and hosted (64 and 32), interpolation.hpp:43-46, 103-142 -/
def avr8 (s : Bool) : Config := ⟨8, s, 7, 16, 16, 16, 16, 8⟩
def arm8 (s : Bool) : Config := ⟨8, s, 7, 32, 32, 32, 16, 32⟩
def hosted8 (s : Bool) : Config := ⟨8, s, 7, 64, 64, 32, 16, 8⟩
/-- 16 bits, interpolation.hpp:152-190 -/
def avr16 (s : Bool) : Config := ⟨16, s, 15, 32, 32, 16, 32, 8⟩
def arm16 (s : Bool) : Config := ⟨16, s, 15, 32, 32, 32, 32, 32⟩
def hosted16 (s : Bool) : Config := ⟨16, s, 15, 32, 32, 32, 32, 8⟩
/-- 32 bits, interpolation.hpp:207-245 -/
def arm32 (s : Bool) : Config := ⟨32, s, 16, 64, 32, 32, 32, 32⟩
def hosted32 (s : Bool) : Config := ⟨32, s, 16, 64, 32, 32, 32, 8⟩

/-- The number a value stands for. -/
def val (signed : Bool) {v : Nat} (x : BitVec v) : Int := if signed then x.toInt else x.toNat

/-- `Computations`, interpolation.hpp:61-64, 105-107, 154-155, 209-210; `deltaValue` as a number -/
structure Ramp (c : Config) where
  acc : BitVec c.w
  delta : Int
  deriving DecidableEq

/-- A number as a signed type of `n` bits holds it. -/
def wrap (n : Nat) (x : Int) : Int := x.bmod (2 ^ n)

/-- `initialize`, interpolation.hpp:114-129, 162-177, 217-232; `none` for a division by zero -/
def Ramp.initialize (c : Config) (begin_ end_ : BitVec c.v) (steps : Nat) : Option (Ramp c) :=
  let delta := wrap c.w ((val c.signed end_ - val c.signed begin_) * 2 ^ c.f)
  if delta ≠ 0 then
    let s := wrap c.sw steps
    if s = 0 then none
    else
      let d := delta.tdiv s
      let d := if d = 0 then (if delta > 0 then 1 else -1) else d
      some ⟨(BitVec.ofInt c.w (val c.signed begin_)) <<< c.f + BitVec.ofInt c.w (d.tdiv 2), d⟩
  else
    let promoted : BitVec c.pw := BitVec.ofInt c.pw (val c.signed end_) <<< c.f
    some ⟨BitVec.ofInt c.w (val c.signed promoted), 0⟩

/-- `step`, interpolation.hpp:131-135, 179-183, 234-238 -/
def Ramp.step {c : Config} (r : Ramp c) : Ramp c := { r with acc := r.acc + BitVec.ofInt c.w r.delta }

/-- `get`, interpolation.hpp:137-141, 185-189, 240-244 -/
def Ramp.get {c : Config} (r : Ramp c) : BitVec c.v := (r.acc >>> c.f).setWidth c.v

/-- `stop`, interpolation.hpp:284-288 -/
def Ramp.stop {c : Config} (r : Ramp c) : Ramp c := { r with delta := 0 }

def Ramp.steps {c : Config} : Nat → Ramp c → Ramp c
  | 0, r => r
  | n + 1, r => steps n r.step

/-! ## Animation -/

/-- `Animation`, base.hpp:75-132; `calls` are the values the handler was called with, the last first -/
structure Animation (c : Config) where
  currentValue : BitVec c.v
  endValue : BitVec c.v
  animationTime : Nat
  previous : BitVec 16
  interpolation : Ramp c
  calls : List (BitVec c.v)

/-- `setValue`, base_impl.hpp:30-39 -/
def Animation.setValue {c : Config} (a : Animation c) (value : BitVec c.v) : Animation c :=
  { a with animationTime := 0, currentValue := value, endValue := value, interpolation := a.interpolation.stop, calls := value :: a.calls }

/-- `isAnimating`, base_impl.hpp:48-53 -/
def Animation.isAnimating {c : Config} (a : Animation c) : Bool := a.animationTime > 0

/-- `stop`, base_impl.hpp:55-60 -/
def Animation.stop {c : Config} (a : Animation c) : Animation c := a.setValue a.currentValue

/-- `animateTo`, base_impl.hpp:62-78; `time` is a `uint32_t`, `now` the clock in milliseconds -/
def Animation.animateTo {c : Config} (now : Nat) (a : Animation c) (value : BitVec c.v) (time : Nat) : Option (Animation c) :=
  if time = 0 then some (a.setValue value)
  else do
    let animationTime := time % 2 ^ c.tb
    let r ← Ramp.initialize c a.currentValue value animationTime
    some { a with
      endValue := value, animationTime := animationTime, previous := BitVec.ofNat 16 now, interpolation := r,
      calls := if value = a.currentValue then a.currentValue :: a.calls else a.calls }

/-- `update`, base_impl.hpp:80-127 -/
def Animation.update {c : Config} (now : Nat) (a : Animation c) : Animation c × Bool :=
  if a.animationTime > 0 then
    let now16 := BitVec.ofNat 16 now
    let delta := (now16 - a.previous).toNat % 2 ^ c.fast8
    if delta ≠ 0 then
      let a := { a with previous := now16 }
      if a.animationTime ≤ delta then (a.setValue a.endValue, true)
      else
        let a := { a with animationTime := a.animationTime - delta, interpolation := a.interpolation.steps delta }
        let newValue := a.interpolation.get
        if a.currentValue ≠ newValue then ({ a with currentValue := newValue, calls := newValue :: a.calls }, true) else (a, false)
    else (a, false)
  else (a, false)

/-! ## Key frames -/

/-- `KeyFrame`, key_frame.hpp:33-47 -/
structure Frame (c : Config) where
  length : Nat
  value : List (BitVec c.v)

/-- `KeyFrameAnimationBase`, key_frame.hpp:88-157.  `mode` without and `reversed` with the reversed bit; `log` are the numbers of the frames that were started, the last first -/
structure KeyFrames (c : Config) where
  animators : List (Animation c)
  frames : List (Frame c)
  currentFrame : Nat
  repeat_ : Nat
  cycle : Bool
  reversed : Bool
  log : List Nat

/-- `cancel`, key_frame_impl.hpp:72-84 -/
def KeyFrames.cancel {c : Config} (k : KeyFrames c) : KeyFrames c :=
  { k with currentFrame := 0, reversed := false, animators := k.animators.map Animation.stop }

/-- `start`, key_frame_impl.hpp:39-54 -/
def KeyFrames.start {c : Config} (k : KeyFrames c) (repeat_ : Nat) : KeyFrames c × Bool :=
  if k.frames.length > 0 then ({ k.cancel with currentFrame := 1, repeat_ := repeat_, log := [] }, true) else (k, false)

/-- `stop`, key_frame_impl.hpp:56-70 -/
def KeyFrames.stop {c : Config} (k : KeyFrames c) : Option (KeyFrames c) :=
  if k.frames.length > 0 then do
    let frame ← k.frames[if k.reversed then 0 else k.frames.length - 1]?
    some { k with animators := k.animators.zipWith Animation.setValue frame.value }.cancel
  else some k.cancel

/-- `isAnimating`, key_frame_impl.hpp:93-97 -/
def KeyFrames.isAnimating {c : Config} (k : KeyFrames c) : Bool := k.currentFrame > 0

/-- `checkRepeat`, key_frame_impl.hpp:168-181 -/
def KeyFrames.checkRepeat {c : Config} (k : KeyFrames c) : KeyFrames c × Bool :=
  if k.repeat_ = 1 then ({ k with currentFrame := 0 }, false)
  else if k.repeat_ > 0 then ({ k with repeat_ := k.repeat_ - 1 }, true)
  else (k, true)

/-- Which frame is next, key_frame_impl.hpp:117-162; `false`: `update` returns -/
def KeyFrames.next {c : Config} (k : KeyFrames c) : KeyFrames c × Bool :=
  if k.cycle then
    if k.currentFrame ≥ k.frames.length then
      let r := k.checkRepeat
      if r.2 then ({ r.1 with currentFrame := 1 }, true) else (r.1, false)
    else ({ k with currentFrame := k.currentFrame + 1 }, true)
  else if ¬k.reversed then
    if k.currentFrame ≥ k.frames.length then ({ k with currentFrame := k.frames.length - 1, reversed := true }, true)
    else ({ k with currentFrame := k.currentFrame + 1 }, true)
  else if k.currentFrame = 1 then
    let r := k.checkRepeat
    if r.2 then ({ r.1 with currentFrame := 2, reversed := false }, true) else (r.1, false)
  else ({ k with currentFrame := k.currentFrame - 1 }, true)

/-- The animators are started with a frame, key_frame_impl.hpp:110-115; `none`: an element outside of an array, or the animator's own -/
def startAll {c : Config} (now length : Nat) : List (Animation c) → List (BitVec c.v) → Option (List (Animation c))
  | [], _ => some []
  | _ :: _, [] => none
  | a :: as, x :: xs => do
    let a ← a.animateTo now x length
    let as ← startAll now length as xs
    some (a :: as)

/-- `update`, key_frame_impl.hpp:99-166 -/
def KeyFrames.update {c : Config} (now : Nat) (k : KeyFrames c) : Option (KeyFrames c) := do
  if k.currentFrame > 0 then
    let first ← k.animators.head?
    if ¬first.isAnimating then
      let frame ← k.frames[k.currentFrame - 1]?
      let as ← startAll now frame.length k.animators frame.value
      let r := { k with animators := as, log := (k.currentFrame - 1) :: k.log }.next
      if r.2 then some { r.1 with animators := r.1.animators.map fun a => (a.update now).1 } else some r.1
    else some { k with animators := k.animators.map fun a => (a.update now).1 }
  else some { k with animators := k.animators.map fun a => (a.update now).1 }

/-- `setMode`, key_frame_impl.hpp:214-220 -/
def KeyFrames.setMode {c : Config} (k : KeyFrames c) (cycle : Bool) : KeyFrames c := { k with cycle := cycle, reversed := false }

/-! ## Indicator, Pulse, Strobe: the lengths of their frames, `tb` bits each -/

/-- `Indicator`, indicator.hpp:44-53 -/
structure Four where
  f0 : Nat
  f1 : Nat
  f2 : Nat
  f3 : Nat
  deriving DecidableEq

def Four.make : Four := ⟨75, 375, 115, 435⟩

/-- `setPeriod`, indicator.hpp:58-72 -/
def Four.setPeriod (tb : Nat) (i : Four) (period dutyCycle : Nat) : Four :=
  let dutyCycle := if dutyCycle > 100 then 100 else dutyCycle
  let f1 := (period * dutyCycle % 2 ^ 32 / 100) % 2 ^ tb
  let fadeLength := (i.f0 + i.f2) % 2 ^ 32
  let f1 := if f1 < fadeLength then 0 else f1 - fadeLength
  ⟨i.f0, f1, i.f2, (period + 2 ^ tb - f1) % 2 ^ tb⟩

/-- `setFadeTimes`, indicator.hpp:74-84 -/
def Four.setFadeTimes (tb : Nat) (i : Four) (onFade offFade : Nat) : Four :=
  let f1 := (i.f1 + (i.f0 + i.f2)) % 2 ^ tb
  let fadeLength := (onFade + offFade) % 2 ^ 32
  ⟨onFade, if f1 < fadeLength then 0 else f1 - fadeLength, offFade, i.f3⟩

/-- `Pulse::setPeriod`, pulse.hpp:54-61 -/
def pulse (tb period dutyCycle : Nat) : Nat × Nat :=
  let dutyCycle := if dutyCycle > 100 then 100 else dutyCycle
  let f0 := (period * dutyCycle % 2 ^ 32 / 100) % 2 ^ tb
  (f0, (period + 2 ^ tb - f0) % 2 ^ tb)

/-- `Strobe`, strobe.hpp:43-54 -/
structure Eight where
  f0 : Nat
  f1 : Nat
  f2 : Nat
  f3 : Nat
  f4 : Nat
  f5 : Nat
  f6 : Nat
  f7 : Nat
  deriving DecidableEq

def Eight.make : Eight := ⟨60, 40, 90, 110, 60, 40, 90, 510⟩

/-- `setPeriod`, strobe.hpp:60-88; `dutyCycle1` etc. are bytes -/
def Eight.setPeriod (tb : Nat) (s : Eight) (period d1 d2 d3 : Nat) : Eight × Bool :=
  let remaining := 100
  let d1 := if d1 > 100 then 100 else d1
  let remaining := remaining - d1
  let f1 := (period * d1 % 2 ^ 32 / 100) % 2 ^ tb
  let fadeLength := (s.f0 + s.f2) % 2 ^ 32
  let f1 := if f1 ≤ fadeLength then 0 else f1 - fadeLength
  let s := { s with f1 := f1 }
  if d2 > remaining then (s, false)
  else
    let remaining := remaining - d2
    let s := { s with f3 := (period * d2 % 2 ^ 32 / 100) % 2 ^ tb }
    if d3 > remaining then (s, false)
    else
      let f5 := (period * d3 % 2 ^ 32 / 100) % 2 ^ tb
      let s := if f5 ≤ fadeLength then { s with f5 := f5, f1 := 0 } else { s with f5 := f5 - fadeLength }
      ({ s with f7 := (((period : Int) - fadeLength * 2 - s.f1 - s.f5) % 2 ^ tb).toNat }, true)

end Modm.Animation
