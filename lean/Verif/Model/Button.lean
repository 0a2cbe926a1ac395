set_option autoImplicit false

/-!
Model of `modm::ButtonGroup<T>` (src/modm/ui/button_group.hpp).

`T` is `BitVec w`, one bit for each button; the operations on promoted operands are cut to `w` bits when they are
stored.  `atomic::Lock` makes every method one step.
-/

namespace Modm.Button

/-- The members, button_group.hpp:49-51, 216-224 -/
structure Group (w : Nat) where
  pressed : BitVec w
  released : BitVec w
  repeated : BitVec w
  repeatmask : BitVec w
  debounced : BitVec w
  timeout : BitVec 16
  interval : BitVec 16
  repeatCounter : BitVec 16
  ct0 : BitVec w
  ct1 : BitVec w
  deriving DecidableEq

variable {w : Nat}

/-- The constructor, button_group.hpp:59-61 -/
def Group.init (repeatmask : BitVec w) (timeout interval : BitVec 16) : Group w :=
  { pressed := 0, released := 0, repeated := 0, repeatmask, debounced := 0, timeout, interval,
    repeatCounter := timeout, ct0 := 0, ct1 := 0 }

/-- `State::read_and_clear`, button_group.hpp:42-46: the result and the new value -/
def readAndClear (value mask : BitVec w) : Bool × BitVec w :=
  (decide (mask &&& value ≠ 0), value ^^^ (mask &&& value))

/-- `getState`, button_group.hpp:64-68; the result of `read` is a `bool` -/
def Group.getState (g : Group w) (mask : BitVec w) : Bool := decide (mask &&& g.debounced ≠ 0)

/-- button_group.hpp:85-89 -/
def Group.isPressed (g : Group w) (mask : BitVec w) : Bool × Group w :=
  ((readAndClear g.pressed mask).1, { g with pressed := (readAndClear g.pressed mask).2 })

/-- button_group.hpp:92-96 -/
def Group.isReleased (g : Group w) (mask : BitVec w) : Bool × Group w :=
  ((readAndClear g.released mask).1, { g with released := (readAndClear g.released mask).2 })

/-- button_group.hpp:121-125 -/
def Group.isRepeated (g : Group w) (mask : BitVec w) : Bool × Group w :=
  ((readAndClear g.repeated mask).1, { g with repeated := (readAndClear g.repeated mask).2 })

/-- button_group.hpp:149-160 -/
def Group.isPressedShort (g : Group w) (mask : BitVec w) : Bool × Group w :=
  let m := mask &&& g.pressed &&& ~~~g.debounced
  (decide (m ≠ 0), { g with pressed := g.pressed ^^^ m })

/-- button_group.hpp:169-181 -/
def Group.isPressedLong (g : Group w) (mask : BitVec w) : Bool × Group w :=
  let m := mask &&& g.repeated
  let n := m &&& g.pressed
  (decide (n ≠ 0), { g with repeated := g.repeated ^^^ m, pressed := g.pressed ^^^ n })

/-- The debouncing part of `update`, button_group.hpp:190-204 -/
def Group.debounce (g : Group w) (input : BitVec w) : Group w :=
  let i := g.debounced ^^^ ~~~input
  let ct0 := ~~~(g.ct0 &&& i)
  let ct1 := ct0 ^^^ (g.ct1 &&& i)
  let j := i &&& (ct0 &&& ct1)
  let debounced := g.debounced ^^^ j
  { g with
    ct0 := ct0
    ct1 := ct1
    debounced := debounced
    pressed := g.pressed ||| (debounced &&& j)
    released := g.released ||| (~~~debounced &&& j) }

/-- The repetition part of `update`, button_group.hpp:206-212 -/
def Group.repetition (g : Group w) : Group w :=
  let c := (if g.debounced &&& g.repeatmask = 0 then g.timeout else g.repeatCounter) - 1
  if c = 0 then
    { g with repeatCounter := g.interval, repeated := g.repeated ||| (g.debounced &&& g.repeatmask) }
  else { g with repeatCounter := c }

/-- `update`, button_group.hpp:188-213 -/
def Group.update (g : Group w) (input : BitVec w) : Group w := (g.debounce input).repetition

end Modm.Button
