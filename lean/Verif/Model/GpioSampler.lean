/-!
The sampler of GPIO pins: a channel of `GpioSampler` with its pin and its interrupt.

Models `/repo/src/modm/driver/gpio/gpio_sampler.cpp.in:67-117`, `gpio_sampler.hpp.in:29-53,103-105` and
`gpio_sampler_impl.hpp.in:38-117`.  One pin on its vector; the flag of the pin is set by both edges.  `count` is the length of
the list; the memory of the channel is available.
-/

set_option autoImplicit false

namespace Model.GpioSampler

/-- gpio_sampler.hpp.in:103-105: `getTime()`. -/
def getTime (cycles : BitVec 32) : BitVec 32 := cycles &&& ~~~1#32

/-- gpio_sampler.hpp.in:28-33: `Channel`. -/
structure Channel where
  maxCount : Nat
  data : List (BitVec 32)
deriving DecidableEq

/-- gpio_sampler.cpp.in:67-72: `allocate()`. -/
def allocate (maxSamples : Nat) : Channel := ⟨maxSamples + 1, []⟩

/-- gpio_sampler.cpp.in:94-98: `add()`. -/
def add (c : Channel) (time : BitVec 32) : Channel :=
  if c.data.length < c.maxCount then { c with data := c.data ++ [time] } else c

/-- gpio_sampler.cpp.in:78-82: `reset()`. -/
def reset (c : Channel) : Channel := { c with data := [] }

/-- gpio_sampler.cpp.in:100-104: `operator[]`; `none`: outside the memory. -/
def get (c : Channel) (index : Nat) : Option (BitVec 32) := c.data[if index < c.data.length then index else c.data.length - 1]?

/-- gpio_sampler.cpp.in:106-110: `read()`. -/
def read (c : Channel) (index : Nat) : Option Bool := (get c index).map (fun d => decide (d &&& 1#32 ≠ 0#32))

/-- gpio_sampler.cpp.in:112-117: `diff()`. -/
def diff (c : Channel) (index : Nat) : Option (BitVec 32) :=
  if index = 0 then some 0#32 else do
    let a ← get c index
    let b ← get c (index - 1)
    pure (a - b)

structure Sampler where
  channel : Channel
  level : Bool
  flag : Bool
deriving DecidableEq

/-- The pin changes; the flag of the external interrupt is set. -/
def edge (s : Sampler) : Sampler := { s with level := !s.level, flag := true }

/-- gpio_sampler_impl.hpp.in:61-76 and the interrupt handler at 110-117: runs if the flag is set; `during`: the pin changes between
reading the pin and acknowledging the flag. -/
def handler (s : Sampler) (cycles : BitVec 32) (during : Bool) : Sampler :=
  if s.flag then
    let time := getTime cycles
    let time := if s.level then time ||| 1#32 else time
    let s := { s with channel := add s.channel time }
    let s := if during then edge s else s
    { s with flag := false }
  else s

/-- gpio_sampler_impl.hpp.in:38-52,93-98: `restart()` with the first sample, in a lock. -/
def restart (s : Sampler) (cycles : BitVec 32) : Sampler :=
  let c := reset s.channel
  let time := getTime cycles
  { s with channel := add c (if s.level then time ||| 1#32 else time) }

end Model.GpioSampler
