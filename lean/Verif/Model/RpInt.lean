import Mathlib.Logic.Function.Basic

/-!
Interrupts of the pins of RP2040.

Models `/repo/src/modm/platform/extint/rp/int_handler.cpp.in`, `int_handler.hpp.in` and the registers used by
`/repo/src/modm/platform/gpio/rp/base.hpp.in` for bank 0.  A group has eight pins with four triggers each: low
level, high level, falling edge, rising edge.  `log` is a record of edges and calls for the specification.
-/

set_option autoImplicit false

namespace Model.RpInt

/-- Edge `t` (2 falling, 3 rising) at a pin, or the call of a handler with the triggers. -/
inductive Ev where
  | edge (pin t : Nat)
  | call (pin : Nat) (triggers : BitVec 32)
deriving DecidableEq

/-- The registers `intr` and `inte` of the groups, the handlers (int_handler.hpp.in:149-152). -/
structure St where
  intr : Nat → BitVec 32
  inte : Nat → BitVec 32
  handlers : Nat → Option Nat
  log : List Ev

/-- base.hpp.in:158,169,178: the value for a pin. -/
def value (pin : Nat) (triggers : BitVec 32) : BitVec 32 := triggers <<< (4 * (pin % 8))

/-- The hardware: only edges can be acknowledged. -/
def edges : BitVec 32 := 0xcccccccc#32

/-- base.hpp.in:176-180: `acknowledge_irq()`. -/
def acknowledge (s : St) (pin : Nat) (triggers : BitVec 32) : St :=
  { s with intr := Function.update s.intr (pin / 8) (s.intr (pin / 8) &&& ~~~(value pin triggers &&& edges)) }

/-- base.hpp.in:156-165: `enable_irq()`. -/
def enableIrq (s : St) (pin : Nat) (triggers : BitVec 32) : St :=
  { s with inte := Function.update s.inte (pin / 8) (s.inte (pin / 8) ||| value pin triggers) }

/-- base.hpp.in:166-175: `disable_irq()`. -/
def disableIrq (s : St) (pin : Nat) (triggers : BitVec 32) : St :=
  { s with inte := Function.update s.inte (pin / 8) (s.inte (pin / 8) &&& ~~~value pin triggers) }

/-- The hardware: an edge at a pin is kept. -/
def edge (s : St) (e : Nat × Nat) : St :=
  { s with intr := Function.update s.intr (e.1 / 8) (s.intr (e.1 / 8) ||| (1#32 <<< (4 * (e.1 % 8) + e.2))), log := s.log ++ [.edge e.1 e.2] }

/-- The call of the handler of a pin. -/
def call (s : St) (pin : Nat) (triggers : BitVec 32) : St :=
  if (s.handlers pin).isSome then { s with log := s.log ++ [.call pin triggers] } else s

/-- int_handler.cpp.in:35-43: the loop over the pins of a group; the edges `env pin` happen while or after the
handler of the pin runs.  A word has eight digits, `n` of them are left. -/
def pins (env : Nat → List (Nat × Nat)) : Nat → St → Nat → BitVec 32 → St
  | 0, s, _, _ => s
  | n + 1, s, pin, status =>
    if status = 0#32 then s
    else
      let triggers := status &&& 0b1111#32
      let s := if triggers ≠ 0#32 then (env pin).foldl edge (call (acknowledge s pin triggers) pin triggers) else s
      pins env n s (pin + 1) (status >>> 4)

/-- int_handler.cpp.in:33-46: the loop over the groups. -/
def groups (env : Nat → List (Nat × Nat)) : List Nat → St → St
  | [], s => s
  | g :: gs, s => groups env gs (pins env 8 s (g * 8) (s.intr g &&& s.inte g))

/-- int_handler.cpp.in:20-48: `irqBank0Handler()` with `num` pins (`NUM_BANK0_GPIOS`, 30). -/
def irq (env : Nat → List (Nat × Nat)) (num : Nat) (s : St) : St := groups env (List.range (num / 8)) s

/-- int_handler.hpp.in:64-79: `connect()`. -/
def connect (s : St) (pin : Nat) (triggers : BitVec 32) (handler : Nat) : St :=
  let s := disableIrq s pin 0b1111#32
  let s := acknowledge s pin 0b1111#32
  let s := { s with handlers := Function.update s.handlers pin (some handler) }
  enableIrq s pin triggers

/-- int_handler.hpp.in:81-89: `disconnect()`. -/
def disconnect (s : St) (pin : Nat) : St :=
  let s := disableIrq s pin 0b1111#32
  { s with handlers := Function.update s.handlers pin none }

end Model.RpInt
