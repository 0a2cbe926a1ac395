import Verif.Model.GpioPins

set_option autoImplicit false

/-!
What is expected of pins: what a single pin looks like in the registers of a port, and what a call for a set of pins
says to each of its pins.
-/

namespace GpioPinsSpec

open Modm.GpioPins

/-- The pin `k` of port `port` belongs to the set. -/
def has (gs : List Pin) (port k : Nat) : Prop := ∃ g ∈ gs, g.port = port ∧ g.pin = k

instance (gs : List Pin) (port k : Nat) : Decidable (has gs port k) := by unfold has; infer_instance

/-- A set that a program can use: pins that exist (`w` pins per port) and no pin both plain and inverted. -/
def Usable (w : Nat) (gs : List Pin) : Prop :=
  (∀ g ∈ gs, g.pin < w) ∧
  ∀ g ∈ gs, ∀ h ∈ gs, g.port = h.port → g.pin = h.pin → g.inverted = h.inverted

/-- The set takes the pin as inverted. -/
def inverts (gs : List Pin) (port k : Nat) : Bool :=
  gs.any (fun g => decide (g.port = port) && decide (g.pin = k) && g.inverted)

/-! ### A pin of an STM32 other than F1 (reference manuals, chapter GPIO) -/

/-- `mode` is 0 for inputs, 1 for outputs, 2 for alternate functions and 3 for analog; `pull` is 0 for none, 1 for up
and 2 for down; `high` is the level of the output. -/
structure Stm32Pin where
  mode : BitVec 2
  openDrain : Bool
  speed : BitVec 2
  pull : BitVec 2
  high : Bool
  deriving DecidableEq

/-- Pin `k` in the registers. -/
def stm32Pin (p : Stm32.Port) (k : Nat) : Stm32Pin where
  mode := p.moder.extractLsb' (2 * k) 2
  openDrain := p.otyper.getLsbD k
  speed := p.ospeedr.extractLsb' (2 * k) 2
  pull := p.pupdr.extractLsb' (2 * k) 2
  high := p.odr.getLsbD k

/-- What a call does to a pin; `inv` for inverted pins. -/
def Stm32Pin.hear (inv : Bool) (c : Stm32.Call) (p : Stm32Pin) : Stm32Pin :=
  match c with
  | .setOutput => { p with mode := 1 }
  | .setOutputStatus b => { p with mode := 1, high := b != inv }
  | .setOutputType t v => { p with mode := 1, openDrain := t, speed := v }
  | .configureOutput t v => { p with openDrain := t, speed := v }
  | .setInput => { p with mode := 0, openDrain := false, speed := 0 }
  | .setInputType t => { p with mode := 0, openDrain := false, speed := 0, pull := t }
  | .configureInput t => { p with pull := t }
  | .setAnalogInput => { p with mode := 3 }
  | .set => { p with high := !inv }
  | .setStatus b => { p with high := b != inv }
  | .reset => { p with high := inv }
  | .toggle => { p with high := !p.high }

/-- Calls for sets of pins, as the pin `k` of port `port` gets them. -/
def stm32After (port k : Nat) (l : List (List Pin × Stm32.Call)) (p : Stm32Pin) : Stm32Pin :=
  l.foldl (fun p c => if has c.1 port k then p.hear (inverts c.1 port k) c.2 else p) p

/-! ### A pin of an STM32F1 (reference manual RM0008, chapter 9) -/

/-- The field with `CNF` and `MODE` of pin `k`: 0 analog, 4 floating input, 8 input with pull-up or -down (up if `ODR` is
1); with `MODE` other than 0 an output, with bit 2 open-drain and with bit 3 for an alternate function. -/
def f1Field (p : F1.Port) (k : Nat) : BitVec 4 :=
  if k < 8 then p.crl.extractLsb' (4 * k) 4 else p.crh.extractLsb' (4 * (k - 8)) 4

/-- Direction by the reference manual. -/
def f1Direction (field : BitVec 4) : Stm32.Direction :=
  if field.extractLsb' 0 2 ≠ 0 then (if field.getLsbD 3 then .special else .output)
  else if field = 0 then .special
  else .input

/-- What a call does to a pin of the F1: the field and the bit of `ODR`. -/
def f1Hear (inv : Bool) (c : F1.Call) (p : BitVec 4 × Bool) : BitVec 4 × Bool :=
  match c with
  | .setOutput => (3, p.2)
  | .setOutputStatus b => (3, b != inv)
  | .configureOutput t v => (t ||| v, p.2)
  | .setInput => (4, false)
  | .configureInput t => (if t = 9 then (8, true) else if t = 8 then (8, false) else (4, false))
  | .setAnalogInput => (0, p.2)
  | .set => (p.1, !inv)
  | .reset => (p.1, inv)

/-- The values of the enums (stm32/base.hpp.in:27-60). -/
def F1Ok : F1.Call → Prop
  | .configureOutput t v => (t = 0 ∨ t = 4) ∧ (v = 1 ∨ v = 2 ∨ v = 3)
  | .configureInput t => t = 4 ∨ t = 8 ∨ t = 9
  | _ => True

instance (c : F1.Call) : Decidable (F1Ok c) := by cases c <;> unfold F1Ok <;> infer_instance

/-! ### A pin of an AVR -/

/-- `out` for outputs; `bit` is the bit of `PORT`: the level of outputs and, without `PUE`, the pull-up of inputs;
`pull` is the bit of `PUE`. -/
structure AvrPin where
  out : Bool
  bit : Bool
  pull : Bool
  deriving DecidableEq

def avrPin (p : Avr.Port) (k : Nat) : AvrPin where
  out := p.ddr.getLsbD k
  bit := p.port.getLsbD k
  pull := p.pue.getLsbD k

/-- What a call does to a pin. -/
def AvrPin.hear (hasPue inv : Bool) (c : Avr.Call) (p : AvrPin) : AvrPin :=
  let pulled (p : AvrPin) (up : Bool) : AvrPin := if hasPue then { p with pull := up } else { p with bit := up }
  match c with
  | .setOutput => { p with out := true, pull := if hasPue then false else p.pull }
  | .setOutputStatus b => { out := true, bit := b != inv, pull := if hasPue then false else p.pull }
  | .configureOutput => { p with out := true, pull := if hasPue then false else p.pull }
  | .setInput => { p with out := false }
  | .setInputType up => pulled { p with out := false } up
  | .configureInput up => pulled p up
  | .set => { p with bit := !inv }
  | .reset => { p with bit := inv }
  | .toggle => { p with bit := !p.bit }

/-- Calls for sets of pins, as the pin `k` of port `port` gets them. -/
def avrAfter (hasPue : Bool) (port k : Nat) (l : List (List Pin × Avr.Call)) (p : AvrPin) : AvrPin :=
  l.foldl (fun p c => if has c.1 port k then p.hear hasPue (inverts c.1 port k) c.2 else p) p

/-! ### Ports -/

/-- The pin for bit `i` of the data of `GpioPort<Start, Width>`. -/
def portBit (start : Pin) (reversed : Bool) (i : Nat) : Nat := if reversed then start.pin - i else start.pin + i

/-- A port within the pins of the device. -/
def PortOk (w : Nat) (start : Pin) (width : Nat) (reversed : Bool) : Prop :=
  0 < width ∧ start.pin < w ∧ (if reversed then width ≤ start.pin + 1 else start.pin + width ≤ w)

instance (w : Nat) (start : Pin) (width : Nat) (reversed : Bool) : Decidable (PortOk w start width reversed) := by
  unfold PortOk; infer_instance

/-- What `modm::bitReverse` does (C18). -/
def Reverses {w : Nat} (rev : BitVec w → BitVec w) : Prop :=
  ∀ n i, i < w → (rev n).getLsbD i = n.getLsbD (w - 1 - i)

/-- A `SoftwareGpioPort` that a program can use: pins that exist, each once. -/
def SoftOk (w : Nat) (gs : List Pin) : Prop :=
  (∀ g ∈ gs, g.pin < w) ∧ gs.length ≤ 32 ∧ (gs.map (fun g => (g.port, g.pin))).Nodup

end GpioPinsSpec
