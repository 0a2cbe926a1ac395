import Verif.Model.BitOps

set_option autoImplicit false

/-!
Model of the pins of a microcontroller, `modm::platform::GpioSet`, `GpioStatic`, `GpioPort` and
`SoftwareGpioPort`, for the STM32 (src/modm/platform/gpio/stm32/set.hpp.in, static.hpp.in, port.hpp.in,
software_port.hpp.in, base.hpp.in), there for the family F1 and for the others, and for the AVR
(src/modm/platform/gpio/at90_tiny_mega/set.hpp.in, static.hpp.in, port.hpp.in, software_port.hpp.in), and of
`GpioInverted` (common/inverted.hpp) as far as these classes look at `isInverted`.

The registers are modelled from the reference manuals as far as the classes use them.  The templates write out one
statement for each port of the device with a pin in the set; the ports have registers of their own, so the model
treats the ports side by side (`onPorts`).  A port is known by a number.  `lock()`, the register `ASCR` and the clock
of the ports are not modelled.
-/

namespace Modm.GpioPins

/-! ### Sets of pins (both) -/

/-- A class for a pin: `Gpios::port`, `Gpios::pin` and `Gpios::isInverted` (stm32/static.hpp.in:35-38,
common/inverted.hpp:48, common/port_shim.hpp.in:55-61). -/
structure Pin where
  port : Nat
  pin : Nat
  inverted : Bool
  deriving DecidableEq

/-- `Gpios::mask` (stm32/static.hpp.in:43; at90_tiny_mega/static.hpp.in:41); `w` is the number of pins of a port. -/
def bit (w pin : Nat) : BitVec w := 1#w <<< pin

/-- `mask(id)` (stm32/set.hpp.in:32-37; at90_tiny_mega/set.hpp.in:35-40). -/
def mask (w : Nat) (gs : List Pin) (id : Nat) : BitVec w :=
  gs.foldr (fun g r => (if g.port = id then bit w g.pin else 0#w) ||| r) 0#w

/-- `inverted(id)` (stm32/set.hpp.in:25-30; at90_tiny_mega/set.hpp.in:28-33). -/
def inverted (w : Nat) (gs : List Pin) (id : Nat) : BitVec w :=
  gs.foldr (fun g r => (if g.port = id ∧ g.inverted = true then bit w g.pin else 0#w) ||| r) 0#w

/-- The statements for all ports with a pin in the set: `if constexpr (mask(id)) ...`. -/
def onPorts {P : Type} (w : Nat) (gs : List Pin) (f : Nat → P → P) (s : Nat → P) : Nat → P :=
  fun id => if mask w gs id = 0#w then s id else f id (s id)

/-- The pins of `GpioSetShim<StartGpio, Width>` (common/port_shim.hpp.in:62-77) in the order of the template; for a
negative `Width` (`reversed`) the start is the highest pin. -/
def portPins (start : Pin) (width : Nat) (reversed : Bool) : List Pin :=
  if reversed then (List.range width).map (fun i => { start with pin := start.pin - i })
  else (List.range width).reverse.map (fun i => { start with pin := start.pin + i })

/-- `StartPin` (stm32/port.hpp.in:37; at90_tiny_mega/port.hpp.in:34). -/
def startPin (start : Pin) (width : Nat) (reversed : Bool) : Nat :=
  if reversed then start.pin + 1 - width else start.pin

/-- `StartPinReversed` (stm32/port.hpp.in:38; at90_tiny_mega/port.hpp.in:35): `int` arithmetic, kept in 8 bits. -/
def startPinReversed (w : Nat) (start : Pin) (width : Nat) (reversed : Bool) : Nat :=
  (((w / 2 : Nat) - (startPin start width reversed : Int) - width + (w / 2 : Nat)) % 256).toNat

/-- `isSet()` and `read()` of `GpioPort` (stm32/port.hpp.in:41-61; at90_tiny_mega/port.hpp.in:38-58); `reg` is the
register of each port, `rev` is `modm::bitReverse`. -/
def portGet {w : Nat} (rev : BitVec w → BitVec w) (start : Pin) (width : Nat) (reversed : Bool)
    (reg : Nat → BitVec w) : BitVec w :=
  let gs := portPins start width reversed
  let r := (reg start.port &&& mask w gs start.port) ^^^ inverted w gs start.port
  if reversed then rev r >>> startPinReversed w start width reversed
  else r >>> startPin start width reversed

/-- `p` in `GpioPort::write` (stm32/port.hpp.in:65-68; at90_tiny_mega/port.hpp.in:62-65). -/
def portData {w : Nat} (rev : BitVec w → BitVec w) (start : Pin) (width : Nat) (reversed : Bool) (data : BitVec w) :
    BitVec w :=
  if reversed then rev (data <<< startPinReversed w start width reversed)
  else data <<< startPin start width reversed

/-- `shift_mask(id, pos)` (stm32/software_port.hpp.in:52-57; at90_tiny_mega/software_port.hpp.in:51-56). -/
def shiftMask (gs : List Pin) (id pos : Nat) : Option Nat :=
  match gs[gs.length - 1 - pos]? with
  | some g => if g.port = id then some g.pin else none
  | none => none

/-- The statements for one port in `isSet()` and `read()` of `SoftwareGpioPort`
(stm32/software_port.hpp.in:68-70, 95-97; at90_tiny_mega/software_port.hpp.in:67-69, 93-95). -/
def softGather {w : Nat} (gs : List Pin) (id : Nat) (p : BitVec w) (n : Nat) (r : BitVec 32) : BitVec 32 :=
  (List.range n).foldl (fun r i =>
    match shiftMask gs id i with
    | some pos => r ||| (((p >>> pos).setWidth 32 &&& 1#32) <<< i)
    | none => r) r

/-- `isSet()` and `read()` of `SoftwareGpioPort` (stm32/software_port.hpp.in:62-74, 89-101;
at90_tiny_mega/software_port.hpp.in:61-73, 87-99) for the devices' ports `ids`; `reg` is the register of each port.
The result has 32 bits here, as many or more than `PortType`. -/
def softGet {w : Nat} (gs : List Pin) (ids : List Nat) (reg : Nat → BitVec w) : BitVec 32 :=
  ids.foldl (fun r id =>
    if mask w gs id = 0#w then r else
      softGather gs id ((reg id &&& mask w gs id) ^^^ inverted w gs id) gs.length r) 0#32

/-- `p` in `SoftwareGpioPort::write`, before it is inverted (stm32/software_port.hpp.in:79-82;
at90_tiny_mega/software_port.hpp.in:78-81). -/
def softData (gs : List Pin) (id : Nat) (data : BitVec 32) : BitVec 32 :=
  (List.range gs.length).foldl (fun p i =>
    match shiftMask gs id i with
    | some pos => p ||| (if data.getLsbD i then 1#32 <<< pos else 1#32 <<< (pos + 16))
    | none => p) 0#32

/-- `mask2(id, value)` and `mask4(id, value)` (stm32/set.hpp.in:38-50): the value in a field of `b` bits for each pin
in the mask. -/
def spread (w b : Nat) (m : BitVec 16) (value : Nat) : BitVec w :=
  (List.range 16).foldl (fun r ii => if m.getLsbD ii then r ||| (BitVec.ofNat w value <<< (ii * b)) else r) 0#w

/-! ### STM32 other than F1 -/

namespace Stm32

/-- The registers of a port. -/
structure Port where
  moder : BitVec 32
  otyper : BitVec 16
  ospeedr : BitVec 32
  pupdr : BitVec 32
  odr : BitVec 16
  deriving DecidableEq

/-- Writing `BSRR`: the upper half resets bits of `ODR`, the lower half sets them and has priority. -/
def writeBsrr (v : BitVec 32) (odr : BitVec 16) : BitVec 16 :=
  (odr &&& ~~~ v.extractLsb' 16 16) ||| v.extractLsb' 0 16

/-- The two registers' halves put together: `(hi << 16) | lo`. -/
def halves (hi lo : BitVec 16) : BitVec 32 := (hi.setWidth 32 <<< 16) ||| lo.setWidth 32

/-- `mask2` (set.hpp.in:38-43). -/
def mask2 (gs : List Pin) (id value : Nat) : BitVec 32 := spread 32 2 (mask 16 gs id) value

/-- `setOutput()` (set.hpp.in:68-77); an interrupt `isr` comes between reading and writing `MODER`. -/
def setOutputI (isr : Port → Port) (gs : List Pin) : (Nat → Port) → Nat → Port :=
  onPorts 16 gs fun id p =>
    let v := p.moder
    { isr p with moder := (v &&& ~~~ mask2 gs id 3) ||| mask2 gs id 1 }

/-- `setOutput()` (set.hpp.in:68-77). -/
def setOutput (gs : List Pin) : (Nat → Port) → Nat → Port := setOutputI id gs

/-- `set()` (set.hpp.in:167-172). -/
def set (gs : List Pin) : (Nat → Port) → Nat → Port :=
  onPorts 16 gs fun id p =>
    { p with odr := writeBsrr (halves (inverted 16 gs id) (mask 16 gs id &&& ~~~ inverted 16 gs id)) p.odr }

/-- `reset()` (set.hpp.in:180-185). -/
def reset (gs : List Pin) : (Nat → Port) → Nat → Port :=
  onPorts 16 gs fun id p =>
    { p with odr := writeBsrr (halves (mask 16 gs id &&& ~~~ inverted 16 gs id) (inverted 16 gs id)) p.odr }

/-- `set(status)` (set.hpp.in:174-178). -/
def setStatus (gs : List Pin) (status : Bool) : (Nat → Port) → Nat → Port :=
  if status then set gs else reset gs

/-- `toggle()` (set.hpp.in:187-196); an interrupt `isr` comes between reading `ODR` and writing `BSRR`. -/
def toggleI (isr : Port → Port) (gs : List Pin) : (Nat → Port) → Nat → Port :=
  onPorts 16 gs fun id p =>
    let areSet := p.odr &&& mask 16 gs id
    let areReset := mask 16 gs id ^^^ areSet
    let p := isr p
    { p with odr := writeBsrr (halves areSet areReset) p.odr }

/-- `toggle()` (set.hpp.in:187-196). -/
def toggle (gs : List Pin) : (Nat → Port) → Nat → Port := toggleI id gs

/-- `configure(OutputType, OutputSpeed)` (set.hpp.in:93-108); `type` is true for open-drain. -/
def configureOutput (gs : List Pin) (type : Bool) (speed : BitVec 2) : (Nat → Port) → Nat → Port :=
  onPorts 16 gs fun id p =>
    { p with
      ospeedr := (p.ospeedr &&& ~~~ mask2 gs id 3) ||| (BitVec.ofNat 32 speed.toNat * mask2 gs id 1)
      otyper := (p.otyper &&& ~~~ mask 16 gs id) ||| (if type then mask 16 gs id else 0#16) }

/-- `setInput()` (set.hpp.in:110-123). -/
def setInput (gs : List Pin) : (Nat → Port) → Nat → Port :=
  onPorts 16 gs fun id p =>
    { p with
      moder := p.moder &&& ~~~ mask2 gs id 3
      otyper := p.otyper &&& ~~~ mask 16 gs id
      ospeedr := p.ospeedr &&& ~~~ mask2 gs id 3 }

/-- `configure(InputType)` (set.hpp.in:150-165). -/
def configureInput (gs : List Pin) (type : BitVec 2) : (Nat → Port) → Nat → Port :=
  onPorts 16 gs fun id p =>
    { p with pupdr := (p.pupdr &&& ~~~ mask2 gs id 3) ||| (BitVec.ofNat 32 type.toNat * mask2 gs id 1) }

/-- `setAnalogInput()` (set.hpp.in:133-148). -/
def setAnalogInput (gs : List Pin) : (Nat → Port) → Nat → Port :=
  onPorts 16 gs fun id p => { p with moder := p.moder ||| mask2 gs id 3 }

/-- The calls for a set of pins. -/
inductive Call where
  | setOutput
  | setOutputStatus (status : Bool)
  | setOutputType (type : Bool) (speed : BitVec 2)
  | configureOutput (type : Bool) (speed : BitVec 2)
  | setInput
  | setInputType (type : BitVec 2)
  | configureInput (type : BitVec 2)
  | setAnalogInput
  | set
  | setStatus (status : Bool)
  | reset
  | toggle
  deriving DecidableEq

/-- A call; `setOutput(status)`, `setOutput(type, speed)` and `setInput(type)` are set.hpp.in:79-83, 85-91 and
125-131. -/
def step (gs : List Pin) (c : Call) (s : Nat → Port) : Nat → Port :=
  match c with
  | .setOutput => setOutput gs s
  | .setOutputStatus status => setOutput gs (setStatus gs status s)
  | .setOutputType type speed => setOutput gs (configureOutput gs type speed s)
  | .configureOutput type speed => configureOutput gs type speed s
  | .setInput => setInput gs s
  | .setInputType type => setInput gs (configureInput gs type s)
  | .configureInput type => configureInput gs type s
  | .setAnalogInput => setAnalogInput gs s
  | .set => set gs s
  | .setStatus status => setStatus gs status s
  | .reset => reset gs s
  | .toggle => toggle gs s

/-- Calls for any sets of pins, one after the other. -/
def run (l : List (List Pin × Call)) (s : Nat → Port) : Nat → Port :=
  l.foldl (fun s c => step c.1 c.2 s) s

/-- `GpioPort::write` (port.hpp.in:63-75). -/
def portWrite (rev : BitVec 16 → BitVec 16) (start : Pin) (width : Nat) (reversed : Bool) (data : BitVec 16) :
    (Nat → Port) → Nat → Port :=
  let gs := portPins start width reversed
  onPorts 16 gs fun id p =>
    let q := portData rev start width reversed data ^^^ inverted 16 gs id
    { p with odr := writeBsrr (halves (~~~ q &&& mask 16 gs id) (q &&& mask 16 gs id)) p.odr }

/-- `SoftwareGpioPort::write` (software_port.hpp.in:76-87). -/
def softWrite (gs : List Pin) (data : BitVec 32) : (Nat → Port) → Nat → Port :=
  onPorts 16 gs fun id p =>
    let q := softData gs id data ^^^ (inverted 16 gs id).setWidth 32
    { p with odr := writeBsrr (((~~~ q &&& (mask 16 gs id).setWidth 32) <<< 16) ||| q) p.odr }

/-- `Gpio::Direction` (src/modm/architecture/interface/gpio.hpp). -/
inductive Direction where
  | input | output | special
  deriving DecidableEq

/-- `GpioStatic::getDirection()` (static.hpp.in:118-135, not F1). -/
def getDirection (port pin : Nat) (s : Nat → Port) : Direction :=
  let mode := (s port).moder &&& (3#32 <<< (pin * 2))
  if mode = 0#32 <<< (pin * 2) then .input
  else if mode = 1#32 <<< (pin * 2) then .output
  else .special

end Stm32

/-! ### STM32F1 -/

namespace F1

/-- The registers of a port. -/
structure Port where
  crl : BitVec 32
  crh : BitVec 32
  odr : BitVec 16
  deriving DecidableEq

/-- `crl(id, value)` (stm32/set.hpp.in:54-56). -/
def crlOf (gs : List Pin) (id value : Nat) : BitVec 32 := (spread 64 4 (mask 16 gs id) value).setWidth 32

/-- `crh(id, value)` (stm32/set.hpp.in:51-53). -/
def crhOf (gs : List Pin) (id value : Nat) : BitVec 32 := (spread 64 4 (mask 16 gs id) value >>> 32).setWidth 32

/-- One of the statements for `CRL` or `CRH`: nothing is written where the set has no pins. -/
def field (all one r : BitVec 32) (value : Nat) : BitVec 32 :=
  if all = 0#32 then r else (r &&& ~~~ all) ||| (BitVec.ofNat 32 value * one)

/-- `configure(OutputType, OutputSpeed)` (stm32/set.hpp.in:93-99); `type` is 0 or, for open-drain, 4, `speed` is 1
(10 MHz), 2 (2 MHz) or 3 (50 MHz). -/
def configureOutput (gs : List Pin) (type speed : BitVec 4) : (Nat → Port) → Nat → Port :=
  onPorts 16 gs fun id p =>
    { p with
      crl := field (crlOf gs id 15) (crlOf gs id 1) p.crl (type ||| speed).toNat
      crh := field (crhOf gs id 15) (crhOf gs id 1) p.crh (type ||| speed).toNat }

/-- `configure(InputType)` (stm32/set.hpp.in:150-157); `type` is 4 (floating), 9 (pull-up) or 8 (pull-down). -/
def configureInput (gs : List Pin) (type : BitVec 4) : (Nat → Port) → Nat → Port :=
  onPorts 16 gs fun id p =>
    { crl := field (crlOf gs id 15) (crlOf gs id 1) p.crl (type &&& 0xc#4).toNat
      crh := field (crhOf gs id 15) (crhOf gs id 1) p.crh (type &&& 0xc#4).toNat
      odr := Stm32.writeBsrr ((mask 16 gs id).setWidth 32 <<< (if type = 9#4 then 0 else 16)) p.odr }

/-- `setAnalogInput()` (stm32/set.hpp.in:133-139). -/
def setAnalogInput (gs : List Pin) : (Nat → Port) → Nat → Port :=
  onPorts 16 gs fun id p => { p with crl := p.crl &&& ~~~ crlOf gs id 15, crh := p.crh &&& ~~~ crhOf gs id 15 }

/-- `set()` (stm32/set.hpp.in:167-172). -/
def set (gs : List Pin) : (Nat → Port) → Nat → Port :=
  onPorts 16 gs fun id p =>
    let v := Stm32.halves (inverted 16 gs id) (mask 16 gs id &&& ~~~ inverted 16 gs id)
    { p with odr := Stm32.writeBsrr v p.odr }

/-- `reset()` (stm32/set.hpp.in:180-185). -/
def reset (gs : List Pin) : (Nat → Port) → Nat → Port :=
  onPorts 16 gs fun id p =>
    let v := Stm32.halves (mask 16 gs id &&& ~~~ inverted 16 gs id) (inverted 16 gs id)
    { p with odr := Stm32.writeBsrr v p.odr }

/-- The calls for a set of pins. -/
inductive Call where
  | setOutput
  | setOutputStatus (status : Bool)
  | configureOutput (type speed : BitVec 4)
  | setInput
  | configureInput (type : BitVec 4)
  | setAnalogInput
  | set
  | reset
  deriving DecidableEq

/-- A call: `setOutput()` is `configure(PushPull)` with 50 MHz (stm32/set.hpp.in:71, 93), `setOutput(status)` is
79-83, `setOutput(type, speed)` is `configure(type, speed)` (85-88), `setInput()` is `configure(Floating)` (113) and
`setInput(type)` is `configure(type)` (125-128). -/
def step (gs : List Pin) (c : Call) (s : Nat → Port) : Nat → Port :=
  match c with
  | .setOutput => configureOutput gs 0#4 3#4 s
  | .setOutputStatus status => configureOutput gs 0#4 3#4 (if status then set gs s else reset gs s)
  | .configureOutput type speed => configureOutput gs type speed s
  | .setInput => configureInput gs 4#4 s
  | .configureInput type => configureInput gs type s
  | .setAnalogInput => setAnalogInput gs s
  | .set => set gs s
  | .reset => reset gs s

/-- `*gcr()` (stm32/static.hpp.in:68-72). -/
def gcr (pin : Nat) (p : Port) : BitVec 32 := if pin < 8 then p.crl else p.crh

/-- `setAlternateFunction()` (stm32/static.hpp.in:83-88). -/
def setAlternateFunction (port pin : Nat) (s : Nat → Port) : Nat → Port := fun id =>
  if id = port then
    let cr := gcr pin (s id)
    if cr &&& (3#32 <<< (pin % 8 * 4)) ≠ 0#32 then
      let v := cr ||| (8#32 <<< (pin % 8 * 4))
      if pin < 8 then { s id with crl := v } else { s id with crh := v }
    else s id
  else s id

/-- `GpioStatic::getDirection()` (stm32/static.hpp.in:118-126). -/
def getDirection (port pin : Nat) (s : Nat → Port) : Stm32.Direction :=
  let mode := gcr pin (s port) &&& (15#32 <<< (pin % 8 * 4))
  if mode = 0#32 ∨ mode > 9#32 <<< (pin % 8 * 4) then .special
  else if mode > 0#32 then .output
  else .input

end F1

/-! ### AVR -/

namespace Avr

/-- The registers of a port; `pue` is there on some devices only. -/
structure Port where
  ddr : BitVec 8
  port : BitVec 8
  pue : BitVec 8
  deriving DecidableEq

/-- `setOutput()` (at90_tiny_mega/set.hpp.in:52-57); `hasPue` tells the devices with `PUE`. -/
def setOutput (hasPue : Bool) (gs : List Pin) : (Nat → Port) → Nat → Port :=
  onPorts 8 gs fun id p =>
    { p with ddr := p.ddr ||| mask 8 gs id, pue := if hasPue then p.pue &&& ~~~ mask 8 gs id else p.pue }

/-- `set()` (at90_tiny_mega/set.hpp.in:101-106); an interrupt `isr` comes between reading and writing `PORT`. -/
def setI (isr : Port → Port) (gs : List Pin) : (Nat → Port) → Nat → Port :=
  onPorts 8 gs fun id p =>
    let v := p.port
    { isr p with port := (v &&& ~~~ mask 8 gs id) ||| (mask 8 gs id ^^^ inverted 8 gs id) }

/-- `set()` (at90_tiny_mega/set.hpp.in:101-106). -/
def set (gs : List Pin) : (Nat → Port) → Nat → Port := setI id gs

/-- `reset()` (at90_tiny_mega/set.hpp.in:114-119). -/
def reset (gs : List Pin) : (Nat → Port) → Nat → Port :=
  onPorts 8 gs fun id p => { p with port := (p.port &&& ~~~ mask 8 gs id) ||| inverted 8 gs id }

/-- `toggle()` (at90_tiny_mega/set.hpp.in:121-126): by writing `PIN`, which toggles the bits of `PORT` written as 1,
or with `^=`. -/
def toggle (gs : List Pin) : (Nat → Port) → Nat → Port :=
  onPorts 8 gs fun id p => { p with port := p.port ^^^ mask 8 gs id }

/-- `setInput()` (at90_tiny_mega/set.hpp.in:75-80). -/
def setInput (gs : List Pin) : (Nat → Port) → Nat → Port :=
  onPorts 8 gs fun id p => { p with ddr := p.ddr &&& ~~~ mask 8 gs id }

/-- `configure(InputType)` (at90_tiny_mega/set.hpp.in:88-99). -/
def configureInput (hasPue : Bool) (gs : List Pin) (pullUp : Bool) : (Nat → Port) → Nat → Port :=
  onPorts 8 gs fun id p =>
    let f (r : BitVec 8) := if pullUp then r ||| mask 8 gs id else r &&& ~~~ mask 8 gs id
    if hasPue then { p with pue := f p.pue } else { p with port := f p.port }

/-- The calls for a set of pins. -/
inductive Call where
  | setOutput
  | setOutputStatus (status : Bool)
  | configureOutput
  | setInput
  | setInputType (pullUp : Bool)
  | configureInput (pullUp : Bool)
  | set
  | reset
  | toggle
  deriving DecidableEq

/-- A call: `setOutput(status)` (59-63), `configure(OutputType)` and `setOutput(OutputType)` (65-73),
`setInput(type)` (82-86). -/
def step (hasPue : Bool) (gs : List Pin) (c : Call) (s : Nat → Port) : Nat → Port :=
  match c with
  | .setOutput => setOutput hasPue gs s
  | .setOutputStatus status => setOutput hasPue gs (if status then set gs s else reset gs s)
  | .configureOutput => setOutput hasPue gs s
  | .setInput => setInput gs s
  | .setInputType pullUp => configureInput hasPue gs pullUp (setInput gs s)
  | .configureInput pullUp => configureInput hasPue gs pullUp s
  | .set => set gs s
  | .reset => reset gs s
  | .toggle => toggle gs s

/-- Calls for any sets of pins, one after the other. -/
def run (hasPue : Bool) (l : List (List Pin × Call)) (s : Nat → Port) : Nat → Port :=
  l.foldl (fun s c => step hasPue c.1 c.2 s) s

/-- `GpioPort::write` (at90_tiny_mega/port.hpp.in:60-69). -/
def portWrite (rev : BitVec 8 → BitVec 8) (start : Pin) (width : Nat) (reversed : Bool) (data : BitVec 8) :
    (Nat → Port) → Nat → Port :=
  let gs := portPins start width reversed
  onPorts 8 gs fun id p =>
    { p with port := (p.port &&& ~~~ mask 8 gs id) |||
        ((portData rev start width reversed data &&& mask 8 gs id) ^^^ inverted 8 gs id) }

/-- `SoftwareGpioPort::write` (at90_tiny_mega/software_port.hpp.in:75-85); `p` is kept in 8 bits. -/
def softWrite (gs : List Pin) (data : BitVec 32) : (Nat → Port) → Nat → Port :=
  onPorts 8 gs fun id p =>
    let q := (softData gs id data).setWidth 8
    { p with port := (p.port &&& ~~~ mask 8 gs id) ||| ((q &&& mask 8 gs id) ^^^ inverted 8 gs id) }

/-- `GpioStatic::getDirection()` (at90_tiny_mega/static.hpp.in:91-92). -/
def getDirection (port pin : Nat) (s : Nat → Port) : Stm32.Direction :=
  if (s port).ddr &&& bit 8 pin ≠ 0#8 then .output else .input

end Avr

end Modm.GpioPins
