set_option autoImplicit false

/-!
Model of the encoder drivers (src/modm/driver/encoder): `BitBangEncoderInput`, `BitBangEncoderOutput`,
`EncoderInput` and the parity of the AS5047.

Simplifications: the pins are two bits, the timer of the output is a tick per call of `update` that has
an effect, the counter of the hardware timer is a value passed in; `PositionType` is unbounded.
-/

namespace Modm.Encoder

/-- The levels of the two pins. -/
structure Pins where
  a : Bool
  b : Bool
  deriving DecidableEq, Repr

/-! ## BitBangEncoderInput -/

/-- `SoftwareGpioPort<SignalA, SignalB>::read()`: the first pin is the more significant bit. -/
def readPins (p : Pins) : BitVec 8 := (if p.a then 2 else 0) ||| (if p.b then 1 else 0)

/-- bitbang_encoder_input_impl.hpp:18-28 -/
def getRaw (p : Pins) : BitVec 8 :=
  let read := readPins p
  let raw : BitVec 8 := if read &&& 0b10 ≠ 0 then 3 else 0
  if read &&& 0b01 ≠ 0 then raw ^^^ 1 else raw

/-- bitbang_encoder_input.hpp: `raw_last` and `delta`, a `DeltaType` of `w` bits. -/
structure Input (w : Nat) where
  rawLast : BitVec 8
  delta : BitVec w
  deriving DecidableEq, Repr

/-- bitbang_encoder_input_impl.hpp:30-41 -/
def Input.init {w : Nat} (p : Pins) : Input w := ⟨getRaw p, 0⟩

/-- bitbang_encoder_input_impl.hpp:43-55; `(diff & 0b10) - 1` is an `int`, converted to `DeltaType`. -/
def Input.update {w : Nat} (s : Input w) (p : Pins) : Input w :=
  let raw := getRaw p
  let diff := s.rawLast - raw
  if diff &&& 0b01 ≠ 0 then
    ⟨raw, s.delta + BitVec.ofInt w ((diff &&& 0b10).toNat - 1)⟩
  else s

/-- bitbang_encoder_input_impl.hpp:57-66 for a `PRESCALER` of `2 ^ k`: what is left and what is
returned. -/
def Input.getDelta {w : Nat} (k : Nat) (s : Input w) : Input w × BitVec w :=
  (⟨s.rawLast, s.delta &&& BitVec.ofNat w (2 ^ k - 1)⟩, s.delta.sshiftRight k)

/-! ## BitBangEncoderOutput -/

inductive State where
  | state0 | state1 | state2 | state3
  deriving DecidableEq, Repr

structure Output where
  setpoint : Int
  actual : Int
  state : State
  pins : Pins
  deriving DecidableEq, Repr

/-- bitbang_encoder_output_impl.hpp:18-29 -/
def Output.init (initial : Int) : Output := ⟨initial, initial, .state0, ⟨true, true⟩⟩

/-- bitbang_encoder_output.hpp:61-65 -/
def Output.setPosition (o : Output) (position : Int) : Output := { o with setpoint := position }

/-- bitbang_encoder_output_impl.hpp:40-58 -/
def forward (o : Output) : Output :=
  match o.state with
  | .state0 => { o with pins := { o.pins with a := false }, state := .state1, actual := o.actual + 1 }
  | .state1 => { o with pins := { o.pins with b := false }, state := .state2, actual := o.actual + 1 }
  | .state2 => { o with pins := { o.pins with a := true }, state := .state3, actual := o.actual + 1 }
  | .state3 => { o with pins := { o.pins with b := true }, state := .state0, actual := o.actual + 1 }

/-- bitbang_encoder_output_impl.hpp:62-81 -/
def backward (o : Output) : Output :=
  match o.state with
  | .state0 => { o with pins := { o.pins with b := false }, state := .state3, actual := o.actual - 1 }
  | .state1 => { o with pins := { o.pins with a := false }, state := .state0, actual := o.actual - 1 }
  | .state2 => { o with pins := { o.pins with b := true }, state := .state1, actual := o.actual - 1 }
  | .state3 => { o with pins := { o.pins with a := true }, state := .state2, actual := o.actual - 1 }

/-- `update` when the timer has expired, bitbang_encoder_output_impl.hpp:31-85 -/
def Output.tick (o : Output) : Output :=
  if o.setpoint > o.actual then forward o
  else if o.setpoint < o.actual then backward o
  else o

/-! ## EncoderInput -/

/-- `getDelta`, encoder_input.hpp:64-72: `current - last` is an `int`, converted to the `DeltaType` of `w`
bits. -/
def timerDelta (w : Nat) (last current : BitVec 16) : BitVec w :=
  BitVec.ofInt w ((current.toNat : Int) - last.toNat)

/-! ## AS5047 -/

/-- `as5047_setMsbToEvenParity`, as5047.hpp:30-40 -/
def evenParity (num : BitVec 16) : BitVec 16 :=
  let par := 0x7fff &&& num
  let par := par ^^^ (par >>> 8)
  let par := par ^^^ (par >>> 4)
  let par := par ^^^ (par >>> 2)
  let par := par ^^^ (par >>> 1)
  ((par &&& 1) <<< 15) ||| (0x7fff &&& num)

end Modm.Encoder
