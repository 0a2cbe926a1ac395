import Mathlib.Data.Nat.Notation

set_option autoImplicit false

/-!
# Specification for I2C

The other side of the bus, as in the specification of the I2C bus (NXP UM10204): the bus is a wired
AND; SDA changing while SCL is high is a START or STOP condition; a device samples SDA when SCL
rises, changes its output after SCL falls, acknowledges by pulling SDA low in the ninth clock, and
may hold SCL low for some time after each falling edge.

A device is described by what it does with the bytes (`App`); it may stand for all devices on the bus,
as at most one of them answers to an address.
-/

namespace Modm.Spec.I2c

/-- What the devices do at the level of bytes. -/
structure App (α : Type) where
  /-- a START condition -/
  start : α → α
  /-- the address and the direction; acknowledge or not -/
  address : BitVec 8 → α → Bool × α
  /-- a byte is written; acknowledge or not -/
  write : BitVec 8 → α → Bool × α
  /-- a byte is to be sent -/
  read : α → BitVec 8 × α
  /-- the byte sent was acknowledged or not -/
  acked : Bool → α → α
  /-- a STOP condition -/
  stop : α → α

inductive Phase
  /-- not addressed -/
  | idle
  /-- receiving: the address, or data; the bits so far -/
  | recv (address : Bool) (bits : List Bool)
  /-- acknowledging; will be sending next or not -/
  | ackOut (sending : Bool)
  /-- sending; the bits after the current one -/
  | send (bits : List Bool)
  /-- waiting for an acknowledge, or having sampled it -/
  | ackIn (bit : Option Bool)
deriving DecidableEq

structure Bus (α : Type) where
  app : α
  phase : Phase
  /-- what the master does with the lines: `false` pulls -/
  mscl : Bool
  msda : Bool
  /-- what the devices do with SDA -/
  ssda : Bool
  /-- how long the devices still pull SCL, in quarters of a clock period -/
  hold : Nat
  /-- how long the devices are going to pull SCL after the falling edges to come -/
  stretch : Nat → Nat

variable {α : Type}

def Bus.scl (b : Bus α) : Bool := b.mscl && decide (b.hold = 0)
def Bus.sda (b : Bus α) : Bool := b.msda && b.ssda

/-- The bits of a byte, in the order on the bus. -/
def bitsOf (b : BitVec 8) : List Bool := (List.range 8).map fun i => b.getLsbD (7 - i)

/-- The byte with these bits. -/
def byteOf (bits : List Bool) : BitVec 8 :=
  bits.foldl (fun r b => (r <<< 1) ||| (if b then 1#8 else 0#8)) 0#8

/-- SCL rises. -/
def Bus.rise (b : Bus α) : Bus α :=
  match b.phase with
  | .recv a bits => { b with phase := .recv a (bits ++ [b.sda]) }
  | .ackIn _ => { b with phase := .ackIn (some b.sda) }
  | _ => b

/-- The devices begin to send a byte. -/
def Bus.sendByte (A : App α) (b : Bus α) : Bus α :=
  { b with app := (A.read b.app).2, phase := .send ((bitsOf (A.read b.app).1).drop 1),
           ssda := (bitsOf (A.read b.app).1).headD true }

/-- The reaction of the devices to a falling edge of SCL. -/
def Bus.react (A : App α) (b : Bus α) : Bus α :=
  match b.phase with
  | .idle => b
  | .recv addr bits =>
    if bits.length = 8 then
      let r := if addr then A.address (byteOf bits) b.app else A.write (byteOf bits) b.app
      if r.1 then { b with app := r.2, phase := .ackOut (addr && (byteOf bits).getLsbD 0), ssda := false }
      else { b with app := r.2, phase := .idle, ssda := true }
    else b
  | .ackOut true => b.sendByte A
  | .ackOut false => { b with phase := .recv false [], ssda := true }
  | .send (x :: bits) => { b with phase := .send bits, ssda := x }
  | .send [] => { b with phase := .ackIn none, ssda := true }
  | .ackIn none => b
  | .ackIn (some nack) =>
    let b := { b with app := A.acked (!nack) b.app }
    if nack then { b with phase := .idle, ssda := true } else b.sendByte A

/-- SCL falls. -/
def Bus.fall (A : App α) (b : Bus α) : Bus α :=
  let b := b.react A
  { b with hold := b.stretch 0, stretch := fun i => b.stretch (i + 1) }

/-- The master pulls or releases SCL. -/
def Bus.setScl (A : App α) (level : Bool) (b : Bus α) : Bus α :=
  let b' := { b with mscl := level }
  if b.scl = b'.scl then b' else if b.scl then b'.fall A else b'.rise

/-- The master pulls or releases SDA. -/
def Bus.setSda (A : App α) (level : Bool) (b : Bus α) : Bus α :=
  let b' := { b with msda := level }
  if b.scl = false ∨ b.sda = b'.sda then b'
  else if b.sda then { b' with app := A.start b.app, phase := .recv true [] }
  else { b' with app := A.stop b.app, phase := .idle }

/-- Time passes. -/
def Bus.wait (n : Nat) (b : Bus α) : Bus α :=
  let b' := { b with hold := b.hold - n }
  if b.scl = b'.scl then b' else b'.rise

/-- Nobody pulls a line. -/
structure Bus.Free (b : Bus α) (s : α) : Prop where
  app : b.app = s
  phase : b.phase = .idle
  mscl : b.mscl = true
  msda : b.msda = true
  ssda : b.ssda = true
  hold : b.hold = 0

/-! ## Transfers -/

/-- What a master can do. -/
inductive Step
  | start (address : BitVec 8)
  | write (b : BitVec 8)
  | read (ack : Bool)
  | stop
deriving DecidableEq

inductive Outcome
  | done | addressNack | dataNack
deriving DecidableEq

/-- A sequence of steps: the outcome, the bytes read, and the state of the devices.  When a byte
is not acknowledged, the transfer ends with a STOP condition. -/
def exec (A : App α) : List Step → α → Outcome × List (BitVec 8) × α
  | [], s => (.done, [], s)
  | .start a :: r, s =>
    let x := A.address a (A.start s)
    if x.1 then exec A r x.2 else (.addressNack, [], A.stop x.2)
  | .write b :: r, s =>
    let x := A.write b s
    if x.1 then exec A r x.2 else (.dataNack, [], A.stop x.2)
  | .read ack :: r, s =>
    let x := A.read s
    let y := exec A r (A.acked ack x.2)
    (y.1, x.1 :: y.2.1, y.2.2)
  | .stop :: r, s => exec A r (A.stop s)

/-- The reading of `n` bytes: all but the last one are acknowledged. -/
def reads (n : Nat) : List Step := List.replicate (n - 1) (.read true) ++ [.read false]

/-- The transfer asked for by `configureWriteRead`: the bytes to write, the number of bytes to read. -/
def transfer (address : BitVec 8) (bytes : List (BitVec 8)) (n : Nat) : List Step :=
  (if bytes ≠ [] ∨ n = 0 then .start (address <<< 1) :: bytes.map .write else []) ++
  (if n ≠ 0 then .start (address <<< 1 ||| 1#8) :: reads n else []) ++ [.stop]

/-- The memory after storing bytes from address `p` on. -/
def stored (mem : Nat → BitVec 8) (p : Nat) (bytes : List (BitVec 8)) : Nat → BitVec 8 :=
  fun a => if p ≤ a then bytes.getD (a - p) (mem a) else mem a

/-! ## Timing -/

/-- What can be seen of the master on its pins: when it last pulled SCL, when SCL was high after it
was released, when SDA was changed. -/
structure Clock where
  now : Nat
  lowAt : Nat
  /-- SCL was seen high since its release -/
  seen : Bool
  highAt : Nat
  sdaAt : Nat
  mscl : Bool
  msda : Bool
  /-- SCL was low and high for half a period at least, SDA stable for half a period before SCL was
  released, and not changed before SCL was pulled again -/
  ok : Bool

/-- The level of SCL is looked at. -/
def Clock.observe (level : Bool) (c : Clock) : Clock :=
  if level && c.mscl && !c.seen then { c with seen := true, highAt := c.now } else c

def Clock.setScl (level : Bool) (c : Clock) : Clock :=
  if level = c.mscl then c
  else if level then
    { c with mscl := true, seen := false,
             ok := c.ok && decide (c.lowAt + 2 ≤ c.now) && decide (c.sdaAt + 2 ≤ c.now) }
  else { c with mscl := false, lowAt := c.now, ok := c.ok && c.seen && decide (c.highAt + 2 ≤ c.now) }

def Clock.setSda (level : Bool) (c : Clock) : Clock :=
  if level = c.msda then c
  else { c with msda := level, sdaAt := c.now, ok := c.ok && !c.mscl }

def Clock.wait (n : Nat) (c : Clock) : Clock := { c with now := c.now + n }

end Modm.Spec.I2c
