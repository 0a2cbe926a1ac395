import Mathlib.Data.Nat.Notation

set_option autoImplicit false

/-!
# Specification for SPI

What is on the other side of the wires: a device with a clock polarity and a clock phase as in every
data sheet.  It is written without looking at the master.

The device counts time in units of half a clock period and notices when a signal is not stable for
such a unit before and after the edge at which it is sampled, or when the clock is too fast (`ok`).
-/

namespace Modm.Spec.Spi

/-- The bit level behaviour of a device: the bit on its output, and what it does with a bit from
its input. -/
structure BitApp (α : Type) where
  out : α → Bool
  clock : Bool → α → α

variable {α β : Type}

/-- The bits a device gives in exchange for some bits, and its state afterwards. -/
def exchangeBits (a : BitApp α) : List Bool → α → List Bool × α
  | [], s => ([], s)
  | b :: bs, s => (a.out s :: (exchangeBits a bs (a.clock b s)).1, (exchangeBits a bs (a.clock b s)).2)

/-- The pins of a device. -/
structure Device (α : Type) where
  app : α
  sck : Bool
  mosi : Bool
  miso : Bool
  /-- the sampled bit -/
  latch : Bool
  now : Nat
  /-- the time of the last edge of the clock -/
  edgeAt : Nat
  /-- the time of the last change of MOSI -/
  mosiAt : Nat
  /-- the last time MISO may have changed -/
  outAt : Nat
  /-- the time MOSI was sampled -/
  sampleAt : Nat
  /-- no timing was violated -/
  ok : Bool

/-- Reading MOSI at an edge: it has to be stable. -/
def Device.sample (d : Device α) : Device α :=
  { d with latch := d.mosi, sampleAt := d.now, ok := d.ok && decide (d.mosiAt < d.now) }

/-- The edge at which MOSI and MISO are sampled and the one at which they change; the clock phase
says which of them is the first. -/
def Device.edge (a : BitApp α) (cpol cpha : Bool) (d : Device α) : Device α :=
  let leading := d.sck == cpol
  let d := { d with sck := !d.sck, edgeAt := d.now, ok := d.ok && decide (d.edgeAt < d.now) }
  if cpha then
    if leading then { d with miso := a.out d.app, outAt := d.now }
    else { d.sample with app := a.clock d.mosi d.app }
  else
    if leading then d.sample
    else { d with app := a.clock d.latch d.app, miso := a.out (a.clock d.latch d.app), outAt := d.now }

def Device.setSck (a : BitApp α) (cpol cpha : Bool) (level : Bool) (d : Device α) : Device α :=
  if level = d.sck then d else d.edge a cpol cpha

/-- Changing MOSI: it has to be held after being sampled. -/
def Device.setMosi (level : Bool) (d : Device α) : Device α :=
  if level = d.mosi then d
  else { d with mosi := level, mosiAt := d.now, ok := d.ok && decide (d.sampleAt < d.now) }

/-- Reading MISO: it has to be valid. -/
def Device.getMiso (d : Device α) : Bool × Device α :=
  (d.miso, { d with ok := d.ok && decide (d.outAt < d.now) })

def Device.tick (d : Device α) : Device α := { d with now := d.now + 1 }

/-- Between two bytes.  With clock phase 0 the first bit is on MISO before the first edge. -/
structure Device.Idle (a : BitApp α) (cpol cpha : Bool) (d : Device α) : Prop where
  sck : d.sck = cpol
  edge : d.edgeAt ≤ d.now
  mosi : d.mosiAt ≤ d.now
  out : d.outAt ≤ d.now
  sample : if cpha then d.sampleAt ≤ d.now else d.sampleAt < d.now
  miso : cpha = false → d.miso = a.out d.app

/-- The bits of a byte in the order in which they are sent. -/
def bitsOf (lsb : Bool) (b : BitVec 8) : List Bool :=
  (List.range 8).map fun i => b.getLsbD (if lsb then i else 7 - i)

/-- An eight bit shift register. -/
def shiftRegister (lsb : Bool) : BitApp (BitVec 8) where
  out r := if lsb then r.getLsbD 0 else r.getLsbD 7
  clock b r := if lsb then (r >>> 1) ||| (if b then 0x80#8 else 0#8)
    else (r <<< 1) ||| (if b then 0x01#8 else 0#8)

/-- The byte level behaviour of a device: the byte it sends next, and what it does with the byte it
gets in exchange. -/
structure ByteApp (β : Type) where
  next : β → BitVec 8
  take : BitVec 8 → β → β

/-- The byte with these bits. -/
def byteOf (lsb : Bool) (bits : List Bool) : BitVec 8 :=
  if lsb then bits.foldr (fun b r => (r <<< 1) ||| (if b then 1#8 else 0#8)) 0#8
  else bits.foldl (fun r b => (r <<< 1) ||| (if b then 1#8 else 0#8)) 0#8

/-- A byte level device that collects the bits. -/
def ByteApp.bits (a : ByteApp β) (lsb : Bool) : BitApp (β × List Bool) where
  out s := (bitsOf lsb (a.next s.1)).getD s.2.length false
  clock b s := if s.2.length = 7 then (a.take (byteOf lsb (s.2 ++ [b])) s.1, []) else (s.1, s.2 ++ [b])

/-- The bytes a device gives in exchange for some bytes, and its state afterwards. -/
def exchangeBytes (a : ByteApp β) : List (BitVec 8) → β → List (BitVec 8) × β
  | [], s => ([], s)
  | b :: bs, s => (a.next s :: (exchangeBytes a bs (a.take b s)).1, (exchangeBytes a bs (a.take b s)).2)

/-! ## The lock -/

/-- A lock that its owner can take several times. -/
structure Owned where
  owner : Option Nat := none
  depth : Nat := 0

/-- Taking the lock gives the depth, or 0 if it is owned by another. -/
def Owned.acquire (c : Nat) (o : Owned) : Nat × Owned :=
  match o.owner with
  | none => (1, ⟨some c, 1⟩)
  | some c' => if c = c' then (o.depth + 1, ⟨some c, o.depth + 1⟩) else (0, o)

/-- Releasing the lock gives the remaining depth. -/
def Owned.release (c : Nat) (o : Owned) : Nat × Owned :=
  if o.owner = some c then
    if o.depth = 1 then (0, ⟨none, 0⟩) else (o.depth - 1, ⟨some c, o.depth - 1⟩)
  else (o.depth, o)

inductive Op
  | acquire (ctx handler : Nat)
  | release (ctx : Nat)

/-- The contexts are objects. -/
def Op.Valid : Op → Prop
  | .acquire c _ => c ≠ 0
  | .release c => c ≠ 0

def Owned.step (o : Owned) : Op → Nat × Owned
  | .acquire c _ => o.acquire c
  | .release c => o.release c

/-- The results of a sequence of calls. -/
def Owned.run (o : Owned) : List Op → List Nat × Owned
  | [] => ([], o)
  | x :: xs => ((o.step x).1 :: ((o.step x).2.run xs).1, ((o.step x).2.run xs).2)

/-- The deepest nesting during a sequence of calls. -/
def Owned.deepest (o : Owned) : List Op → Nat
  | [] => o.depth
  | x :: xs => max o.depth ((o.step x).2.deepest xs)

end Modm.Spec.Spi
