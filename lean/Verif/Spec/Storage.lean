import Verif.Model.Storage

set_option autoImplicit false

/-!
# What a block device is, and the memory chips

The chips follow their data sheets (W25Q and SST26 families): commands are ignored while the chip is
busy; programming and erasing need the write enable latch, which they reset; programming can only
clear bits and wraps around at the end of its page.  How long the chip is busy is not known: the
number of status reads until it is ready is given by an arbitrary sequence.
-/

namespace Modm.Spec.Storage

open Modm.Storage (Byte Device Stack)

/-! ## The ideal device: an array of bytes -/

/-- The bytes from `address` on. -/
def load (mem : Nat → Byte) (address size : Nat) : List Byte :=
  (List.range size).map (fun i => mem (address + i))

/-- The memory with other bytes from `address` on. -/
def store (mem : Nat → Byte) (address : Nat) (bytes : List Byte) : Nat → Byte :=
  fun x => if address ≤ x ∧ x < address + bytes.length then bytes.getD (x - address) 0 else mem x

/-- The request is within a device of `n` bytes. -/
def Within (n address size : Nat) : Prop := 0 < size ∧ address + size ≤ n

/-- The device works like an array of `n` bytes for the requests that fulfil `ok`: `read` gives the
bytes, `write` replaces them and nothing else.  `inv` is the invariant of the driver. -/
structure Works {σ : Type} (dev : Device σ) (inv : σ → Prop) (view : σ → Nat → Byte) (n : Nat)
    (okRead okWrite : Nat → Nat → Prop) : Prop where
  read : ∀ s address size, inv s → Within n address size → okRead address size →
    ∃ s', dev.read address size s = some (true, load (view s) address size, s') ∧ inv s' ∧
      ∀ x < n, view s' x = view s x
  write : ∀ s buffer address size, inv s → Within n address size → okWrite address size →
    size ≤ buffer.length →
    ∃ s', dev.write buffer address size s = some (true, s') ∧ inv s' ∧
      ∀ x < n, view s' x = store (view s) address (buffer.take size) x

/-- The device refuses the request: the functions return `false` and nothing changes. -/
def Refuses {σ : Type} (dev : Device σ) (s : σ) (address size : Nat) : Prop :=
  dev.read address size s = some (false, [], s) ∧ dev.erase address size s = some (false, s) ∧
    ∀ buffer, size ≤ buffer.length →
      dev.program buffer address size s = some (false, s) ∧
        dev.write buffer address size s = some (false, s)

/-! ## A serial flash chip -/

structure Chip where
  size : Nat
  mem : Nat → Byte
  /-- write enable latch -/
  wel : Bool
  /-- all blocks are write protected -/
  locked : Bool
  /-- four byte addresses -/
  wide : Bool
  /-- the command 66h was the last one -/
  armed : Bool
  /-- status reads until the chip is ready -/
  busy : Nat
  /-- how long the next operations take -/
  delays : Nat → Nat
  /-- unlocking resets the write enable latch (depends on the family) -/
  unlockResets : Bool

/-- The chip starts an operation that takes time. -/
def Chip.start (c : Chip) : Chip :=
  { c with wel := false, busy := c.delays 0, delays := fun i => c.delays (i + 1) }

/-- The status register: bit 0 busy, bit 1 write enable latch. -/
def Chip.status (c : Chip) : Byte :=
  (if 0 < c.busy then 1 else 0) ||| (if c.wel then 2 else 0)

/-- The address after the command, and the bytes behind it. -/
def Chip.address (c : Chip) (bytes : List Byte) : Option (Nat × List Byte) :=
  if c.wide then
    match bytes with
    | a :: b :: d :: e :: rest =>
      some ((((a.toNat * 256 + b.toNat) * 256 + d.toNat) * 256 + e.toNat) % c.size, rest)
    | _ => none
  else
    match bytes with
    | a :: b :: d :: rest => some (((a.toNat * 256 + b.toNat) * 256 + d.toNat) % c.size, rest)
    | _ => none

/-- The page buffer: bytes are written from offset `off` on, back to the beginning after the end. -/
def pageBuffer (off : Nat) (data : List Byte) : Nat → Byte :=
  (data.zipIdx).foldl (fun b d => Function.update b ((off + d.2) % 256) d.1) (fun _ => 255)

/-- Page program. -/
def Chip.program (c : Chip) (a : Nat) (data : List Byte) : Chip :=
  if c.wel && !c.locked then
    { c with mem := fun x => if x / 256 = a / 256 then c.mem x &&& pageBuffer (a % 256) data (x % 256) else c.mem x }.start
  else c

/-- Sector erase, 4096 bytes. -/
def Chip.eraseSector (c : Chip) (a : Nat) : Chip :=
  if c.wel && !c.locked then
    { c with mem := fun x => if x / 4096 = a / 4096 then 255 else c.mem x }.start
  else c

/-- Chip erase. -/
def Chip.eraseAll (c : Chip) : Chip :=
  if c.wel && !c.locked then { c with mem := fun _ => 255 }.start else c

/-- Unlock all blocks. -/
def Chip.unlock (c : Chip) : Chip :=
  if c.wel then { c with locked := false, wel := !c.unlockResets } else c

/-- Software reset, after 66h. -/
def Chip.reset (c : Chip) : Chip :=
  if c.armed then { c with locked := true, wide := false, armed := false }.start else c

/-- One command that is not a status read, to a chip that is ready. -/
def Chip.command (c : Chip) (cmd : Byte) (bytes : List Byte) : List Byte × Chip :=
  if cmd = 0x66 then (bytes, { c with armed := true })
  else if cmd = 0x99 then (bytes, c.reset)
  else
    let c := { c with armed := false }
    if cmd = 0x06 then (bytes, { c with wel := true })
    else if cmd = 0x98 then (bytes, c.unlock)
    else if cmd = 0xB7 then (bytes, { c with wide := true })
    else if cmd = 0xC7 then (bytes, c.eraseAll)
    else
      match c.address bytes with
      | none => (bytes, c)
      | some (a, rest) =>
        if cmd = 0x02 then (bytes, c.program a rest)
        else if cmd = 0x20 then (bytes, c.eraseSector a)
        else if cmd = 0x0B then
          (bytes.take (bytes.length - rest.length + 1) ++
            (List.range (rest.length - 1)).map (fun i => c.mem ((a + i) % c.size)), c)
        else (bytes, c)

/-- One frame: the answer has as many bytes as the frame (those while the chip is not sending are
not defined, here they repeat the frame). -/
def Chip.frame (frame : List Byte) (c : Chip) : List Byte × Chip :=
  match frame with
  | [] => ([], c)
  | cmd :: bytes =>
    if cmd = 0x05 then (cmd :: bytes.map (fun _ => c.status), { c with busy := c.busy - 1 })
    else if 0 < c.busy then (cmd :: bytes, c)
    else (cmd :: (c.command cmd bytes).1, (c.command cmd bytes).2)

/-- The chip is ready for the driver of a flash of `n` bytes: unlocked, addresses of the right width,
never busy for more than `bound` status reads. -/
structure Ready (n bound : Nat) (c : Chip) : Prop where
  size : c.size = n
  locked : c.locked = false
  wide : c.wide = decide (16777216 < n)
  busy : c.busy < bound
  delays : ∀ i, c.delays i < bound

/-- The chip may be locked and in any address mode it supports. -/
structure Alive (n bound : Nat) (c : Chip) : Prop where
  size : c.size = n
  wide : c.wide = true → 16777216 < n
  busy : c.busy < bound
  delays : ∀ i, c.delays i < bound

/-! ## A stack of dies on one chip select -/

structure Dies where
  chip : Nat → Chip
  sel : Nat

/-- The command C2h selects a die, all others go to the selected one. -/
def Dies.frame (frame : List Byte) (s : Dies) : List Byte × Dies :=
  match frame with
  | [0xC2, d] => (frame, { s with sel := d.toNat })
  | _ =>
    (((s.chip s.sel).frame frame).1,
      { s with chip := Function.update s.chip s.sel ((s.chip s.sel).frame frame).2 })

/-- The memory of the stack: one die after the other. -/
def Dies.view (dieSize : Nat) (s : Dies) (x : Nat) : Byte := (s.chip (x / dieSize)).mem (x % dieSize)

end Modm.Spec.Storage
