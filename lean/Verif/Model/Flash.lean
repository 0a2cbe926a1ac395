import Verif.Spec.Flash
import Mathlib.Logic.Function.Basic
set_option autoImplicit false

/-!
# Flash memory of STM32

Model of `/repo/src/modm/platform/flash/stm32/flash.cpp.in` and
`flash.hpp.in` (with the parameters of `module.lb`).

Trusted here is the description of the flash controller (`St` and the
functions up to `store`): registers `CR`, `SR`, `AR`, `KEYR`, the layout of the
memory (`Spec.Flash`), operations that take some reads of `SR` to finish and
end with error flags, and flags of `SR` that are cleared by writing a one.
Simplified: an operation either takes effect completely or, if it ends with an
error, not at all; writes to `CR` of a locked or a busy controller are ignored.
Addresses are offsets from `Flash::Origin`.  Not modelled: caches, option
bytes, the clock of the controller (`enable`), F1 with two banks of registers.
-/

namespace Model.Flash

/-- The families `module.lb:22` admits. -/
inductive Fam | f1 | f4 | g0 | g4
  deriving DecidableEq, Repr

/-- A device: its family, `shift` of `module.lb:36-54`, the size of its flash
memory and the width of the field `PNB` of `CR` (G0, G4). -/
structure Dev where
  fam : Fam
  shift : Nat
  size : Nat
  pnb : Nat
  deriving Repr

/-- `has_sectors` of `module.lb:61`. -/
def Dev.sectors (d : Dev) : Bool := d.fam == .f4

/-- `STM32F405` with 1 MiB. -/
def f405 : Dev := ⟨.f4, 17, 0x100000, 0⟩
/-- `STM32F429` with 2 MiB. -/
def f429 : Dev := ⟨.f4, 17, 0x200000, 0⟩
/-- `STM32F103xB`, 128 KiB in pages of 1 KiB. -/
def f103b : Dev := ⟨.f1, 10, 0x20000, 0⟩
/-- `STM32F103xG`, 1 MiB in pages of 2 KiB. -/
def f103g : Dev := ⟨.f1, 11, 0x100000, 0⟩
/-- `STM32G071`, 128 KiB in pages of 2 KiB. -/
def g071 : Dev := ⟨.g0, 11, 0x20000, 6⟩
/-- `STM32G474`, 512 KiB in two banks of pages of 2 KiB. -/
def g474 : Dev := ⟨.g4, 11, 0x80000, 7⟩

/-! ## The functions on addresses -/

/-- `Flash::getPage`, `flash.cpp.in:31-52`; `index` is an `uint8_t`, the result
as well. -/
def getPage (d : Dev) (offset : Nat) : Nat :=
  let index := (offset >>> d.shift) % 256
  if d.sectors then
    let small :=
      if index = 0 ∨ index = 8 then
        (if index = 8 then 4 else 0) +
          (if offset &&& 0x10000 ≠ 0 then 4 else (offset &&& 0xC000) >>> 14)
      else 4
    (index + small) % 256
  else index

/-- `Flash::getOffset`, `flash.cpp.in:54-68` (`uint32_t`). -/
def getOffset (d : Dev) (index : Nat) : Nat :=
  if d.sectors then
    match index with
    | 0 => 1 <<< 14
    | 1 => 2 <<< 14
    | 2 => 3 <<< 14
    | 3 => 4 <<< 14
    | 4 => 1 <<< 16
    | i => (1 <<< d.shift) * (i - 4)
  else (1 <<< d.shift) * index

/-- `Flash::getSize`, `flash.cpp.in:70-78`. -/
def getSize (d : Dev) (index : Nat) : Nat :=
  if d.sectors ∧ index < 4 then 1 <<< 14
  else if d.sectors ∧ index = 5 then 1 <<< 16
  else 1 <<< d.shift

/-! ## The flash controller (trusted) -/

/-- Registers and memory.  `key`: 0 waits for the first key, 1 for the second,
2 is blocked until reset.  `pend` is the operation in progress: the flags and
the memory it ends with; `left` reads of `SR` are to come before it ends. -/
structure St where
  cr : BitVec 32
  sr : BitVec 32
  ar : Nat
  key : Nat
  mem : Nat → BitVec 8
  pend : Option (BitVec 32 × (Nat → BitVec 8))
  left : Nat

/-- What the environment decides about an operation: how long it takes and
with which flags it ends. -/
structure Env where
  polls : Nat
  flags : BitVec 32

/-- The word with bit `n` set. -/
def bit (n : Nat) : BitVec 32 := 1#32 <<< n

/-- Bit `LOCK` of `CR`. -/
def lockBit (d : Dev) : Nat := if d.fam = .f1 then 7 else 31
/-- Bit `STRT` of `CR`. -/
def strtBit (d : Dev) : Nat := if d.fam = .f1 then 6 else 16
/-- Bit `BSY` of `SR` (`busy_bit` of `module.lb:39-53`). -/
def bsyBit (d : Dev) : Nat := if d.fam = .f1 then 0 else 16
/-- Bit `EOP` of `SR`. -/
def eopBit (d : Dev) : Nat := if d.fam = .f1 then 5 else 0
/-- The error flags of `SR`: `PGERR` and `WRPRTERR` of F1, bits 1 to 15
otherwise. -/
def errMask (d : Dev) : BitVec 32 := if d.fam = .f1 then 0x14 else 0xfffe

/-- Sector number of `SNB`: 0 to 11 are the first bank, 16 to 27 the second,
the others are not allowed (RM0090). -/
def snbSector (n : Nat) : Option Nat :=
  if n < 12 then some n else if 16 ≤ n ∧ n < 28 then some (n - 4) else none

/-- The range `[begin, begin + length)` the controller erases: by `AR` (F1), by
`SNB` (F4), by `PNB` of the first bank (G0, G4: `BKER` is never set). -/
def eraseRange (d : Dev) (s : St) : Option (Nat × Nat) :=
  match d.fam with
  | .f1 => some (s.ar / 2 ^ d.shift * 2 ^ d.shift, 2 ^ d.shift)
  | .f4 => (snbSector ((s.cr >>> 3) &&& 0x1f).toNat).map
      fun n => (Spec.Flash.secStart n, Spec.Flash.secLen n)
  | _ => some ((s.cr >>> 3).toNat % 2 ^ d.pnb * 2 ^ d.shift, 2 ^ d.shift)

/-- The memory with a range erased. -/
def fill (r : Option (Nat × Nat)) (m : Nat → BitVec 8) : Nat → BitVec 8 :=
  fun a => match r with
    | some (b, l) => if b ≤ a ∧ a < b + l then 0xFF else m a
    | none => m a

/-- An erase operation begins. -/
def startErase (d : Dev) (e : Env) (s : St) : St :=
  { s with pend := some (e.flags, if e.flags &&& errMask d = 0 then fill (eraseRange d s) s.mem else s.mem), left := e.polls }

/-- `FLASH->CR = v`; bit 1 is `SER` or `PER`. -/
def writeCr (d : Dev) (e : Env) (v : BitVec 32) (s : St) : St :=
  if s.pend.isSome then s
  else if s.cr.getLsbD (lockBit d) then s
  else if v.getLsbD (strtBit d) && v.getLsbD 1 then startErase d e { s with cr := v }
  else { s with cr := v }

/-- `FLASH->SR = v`: the lower half is cleared by writing ones. -/
def writeSr (v : BitVec 32) (s : St) : St := { s with sr := s.sr &&& ~~~(v &&& 0xffff) }

/-- Some time passes: the operation in progress ends at last. -/
def tick (d : Dev) (s : St) : St :=
  match s.pend with
  | none => s
  | some (f, m) =>
    if s.left = 0 then
      { s with pend := none, mem := m, sr := s.sr ||| f, cr := s.cr &&& ~~~bit (strtBit d) }
    else { s with left := s.left - 1 }

/-- Reading `SR`. -/
def readSr (d : Dev) (s : St) : BitVec 32 × St :=
  (if s.pend.isSome then s.sr ||| bit (bsyBit d) else s.sr, tick d s)

/-- Writing `KEYR`. -/
def writeKey (d : Dev) (v : Nat) (s : St) : St :=
  if s.key = 0 ∧ v = 0x45670123 then { s with key := 1 }
  else if s.key = 1 ∧ v = 0xCDEF89AB then { s with key := 0, cr := s.cr &&& ~~~bit (lockBit d) }
  else { s with key := 2 }

/-- The memory with `w` bytes of `data` programmed at `o`: bits only become
zero. -/
def burn (o w data : Nat) (m : Nat → BitVec 8) : Nat → BitVec 8 :=
  fun a => if o ≤ a ∧ a < o + w then m a &&& BitVec.ofNat 8 (data >>> (8 * (a - o))) else m a

/-- Error flags the controller itself raises: `PG` not set, the width of the
access is not `PSIZE` (F4), or the cells are not erased (F1, G0, G4; zero may
always be programmed). -/
def storeErr (d : Dev) (o w data : Nat) (s : St) : BitVec 32 :=
  if s.cr.getLsbD 0 = false then (if d.fam = .f1 then 0x04 else 0x80)
  else if d.fam = .f4 ∧ 2 ^ ((s.cr >>> 8) &&& 3).toNat ≠ w then 0x40
  else if d.fam ≠ .f4 ∧ data ≠ 0 ∧ (List.range w).any (fun k => s.mem (o + k) != 0xFF) then
    (if d.fam = .f1 then 0x04 else 0x08)
  else 0

/-- A store of `w` bytes at offset `o` of the flash memory. -/
def store (d : Dev) (e : Env) (o w data : Nat) (s : St) : St :=
  if s.pend.isSome then s
  else
    let f := e.flags ||| storeErr d o w data s
    { s with pend := some (f, if f &&& errMask d = 0 then burn o w data s.mem else s.mem), left := e.polls }

/-! ## The driver -/

/-- `Flash::isLocked`, `flash.hpp.in:59-61`. -/
def isLocked (d : Dev) (s : St) : Bool := s.cr.getLsbD (lockBit d)

/-- `Flash::unlock`, `flash.cpp.in:19-29`. -/
def unlock (d : Dev) (s : St) : Bool × St :=
  let s := if isLocked d s then writeKey d 0xCDEF89AB (writeKey d 0x45670123 s) else s
  (!isLocked d s, s)

/-- `while(isBusy()) ;` with as many turns as `n`. -/
def waitN (d : Dev) : Nat → St → St
  | 0, s => s
  | n + 1, s =>
    let (v, s') := readSr d s
    if v.getLsbD (bsyBit d) then waitN d n s' else s'

/-- `while(isBusy()) ;`, `flash.hpp.in:63-65`: the operation ends after `left`
more reads, so that the loop ends after two more. -/
def wait (d : Dev) (s : St) : St := waitN d (s.left + 2) s

/-- `WordSize` of `flash.hpp.in:33-39`: the bits of `CR` and the width of the
access. -/
inductive WordSize | b8 | b16 | b32
  deriving DecidableEq, Repr

/-- Value of a `WordSize`. -/
def WordSize.bits : WordSize → BitVec 32
  | .b8 => 0
  | .b16 => 0x100
  | .b32 => 0x200

/-- Bytes stored by `program`, `flash.cpp.in:127-138`. -/
def WordSize.bytes : WordSize → Nat
  | .b8 => 1
  | .b16 => 2
  | .b32 => 4

/-- `FLASH_CR_SNB_Msk` of F4: four bits, five with two banks. -/
def snbMask (d : Dev) : BitVec 32 := if d.size > 0x100000 then 0xF8 else 0x78

/-- `FLASH_CR_PNB_Msk` of G0 and G4. -/
def pnbMask (d : Dev) : BitVec 32 := BitVec.ofNat 32 ((2 ^ d.pnb - 1) * 8)

/-- `Flash::erase`, `flash.cpp.in:80-114`. -/
def erase (d : Dev) (e : Env) (index : Nat) (size : WordSize) (s : St) : BitVec 32 × St :=
  match d.fam with
  | .f1 =>
    let s := writeCr d e (s.cr &&& ~~~bit 6) s
    let s := writeCr d e (s.cr ||| 2) s
    let s := { s with ar := getOffset d index }
    let s := writeCr d e (s.cr ||| bit 6) s
    let s := wait d s
    let s := writeCr d e (s.cr &&& ~~~2) s
    let (v, s) := readSr d s
    (v &&& 0x04, s)
  | .f4 =>
    let s := writeSr 0xfffe s
    let s := writeCr d e (bit 16 ||| 2 ||| size.bits ||| ((BitVec.ofNat 32 index <<< 3) &&& snbMask d)) s
    let s := wait d s
    let s := writeCr d e 0 s
    let (v, s) := readSr d s
    (v &&& 0xfffe, s)
  | _ =>
    let s := writeSr 0xfffe s
    let s := writeCr d e (bit 16 ||| 2 ||| ((BitVec.ofNat 32 index <<< 3) &&& pnbMask d)) s
    let s := wait d s
    let s := writeCr d e 0 s
    let (v, s) := readSr d s
    (v &&& 0xfffe, s)

/-- Bytes a store of `program` writes: a `uint16_t` (F1), what `size` says (F4),
a `uint64_t` (G0, G4). -/
def width (d : Dev) (size : WordSize) : Nat :=
  match d.fam with
  | .f1 => 2
  | .f4 => size.bytes
  | _ => 8

/-- `Flash::program`, `flash.cpp.in:116-161`; `addr` as offset. -/
def program (d : Dev) (e : Env) (addr data : Nat) (size : WordSize) (s : St) : BitVec 32 × St :=
  match d.fam with
  | .f1 =>
    let s := wait d s
    let s := writeCr d e (s.cr ||| 1) s
    let s := store d e addr 2 data s
    let s := wait d s
    let s := writeCr d e (s.cr &&& ~~~1) s
    let (v, s) := readSr d s
    (v &&& 0x04, s)
  | .f4 =>
    let s := writeSr 0xfffe s
    let s := writeCr d e (1 ||| size.bits) s
    let s := store d e addr size.bytes data s
    let s := wait d s
    let (v, s) := readSr d s
    let s := writeSr (v ||| 1) s
    let s := writeCr d e 0 s
    let (v, s) := readSr d s
    (v &&& 0xfffe, s)
  | _ =>
    let s := writeSr 0xfffe s
    let s := writeCr d e 1 s
    let s := store d e addr 8 data s
    let s := wait d s
    let (v, s) := readSr d s
    let s := writeSr (v ||| 1) s
    let s := writeCr d e 0 s
    let (v, s) := readSr d s
    (v &&& 0xfffe, s)

/-- The controller after reset: locked and idle. -/
def reset (d : Dev) (m : Nat → BitVec 8) : St := ⟨bit (lockBit d), 0, 0, 0, m, none, 0⟩

end Model.Flash
