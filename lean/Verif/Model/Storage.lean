import Mathlib.Logic.Function.Basic

set_option autoImplicit false

/-!
# Block devices

Model of the block devices in `src/modm/driver/storage`: `BdHeap`, `BdFile`, `BdMirror`, `BdSpiFlash`
and `BdSpiStackFlash`.

The functions are resumable functions; they are written here as sequential programs, which is what
C96 (`Verif.Props.Resumable`) justifies: `RF_CALL(x)` becomes the call of `x`.  Where the macro
makes a difference (an argument with a side effect), this is modelled explicitly (`stackIsBusy`).

`none` stands for undefined behaviour (an access outside of an array) and for loops that take longer
than the given bound.  A device is a value of its state type, its operations are collected in
`Device`.  Addresses and sizes are `uint32_t` (`src/modm/architecture/interface/block_device.hpp:37`),
`u32` is the reduction after an addition.

The SPI bus is a function that takes one frame (the bytes written while chip select is low) and
gives the bytes read in the meantime.  Acquiring and releasing the bus is left out.
-/

namespace Modm.Storage

abbrev Byte := BitVec 8

/-- The result of an addition of two `uint32_t`. -/
def u32 (x : Nat) : Nat := x % 4294967296

/-- The bytes of memory from `address` on. -/
def copyFrom (data : Nat → Byte) (address size : Nat) : List Byte :=
  (List.range size).map (fun i => data (address + i))

/-- `memcpy(&data[address], bytes, …)`. -/
def copyTo (data : Nat → Byte) (address : Nat) (bytes : List Byte) : Nat → Byte :=
  fun x => if address ≤ x ∧ x < address + bytes.length then bytes.getD (x - address) 0 else data x

/-- What the block devices have in common, `src/modm/architecture/interface/block_device.hpp:40-93`.
`read` gives the bytes stored in the buffer of the caller. -/
structure Device (σ : Type) where
  read : Nat → Nat → σ → Option (Bool × List Byte × σ)
  program : List Byte → Nat → Nat → σ → Option (Bool × σ)
  erase : Nat → Nat → σ → Option (Bool × σ)
  write : List Byte → Nat → Nat → σ → Option (Bool × σ)

/-! ## `BdHeap` -/

/-- The condition on which a request is refused, `block_device_heap_impl.hpp:57` and others:
`(size == 0) || (size % block != 0) || (address + size > limit)`. -/
def refused (block limit address size : Nat) : Bool :=
  decide (size = 0) || decide (size % block ≠ 0) || decide (limit < u32 (address + size))

/-- `block_device_heap_impl.hpp:53`. -/
def heapRead (n : Nat) (address size : Nat) (data : Nat → Byte) :
    Option (Bool × List Byte × (Nat → Byte)) :=
  if refused 1 n address size then some (false, [], data)
  else if address + size ≤ n then some (true, copyFrom data address size, data)
  else none

/-- `block_device_heap_impl.hpp:70`. -/
def heapProgram (n : Nat) (buffer : List Byte) (address size : Nat) (data : Nat → Byte) :
    Option (Bool × (Nat → Byte)) :=
  if refused 1 n address size then some (false, data)
  else if address + size ≤ n ∧ size ≤ buffer.length then
    some (true, copyTo data address (buffer.take size))
  else none

/-- `block_device_heap_impl.hpp:87`. -/
def heapErase (n : Nat) (address size : Nat) (data : Nat → Byte) : Option (Bool × (Nat → Byte)) :=
  if refused 1 n address size then some (false, data) else some (true, data)

/-- The common form of the functions `write`: `block_device_heap_impl.hpp:103`,
`block_device_file_impl.hpp:107`, `block_device_spiflash_impl.hpp:142`,
`block_device_spistack_flash_impl.hpp:131`. -/
def eraseProgram {σ : Type} (blockErase blockWrite limit : Nat)
    (erase : Nat → Nat → σ → Option (Bool × σ))
    (program : List Byte → Nat → Nat → σ → Option (Bool × σ))
    (buffer : List Byte) (address size : Nat) (s : σ) : Option (Bool × σ) :=
  if refused blockErase limit address size || refused blockWrite limit address size then
    some (false, s)
  else
    match erase address size s with
    | none => none
    | some (false, s') => some (false, s')
    | some (true, s') => program buffer address size s'

def heap (n : Nat) : Device (Nat → Byte) where
  read := heapRead n
  program := heapProgram n
  erase := heapErase n
  write := eraseProgram 1 1 n (heapErase n) (heapProgram n)

/-- `block_device_heap_impl.hpp:22` (`memset`). -/
def heapInit : Nat → Byte := fun _ => 0

/-! ## `BdFile`

The file has a content and the stream a fail bit.  `seekg` and `seekp` behind the end of the file
succeed, a `read` that does not get all bytes sets the fail bit, with which nothing succeeds any
more; a `write` behind the end makes the file longer. -/

structure File where
  content : List Byte
  failed : Bool
  deriving DecidableEq

/-- `file.seekp(address); file.write(bytes)` on the content. -/
def overwrite (content : List Byte) (address : Nat) (bytes : List Byte) : List Byte :=
  (content.take address ++ List.replicate (address - content.length) 0) ++
    bytes ++ content.drop (address + bytes.length)

/-- `block_device_file_impl.hpp:21`, for a file that exists. -/
def fileInit (n : Nat) (content : List Byte) : Bool × File :=
  if content.length ≠ n then
    if content.length = 0 then (true, ⟨List.replicate n 0, false⟩) else (false, ⟨content, false⟩)
  else (true, ⟨content, false⟩)

/-- `block_device_file_impl.hpp:55`. -/
def fileRead (n : Nat) (address size : Nat) (f : File) : Option (Bool × List Byte × File) :=
  if refused 1 n address size then some (false, [], f)
  else if f.failed then some (true, [], f)
  else
    some (true, (f.content.drop address).take size,
      { f with failed := decide (((f.content.drop address).take size).length < size) })

/-- `block_device_file_impl.hpp:73`. -/
def fileProgram (n : Nat) (buffer : List Byte) (address size : Nat) (f : File) :
    Option (Bool × File) :=
  if refused 1 n address size then some (false, f)
  else if buffer.length < size then none
  else if f.failed then some (true, f)
  else some (true, { f with content := overwrite f.content address (buffer.take size) })

/-- `block_device_file_impl.hpp:91`. -/
def fileErase (n : Nat) (address size : Nat) (f : File) : Option (Bool × File) :=
  if refused 1 n address size then some (false, f) else some (true, f)

def file (n : Nat) : Device File where
  read := fileRead n
  program := fileProgram n
  erase := fileErase n
  write := eraseProgram 1 1 n (fileErase n) (fileProgram n)

/-! ## `BdMirror` -/

/-- The common form of `program`, `erase` and `write`, `block_device_mirror_impl.hpp:56-104`: both
devices are asked; the result is `resultA && resultA`. -/
def both {σ τ : Type} (a : σ → Option (Bool × σ)) (b : τ → Option (Bool × τ)) (s : σ × τ) :
    Option (Bool × σ × τ) :=
  match a s.1 with
  | none => none
  | some (resultA, s') =>
    match b s.2 with
    | none => none
    | some (_, t') => some (resultA && resultA, s', t')

/-- `size == 0 || size % block != 0`, `block_device_mirror_impl.hpp:60`. -/
def wrongSize (block size : Nat) : Bool := decide (size = 0) || decide (size % block ≠ 0)

/-- `block_device_mirror_impl.hpp:48-104`; `blockWrite` and `blockErase` are the larger ones of the
two devices, `block_device_mirror.hpp:95`. -/
def mirror {σ τ : Type} (blockWrite blockErase : Nat) (a : Device σ) (b : Device τ) :
    Device (σ × τ) where
  read address size s :=
    match a.read address size s.1 with
    | none => none
    | some (r, bytes, s') => some (r, bytes, s', s.2)
  program buffer address size s :=
    if wrongSize blockWrite size then some (false, s)
    else both (a.program buffer address size) (b.program buffer address size) s
  erase address size s :=
    if wrongSize blockErase size then some (false, s)
    else both (a.erase address size) (b.erase address size) s
  write buffer address size s :=
    if wrongSize blockErase size || wrongSize blockWrite size then some (false, s)
    else both (a.write buffer address size) (b.write buffer address size) s

/-! ## `BdSpiFlash` -/

/-- One frame on the bus: chip select low, the bytes written, chip select high.  The result are the
bytes read, as many as written. -/
abbrev Bus (σ : Type) := List Byte → σ → List Byte × σ

section

variable {σ : Type} (bus : Bus σ)

/-- `spiOperation` without an address, `block_device_spiflash_impl.hpp:221`; `tx` are the bytes of
the second transfer (zeros for a null pointer). -/
def op (instruction : Byte) (tx : List Byte) (s : σ) : List Byte × σ :=
  ((bus (instruction :: tx) s).1.drop 1, (bus (instruction :: tx) s).2)

/-- The bytes of the address, `block_device_spiflash_impl.hpp:255-264`. -/
def addressBytes (flashSize address : Nat) : List Byte :=
  if flashSize > 16777216 then
    [BitVec.ofNat 8 (address >>> 24), BitVec.ofNat 8 (address >>> 16), BitVec.ofNat 8 (address >>> 8),
      BitVec.ofNat 8 address]
  else [BitVec.ofNat 8 (address >>> 16), BitVec.ofNat 8 (address >>> 8), BitVec.ofNat 8 address]

/-- `spiOperation` with an address, `block_device_spiflash_impl.hpp:249`. -/
def opAt (flashSize : Nat) (instruction : Byte) (address : Nat) (dummy : Nat) (tx : List Byte) (s : σ) :
    List Byte × σ :=
  ((bus (instruction :: (addressBytes flashSize address ++ List.replicate dummy 0 ++ tx)) s).1.drop
      (1 + (addressBytes flashSize address).length + dummy),
    (bus (instruction :: (addressBytes flashSize address ++ List.replicate dummy 0 ++ tx)) s).2)

/-- `isBusy`, `block_device_spiflash_impl.hpp:196`, and `readStatus`, `:165`. -/
def isBusy (s : σ) : Bool × σ :=
  (((op bus 0x05 [0] s).1.getD 0 0).getLsbD 0, (op bus 0x05 [0] s).2)

/-- `waitWhileBusy`, `block_device_spiflash_impl.hpp:210`, at most `n` rounds. -/
def waitWhileBusy : Nat → σ → Option σ
  | 0, _ => none
  | n + 1, s => if (isBusy bus s).1 then waitWhileBusy n (isBusy bus s).2 else some (isBusy bus s).2

/-- The end of `initialize` and `selectDie`, `block_device_spiflash_impl.hpp:36-44, 181-189`. -/
def unlock (n flashSize : Nat) (s : σ) : Option σ :=
  match waitWhileBusy bus n (op bus 0x98 [] (op bus 0x06 [] s).2).2 with
  | none => none
  | some s =>
    if flashSize > 16777216 then waitWhileBusy bus n (op bus 0xB7 [] s).2 else some s

/-- `block_device_spiflash_impl.hpp:22`. -/
def flashInit (n flashSize : Nat) (s : σ) : Option (Bool × σ) :=
  match waitWhileBusy bus n (op bus 0x99 [] (op bus 0x66 [] s).2).2 with
  | none => none
  | some s =>
    match unlock bus n flashSize s with
    | none => none
    | some s => some (true, s)

/-- `block_device_spiflash_impl.hpp:174`. -/
def selectDie (n flashSize die : Nat) (s : σ) : Option σ :=
  match waitWhileBusy bus n (op bus 0xC2 [BitVec.ofNat 8 die] s).2 with
  | none => none
  | some s => unlock bus n flashSize s

/-- `block_device_spiflash_impl.hpp:74`. -/
def flashRead (n flashSize : Nat) (address size : Nat) (s : σ) : Option (Bool × List Byte × σ) :=
  if refused 1 flashSize address size then some (false, [], s)
  else
    match waitWhileBusy bus n s with
    | none => none
    | some s =>
      some (true, (opAt bus flashSize 0x0B address 1 (List.replicate size 0) s).1,
        (opAt bus flashSize 0x0B address 1 (List.replicate size 0) s).2)

/-- The loop of `program`, `block_device_spiflash_impl.hpp:99-105`. -/
def programLoop (n flashSize : Nat) (buffer : List Byte) (address size : Nat) :
    Nat → Nat → σ → Option σ
  | 0, _, _ => none
  | k + 1, index, s =>
    if index < size then
      match waitWhileBusy bus n s with
      | none => none
      | some s =>
        if index + 256 ≤ buffer.length then
          programLoop n flashSize buffer address size k (index + 256)
            (opAt bus flashSize 0x02 (u32 (address + index)) 0 ((buffer.drop index).take 256)
              (op bus 0x06 [] s).2).2
        else none
    else some s

/-- `block_device_spiflash_impl.hpp:91`. -/
def flashProgram (n flashSize : Nat) (buffer : List Byte) (address size : Nat) (s : σ) :
    Option (Bool × σ) :=
  if refused 256 flashSize address size then some (false, s)
  else (programLoop bus n flashSize buffer address size (size + 1) 0 s).map (fun s => (true, s))

/-- The loop of `erase`, `block_device_spiflash_impl.hpp:126-132`. -/
def eraseLoop (n flashSize : Nat) (address size : Nat) : Nat → Nat → σ → Option σ
  | 0, _, _ => none
  | k + 1, index, s =>
    if index < size then
      match waitWhileBusy bus n s with
      | none => none
      | some s =>
        eraseLoop n flashSize address size k (index + 4096)
          (opAt bus flashSize 0x20 (u32 (address + index)) 0 [] (op bus 0x06 [] s).2).2
    else some s

/-- `block_device_spiflash_impl.hpp:114`. -/
def flashErase (n flashSize : Nat) (address size : Nat) (s : σ) : Option (Bool × σ) :=
  if refused 4096 flashSize address size then some (false, s)
  else if address = 0 ∧ size = flashSize then
    (waitWhileBusy bus n s).map (fun s => (true, (op bus 0xC7 [] s).2))
  else (eraseLoop bus n flashSize address size (size + 1) 0 s).map (fun s => (true, s))

def flash (n flashSize : Nat) : Device σ where
  read := flashRead bus n flashSize
  program := flashProgram bus n flashSize
  erase := flashErase bus n flashSize
  write := eraseProgram 4096 256 flashSize (flashErase bus n flashSize) (flashProgram bus n flashSize)

/-! ## `BdSpiStackFlash` -/

/-- The member `currentDie` besides the state of the dies; `DieSize` is the size of one die. -/
structure Stack (σ : Type) where
  die : Nat
  hw : σ

/-- The common loop of `read`, `program` and `erase`, `block_device_spistack_flash_impl.hpp:55-66`
and following: `select` is `selectDie`, `f index rem chunk` the call of the function of the selected die.
(`ldiv` takes `long`: modelled for addresses below `LONG_MAX`.) -/
def overDies {σ : Type} (dieSize address size : Nat) (select : Nat → σ → Option σ)
    (f : Nat → Nat → Nat → σ → Option (Bool × σ)) :
    Nat → Nat → Stack σ → Option (Bool × Stack σ)
  | 0, _, _ => none
  | k + 1, index, s =>
    if index < size then
      match (if s.die ≠ u32 (index + address) / dieSize then
          select (u32 (index + address) / dieSize) s.hw else some s.hw) with
      | none => none
      | some hw =>
        match f index (u32 (index + address) % dieSize)
            (min (size - index) (dieSize - u32 (index + address) % dieSize)) hw with
        | none => none
        | some (false, hw) => some (false, ⟨u32 (index + address) / dieSize, hw⟩)
        | some (true, hw) =>
          overDies dieSize address size select f k (index + (dieSize - u32 (index + address) % dieSize))
            ⟨u32 (index + address) / dieSize, hw⟩
    else some (true, s)

/-- `block_device_spistack_flash_impl.hpp:21`. -/
def stackInit (n dieSize : Nat) (s : Stack σ) : Option (Bool × Stack σ) :=
  match flashInit bus n dieSize s.hw with
  | none => none
  | some (false, hw) => some (false, { s with hw := hw })
  | some (true, hw) => (selectDie bus n dieSize 0 hw).map (fun hw => (true, ⟨0, hw⟩))

/-- `block_device_spistack_flash_impl.hpp:47`; the buffer of the caller is part of the state of the
loop. -/
def stackRead (n dieSize count : Nat) (address size : Nat) (s : Stack σ) :
    Option (Bool × List Byte × Stack σ) :=
  if refused 1 (count * dieSize) address size then some (false, [], s)
  else
    (overDies (σ := List Byte × σ) dieSize address size
      (fun die p => (selectDie bus n dieSize die p.2).map (fun hw => (p.1, hw)))
      (fun _ rem chunk p =>
        (flashRead bus n dieSize rem chunk p.2).map (fun r => (r.1, p.1 ++ r.2.1, r.2.2)))
      (size + 1) 0 ⟨s.die, ([], s.hw)⟩).map (fun r => (r.1, r.2.hw.1, ⟨r.2.die, r.2.hw.2⟩))

/-- `block_device_spistack_flash_impl.hpp:75`. -/
def stackProgram (n dieSize count : Nat) (buffer : List Byte) (address size : Nat) (s : Stack σ) :
    Option (Bool × Stack σ) :=
  if refused 256 (count * dieSize) address size then some (false, s)
  else
    overDies dieSize address size (selectDie bus n dieSize)
      (fun index rem chunk => flashProgram bus n dieSize (buffer.drop index) rem chunk) (size + 1) 0 s

/-- `block_device_spistack_flash_impl.hpp:103`. -/
def stackErase (n dieSize count : Nat) (address size : Nat) (s : Stack σ) : Option (Bool × Stack σ) :=
  if refused 4096 (count * dieSize) address size then some (false, s)
  else
    overDies dieSize address size (selectDie bus n dieSize) (fun _ rem chunk => flashErase bus n dieSize rem chunk)
      (size + 1) 0 s

def stackFlash (n dieSize count : Nat) : Device (Stack σ) where
  read := stackRead bus n dieSize count
  program := stackProgram bus n dieSize count
  erase := stackErase bus n dieSize count
  write := eraseProgram 4096 256 (count * dieSize) (stackErase bus n dieSize count)
    (stackProgram bus n dieSize count)

end

/-- `isBusy` of the stack, `block_device_spistack_flash_impl.hpp:154`, with `RF_CALL(selectDie(--currentDie))`:
the argument is evaluated at every (re)entry of the macro.  `resumed j` is how often the `j`-th of these
calls is resumed, the die selected is the one of the last evaluation; `busy` tells whether a die is
busy.  At most `k` rounds; the result is the answer and the final `currentDie` (`uint8_t`). -/
def stackIsBusy (busy : Nat → Bool) (resumed : Nat → Nat) : Nat → Nat → Nat → Option (Bool × Nat)
  | 0, _, _ => none
  | k + 1, j, die =>
    if die > 0 then
      if busy ((die + 256 * (resumed j + 1) - (resumed j + 1)) % 256) then
        some (true, (die + 256 * (resumed j + 1) - (resumed j + 1)) % 256)
      else stackIsBusy busy resumed k (j + 1) ((die + 256 * (resumed j + 1) - (resumed j + 1)) % 256)
    else some (false, die)

end Modm.Storage
