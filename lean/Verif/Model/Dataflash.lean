import Mathlib.Logic.Function.Basic

set_option autoImplicit false

/-!
# The data flash AT45DB0x1D

Model of `src/modm/driver/storage/at45db0x1d_impl.hpp` (opcodes and status bits: `at45db0x1d.hpp`).

The device is written down from its data sheet (Atmel doc3595): pages, two buffers, the opcodes the
driver uses and those it should use, a time in which the device is busy (any number of readings of
the status register, given by `dur`), the page size of 264 bytes as delivered, and its change to 256
bytes, which takes effect at the next power cycle.  A transaction is everything between two edges of the
chip select; the device answers one byte to each byte.  While busy it ignores all but the status
register and the buffer that is not in use.  Left out: sector protection, power down, opcodes
the driver does not name; an operation takes effect at once, but is not seen before the device is
ready.
-/

namespace Model.Dataflash

abbrev Byte := BitVec 8

structure Dev where
  /-- number of pages -/
  pages : Nat
  mem : Nat → Nat → Byte
  buf : Bool → Nat → Byte
  /-- readings of the status register until ready -/
  busy : Nat
  /-- the buffers in use while busy -/
  lock : Bool → Bool
  /-- result of the last comparison: a difference -/
  comp : Bool
  /-- pages of 256 bytes -/
  binary : Bool
  /-- the same after the next power cycle -/
  binaryNext : Bool
  /-- bits 5 to 2 of the status register -/
  density : BitVec 4
  /-- the operations begun so far, and how long each takes -/
  ops : Nat
  dur : Nat → Nat

/-- Bytes of a page. -/
def Dev.size (d : Dev) : Nat := if d.binary then 256 else 264

/-- The page and the place in the page of an address (data sheet, tables 15-1 to 15-7). -/
def Dev.page (d : Dev) (a : Nat) : Nat := (if d.binary then a / 256 else a / 512) % d.pages

def Dev.off (d : Dev) (a : Nat) : Nat := if d.binary then a % 256 else a % 512 % 264

/-- An operation begins that takes time and uses the buffers of `lock`. -/
def Dev.slow (d : Dev) (lock : Bool → Bool) : Dev :=
  { d with busy := d.dur d.ops, ops := d.ops + 1, lock := lock }

/-- The status register (data sheet, table 11-1). -/
def Dev.status (d : Dev) : Byte :=
  BitVec.ofBool (decide (d.busy = 0)) ++ BitVec.ofBool d.comp ++ d.density ++ BitVec.ofBool false ++ BitVec.ofBool d.binary

/-- Write to a buffer, wrapping at its end. -/
def writeBuf (size : Nat) : Nat → List Byte → (Nat → Byte) → Nat → Byte
  | _, [], f => f
  | o, b :: bs, f => writeBuf size ((o + 1) % size) bs (Function.update f o b)

/-- The commands. -/
inductive Cmd
  | status | pageToBuf (b : Bool) | compare (b : Bool) | program (b : Bool) | programNoErase (b : Bool)
  | rewrite (b : Bool) | pageErase | blockErase | writeBuf (b : Bool) | readBuf (b : Bool) | readArray | readPage | chipErase | config
deriving DecidableEq

/-- `enum Opcode` (`at45db0x1d.hpp:260-288`), and the first bytes of the two fixed sequences. -/
def decode (op : Byte) : Option Cmd :=
  match op.toNat with
  | 0xd7 => some .status
  | 0x53 => some (.pageToBuf false)
  | 0x55 => some (.pageToBuf true)
  | 0x60 => some (.compare false)
  | 0x61 => some (.compare true)
  | 0x83 => some (.program false)
  | 0x86 => some (.program true)
  | 0x88 => some (.programNoErase false)
  | 0x89 => some (.programNoErase true)
  | 0x58 => some (.rewrite false)
  | 0x59 => some (.rewrite true)
  | 0x81 => some .pageErase
  | 0x50 => some .blockErase
  | 0x84 => some (.writeBuf false)
  | 0x87 => some (.writeBuf true)
  | 0xd4 => some (.readBuf false)
  | 0xd6 => some (.readBuf true)
  | 0x03 => some .readArray
  | 0xd2 => some .readPage
  | 0xc7 => some .chipErase
  | 0x3d => some .config
  | _ => none

/-- A command with the three bytes that follow it, as a number and as bytes; `n`: number of further bytes. -/
def Dev.run (d : Dev) (c : Cmd) (a : Nat) (args : List Byte) (data : List Byte) : List Byte × Dev :=
  let quiet : List Byte := List.replicate data.length 0
  let p := d.page a
  match c with
  | .status => (quiet, d)
  | .pageToBuf b => (quiet, if d.busy = 0 then { d with buf := Function.update d.buf b (d.mem p) }.slow (· == b) else d)
  | .compare b => (quiet, if d.busy = 0 then { d with comp := (List.range d.size).any fun i => d.mem p i != d.buf b i }.slow (· == b) else d)
  | .program b => (quiet, if d.busy = 0 then { d with mem := Function.update d.mem p (d.buf b) }.slow (· == b) else d)
  | .programNoErase b => (quiet, if d.busy = 0 then { d with mem := Function.update d.mem p (fun i => d.mem p i &&& d.buf b i) }.slow (· == b) else d)
  | .rewrite b => (quiet, if d.busy = 0 then { d with buf := Function.update d.buf b (d.mem p) }.slow (· == b) else d)
  | .pageErase => (quiet, if d.busy = 0 then { d with mem := Function.update d.mem p (fun _ => 0xff) }.slow (fun _ => false) else d)
  | .blockErase => (quiet, if d.busy = 0 then { d with mem := fun q => if q / 8 = p / 8 then (fun _ => 0xff) else d.mem q }.slow (fun _ => false) else d)
  | .chipErase => (quiet, if d.busy = 0 ∧ args = [0x94, 0x80, 0x9a] then { d with mem := fun _ _ => 0xff }.slow (fun _ => true) else d)
  | .config => (quiet, if d.busy = 0 ∧ args = [0x2a, 0x80, 0xa6] then { d with binaryNext := true }.slow (fun _ => true) else d)
  | .writeBuf b => (quiet, if d.busy = 0 ∨ d.lock b = false then { d with buf := Function.update d.buf b (writeBuf d.size (d.off a) data (d.buf b)) } else d)
  | .readBuf b => ((List.range data.length).map fun i => if i < 1 ∨ ¬ (d.busy = 0 ∨ d.lock b = false) then 0 else d.buf b ((d.off a + (i - 1)) % d.size), d)
  | .readArray => ((List.range data.length).map fun i => if d.busy = 0 then d.mem ((p + (d.off a + i) / d.size) % d.pages) ((d.off a + i) % d.size) else 0, d)
  | .readPage => ((List.range data.length).map fun i => if i < 4 ∨ d.busy ≠ 0 then 0 else d.mem p ((d.off a + (i - 4)) % d.size), d)

/-- One transaction: the bytes sent, the bytes returned (data sheet, chapter 6 to 11). -/
def Dev.transact (d : Dev) : List Byte → List Byte × Dev
  | [] => ([], d)
  | op :: rest =>
    match decode op with
    | none => (0 :: List.replicate rest.length 0, d)
    | some .status => (0 :: List.replicate rest.length d.status, { d with busy := d.busy - 1 })
    | some c =>
      match rest with
      | x :: y :: z :: data =>
        let r := d.run c (x.toNat * 65536 + y.toNat * 256 + z.toNat) [x, y, z] data
        (0 :: 0 :: 0 :: 0 :: r.1, r.2)
      | l => (0 :: List.replicate l.length 0, d)

/-- Power off and on. -/
def Dev.powerCycle (d : Dev) : Dev := { d with binary := d.binaryNext, busy := 0 }

/-! ## The driver -/

/-- `readStatus` (`at45db0x1d_impl.hpp:339-349`). -/
def readStatus (d : Dev) : Byte × Dev :=
  let r := d.transact [0xd7, 0]
  (r.1.getLastD 0, r.2)

/-- `isReady` (`at45db0x1d_impl.hpp:321-326`). -/
def isReady (d : Dev) : Bool × Dev :=
  let r := readStatus d
  (r.1 &&& 0x80 != 0, r.2)

/-- `waitUntilReady` (`at45db0x1d_impl.hpp:329-336`); `none`: not yet after `n` readings. -/
def waitUntilReady : Nat → Dev → Option Dev
  | 0, _ => none
  | n + 1, d =>
    let r := isReady d
    if r.1 then some r.2 else waitUntilReady n r.2

/-- `initialize` (`at45db0x1d_impl.hpp:20-51`). -/
def init (n : Nat) (d : Dev) : Option (Bool × Dev) :=
  let r := readStatus d
  if r.1 = 0xff ∨ r.1 = 0 then some (false, r.2)
  else
    let d := if r.1 &&& 0x01 = 0 then (r.2.transact [0x3d, 0x2a, 0x80, 0xa6]).2 else r.2
    (waitUntilReady n d).map fun d => (true, d)

def hi (p : BitVec 16) : Byte := p.extractLsb' 8 8
def lo (p : BitVec 16) : Byte := p.extractLsb' 0 8

/-- `copyPageToBuffer` (`at45db0x1d_impl.hpp:54-73`); buffer `false` is `BUFFER_0`. -/
def copyPageToBuffer (p : BitVec 16) (b : Bool) (d : Dev) : Dev :=
  (d.transact [if b then 0x55 else 0x53, hi p, lo p, 0]).2

/-- `comparePageToBuffer` (`at45db0x1d_impl.hpp:76-95`). -/
def comparePageToBuffer (p : BitVec 16) (b : Bool) (d : Dev) : Dev :=
  (d.transact [if b then 0x61 else 0x60, hi p, lo p, 0]).2

/-- `isCompareEqual` (`at45db0x1d_impl.hpp:98-103`). -/
def isCompareEqual (d : Dev) : Bool × Dev :=
  let r := readStatus d
  (r.1 &&& 0x40 == 0, r.2)

/-- `copyBufferToPage` (`at45db0x1d_impl.hpp:106-125`). -/
def copyBufferToPage (b : Bool) (p : BitVec 16) (d : Dev) : Dev :=
  (d.transact [if b then 0x86 else 0x83, hi p, lo p, 0]).2

/-- `copyBufferToPageWithoutErase` (`at45db0x1d_impl.hpp:128-147`). -/
def copyBufferToPageWithoutErase (b : Bool) (p : BitVec 16) (d : Dev) : Dev :=
  (d.transact [if b then 0x89 else 0x88, hi p, lo p, 0]).2

/-- `readFromBuffer` (`at45db0x1d_impl.hpp:150-175`). -/
def readFromBuffer (b : Bool) (a : Byte) (n : Nat) (d : Dev) : List Byte × Dev :=
  let r := d.transact ([if b then 0xd6 else 0xd4, 0, 0, a, 0] ++ List.replicate n 0)
  (r.1.drop 5, r.2)

/-- `writeToBuffer` (`at45db0x1d_impl.hpp:178-200`). -/
def writeToBuffer (b : Bool) (a : Byte) (data : List Byte) (d : Dev) : Dev :=
  (d.transact ([if b then 0x87 else 0x84, 0, 0, a] ++ data)).2

/-- The three bytes of an address (`at45db0x1d_impl.hpp:211-213`, `230-232`). -/
def addr (a : BitVec 32) : List Byte := [a.extractLsb' 16 8, a.extractLsb' 8 8, a.extractLsb' 0 8]

/-- `readFromMemory` (`at45db0x1d_impl.hpp:203-219`). -/
def readFromMemory (a : BitVec 32) (n : Nat) (d : Dev) : List Byte × Dev :=
  let r := d.transact ([0x03] ++ addr a ++ List.replicate n 0)
  (r.1.drop 4, r.2)

/-- `readPageFromMemory` (`at45db0x1d_impl.hpp:222-244`). -/
def readPageFromMemory (a : BitVec 32) (n : Nat) (d : Dev) : List Byte × Dev :=
  let r := d.transact ([0xd2] ++ addr a ++ [0, 0, 0, 0] ++ List.replicate n 0)
  (r.1.drop 8, r.2)

/-- `pageErase` (`at45db0x1d_impl.hpp:247-261`). -/
def pageErase (n : Nat) (p : BitVec 16) (d : Dev) : Option Dev :=
  (waitUntilReady n d).map fun d => (d.transact [hi p, lo p, 0]).2

/-- `pageRewrite` (`at45db0x1d_impl.hpp:264-283`). -/
def pageRewrite (p : BitVec 16) (b : Bool) (d : Dev) : Dev :=
  (d.transact [if b then 0x59 else 0x58, hi p, lo p, 0]).2

/-- `blockErase` (`at45db0x1d_impl.hpp:286-300`). -/
def blockErase (n : Nat) (p : BitVec 16) (d : Dev) : Option Dev :=
  (waitUntilReady n d).map fun d => (d.transact [hi p, lo p &&& 0xf8, 0]).2

/-- `chipErase` (`at45db0x1d_impl.hpp:303-318`). -/
def chipErase (n : Nat) (d : Dev) : Option Dev :=
  (waitUntilReady n d).map fun d => (d.transact [0xc7, 0x94, 0x80, 0x9a]).2

/-! ## Use -/

/-- The operations of the driver but for the two erasures. -/
inductive Op
  | toBuffer (p : BitVec 16) (b : Bool)
  | compare (p : BitVec 16) (b : Bool)
  | toPage (b : Bool) (p : BitVec 16)
  | toPageNoErase (b : Bool) (p : BitVec 16)
  | readBuf (b : Bool) (a : Byte) (n : Nat)
  | writeBuf (b : Bool) (a : Byte) (data : List Byte)
  | read (a : BitVec 32) (n : Nat)
  | readPage (a : BitVec 32) (n : Nat)
  | rewrite (p : BitVec 16) (b : Bool)
  | chipErase

/-- What an operation gives to its caller. -/
inductive Out
  | nothing | bytes (l : List Byte) | equal (b : Bool)
deriving DecidableEq

/-- An operation and the wait for its end; `n`: patience. -/
def perform (n : Nat) (d : Dev) : Op → Option (Out × Dev)
  | .toBuffer p b => (waitUntilReady n (copyPageToBuffer p b d)).map fun d => (.nothing, d)
  | .compare p b => (waitUntilReady n (comparePageToBuffer p b d)).map fun d =>
      let r := isCompareEqual d
      (.equal r.1, r.2)
  | .toPage b p => (waitUntilReady n (copyBufferToPage b p d)).map fun d => (.nothing, d)
  | .toPageNoErase b p => (waitUntilReady n (copyBufferToPageWithoutErase b p d)).map fun d => (.nothing, d)
  | .readBuf b a k => let r := readFromBuffer b a k d; some (.bytes r.1, r.2)
  | .writeBuf b a data => some (.nothing, writeToBuffer b a data d)
  | .read a k => let r := readFromMemory a k d; some (.bytes r.1, r.2)
  | .readPage a k => let r := readPageFromMemory a k d; some (.bytes r.1, r.2)
  | .rewrite p b => (waitUntilReady n (pageRewrite p b d)).map fun d => (.nothing, d)
  | .chipErase => (chipErase n d).bind fun d => (waitUntilReady n d).map fun d => (.nothing, d)

def performAll (n : Nat) : List Op → Dev → Option (List Out × Dev)
  | [], d => some ([], d)
  | o :: os, d => (perform n d o).bind fun r => (performAll n os r.2).map fun s => (r.1 :: s.1, s.2)

end Model.Dataflash
