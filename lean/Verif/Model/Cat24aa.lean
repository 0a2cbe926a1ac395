import Mathlib.Logic.Function.Basic
/-!
The EEPROM CAT24AA and its driver.

Models `/repo/src/modm/driver/storage/cat24aa.hpp:22-134`, `cat24aa.cpp:14-49` and `cat24aa_impl.hpp:17-52`.  Calls run to their
ends one after another.  The EEPROM has 2048 bytes in pages of 16, three bits of the address are part of the address on the bus,
writing wraps around in the page, reading goes on to the next page, and while a page is being stored it does not acknowledge.
-/

set_option autoImplicit false

namespace Model.Cat24aa

abbrev Byte := BitVec 8

structure State where
  /-- The address on the bus, as set by `setAddress()`. -/
  device : Byte
  /-- cat24aa.hpp:43-44: `addressBuffer`, `writeAddress`. -/
  addressBuffer : Byte
  writeAddress : Bool
  /-- The memory of the EEPROM, and whether it is storing. -/
  mem : Nat → Byte
  busy : Bool

/-- cat24aa.hpp:35-37: `getAddress()`, which does not depend on the address set before. -/
def getAddress (_s : State) : Byte := 0x50#8

/-- cat24aa_impl.hpp:30,45: the address on the bus. -/
def setAddress (s : State) (address : BitVec 32) : State :=
  { s with device := getAddress s ||| ((address >>> 8) &&& 0x07#32).setWidth 8 }

/-- cat24aa.cpp:18-29: `configureWrite()`. -/
def configureWrite (s : State) (address : BitVec 16) : State :=
  { s with addressBuffer := (address &&& 0xff#16).setWidth 8, writeAddress := true }

/-- cat24aa.cpp:31-38: `configureRead()`. -/
def configureRead (s : State) (address : BitVec 16) : State :=
  { s with addressBuffer := (address &&& 0xff#16).setWidth 8, writeAddress := false }

/-- cat24aa.cpp:40-49: the bytes that `writing()` gives in a transfer with the buffer `data`. -/
def written (s : State) (data : List Byte) : List Byte := if s.writeAddress then s.addressBuffer :: data else data

/-- The EEPROM: does it acknowledge its address on the bus? -/
def acknowledges (s : State) : Bool := s.device >>> 3 = 0x0a#8 && !s.busy

/-- The EEPROM: bits of the address on the bus and the first byte. -/
def address (device first : Byte) : Nat := (device &&& 7#8).toNat * 256 + first.toNat

/-- The EEPROM: bytes are written to a page. -/
def pageWrite (mem : Nat → Byte) : Nat → List Byte → (Nat → Byte)
  | _, [] => mem
  | a, b :: bs => pageWrite (Function.update mem a b) (a / 16 * 16 + (a + 1) % 16) bs

/-- The EEPROM: bytes are read. -/
def sequentialRead (mem : Nat → Byte) : Nat → Nat → List Byte
  | _, 0 => []
  | a, n + 1 => mem a :: sequentialRead mem ((a + 1) % 2048) n

/-- cat24aa_impl.hpp:24-37: `write()`. -/
def write (s : State) (addr : BitVec 32) (data : List Byte) : State × Bool :=
  let s := setAddress s addr
  let s := configureWrite s (addr.setWidth 16)
  if acknowledges s then
    match written s data with
    | [] => (s, true)
    | first :: bytes =>
      ({ s with mem := pageWrite s.mem (address s.device first) bytes, busy := !bytes.isEmpty, writeAddress := false }, true)
  else (s, false)

/-- cat24aa_impl.hpp:39-52: `read()`; no bytes if it fails.  Bytes after the address would not be stored, as the transfer goes on with
reading, but would increment the address. -/
def read (s : State) (addr : BitVec 32) (length : Nat) : State × Option (List Byte) :=
  let s := setAddress s addr
  let s := configureRead s (addr.setWidth 16)
  if acknowledges s then
    match written s [s.addressBuffer] with
    | [] => (s, some (sequentialRead s.mem 0 length))
    | first :: rest => (s, some (sequentialRead s.mem ((address s.device first + rest.length) % 2048) length))
  else (s, none)

inductive Op where
  | write (addr : BitVec 32) (data : List Byte)
  | read (addr : BitVec 32) (length : Nat)
  /-- The EEPROM has stored the page. -/
  | stored

/-- What a call returns. -/
inductive Out where
  | written (ok : Bool)
  | bytes (b : Option (List Byte))
  | nothing
  deriving DecidableEq, Repr

def step (s : State) : Op → State × Out
  | .write a d => let r := write s a d; (r.1, .written r.2)
  | .read a n => let r := read s a n; (r.1, .bytes r.2)
  | .stored => ({ s with busy := false }, .nothing)

def run (s : State) : List Op → State × List Out
  | [] => (s, [])
  | o :: os => let r := step s o; let q := run r.1 os; (q.1, r.2 :: q.2)

end Model.Cat24aa
