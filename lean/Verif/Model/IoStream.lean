import Mathlib.Data.Nat.Digits.Defs

set_option autoImplicit false

/-!
# Streams of characters

`src/modm/io/iostream.hpp.in`, `iostream.cpp`, `iostream_printf.cpp.in`, `iodevice.hpp`, `iodevice_wrapper.hpp`. Characters are bytes. Undefined behaviour is `none`.

`print_integer` of the printf library is not in the repository; it is taken to put out a sign and the decimal digits one by one through the gadget (`putGadget`), `itoa` and its kin to write the same into the
buffer. Numbers with a point are not modelled.
-/

namespace Modm.IoStream

abbrev Byte := BitVec 8

/-- `Mode` (iostream.hpp.in:279-284) -/
inductive Mode
  | ascii
  | hex
  | bin
  deriving DecidableEq

/-- `fn_nibble` (iostream.cpp:64-67); the sum is of type `int` and passed as `char` -/
def nibble (n : Byte) : Byte := if 9 < n.toNat then n + (0x41#8 - 10#8) else n + 0x30#8

/-- `writeHex` (iostream.cpp:62-70) -/
def writeHex (v : Byte) : List Byte := [nibble (v >>> 4), nibble (v &&& 0xf#8)]

/-- the loop of `writeBin` (iostream.cpp:76-80) with `n` passes left -/
def binLoop : Nat → Byte → List Byte
  | 0, _ => []
  | n + 1, v => (if v &&& 0x80#8 ≠ 0#8 then 0x31#8 else 0x30#8) :: binLoop n (v <<< 1)

/-- `writeBin` (iostream.cpp:74-81) -/
def writeBin (v : Byte) : List Byte := binLoop 8 v

/-- `for (uint8_t ii = bits - 8; ii < bits; ii -= 8)` (iostream.hpp.in:251-255, iostream.cpp:98, 103): the values of `ii`; `none` if the loop takes more than `fuel` passes -/
def shifts (bits : Nat) : Nat → Byte → Option (List Nat)
  | 0, _ => none
  | fuel + 1, ii => if ii.toNat < bits then (shifts bits fuel (ii - 8#8)).map (ii.toNat :: ·) else some []

/-- an integer of `n` bits, byte by byte, with `f` for each (iostream.hpp.in:251-255) -/
def bytewise {n : Nat} (f : Byte → List Byte) (v : BitVec n) : Option (List Byte) :=
  (shifts n 300 (BitVec.ofNat 8 (n - 8))).map fun l => l.flatMap fun ii => f ((v >>> ii).setWidth 8)

/-- decimal digits, as the printf library and `utoa` put them out -/
def decimal (n : Nat) : List Byte := if n = 0 then [0x30#8] else ((Nat.digits 10 n).reverse.map fun d => BitVec.ofNat 8 (0x30 + d))

/-- the call of `print_integer` for a signed integer of `n` bits (iostream_printf.cpp.in:80-81, 107-108, 134-135): value and sign; `-value` is computed with at least `int` (`ib` bits) -/
def magnitude {n : Nat} (ib : Nat) (v : BitVec n) : Option (Nat × Bool) :=
  if v.toInt < 0 then
    if -v.toInt < 2 ^ (max n ib - 1) then some ((BitVec.ofInt n (-v.toInt)).toNat, true) else none
  else some (v.toNat, false)

/-- what `print_integer` puts out -/
def printInteger (m : Nat × Bool) : List Byte := (if m.2 then [0x2d#8] else []) ++ decimal m.1

/-- a stream: what its device has been given, the mode, and `output_gadget.pos` (iostream.hpp.in:291-297) -/
structure Stream where
  out : List Byte
  mode : Mode
  pos : BitVec 32
  deriving DecidableEq

/-- `IOStream(device)` (iostream.hpp.in:66-68) -/
def Stream.init : Stream := ⟨[], .ascii, 0#32⟩

/-- `device->write` -/
def Stream.put (s : Stream) (cs : List Byte) : Stream := { s with out := s.out ++ cs }

/-- a character through the gadget (iostream.hpp.in:35-43, 294-296): the library counts `pos` and stays silent from `max_chars`, here `INT_MAX`, on; `out_char` drops zeros -/
def putGadget (s : Stream) (c : Byte) : Stream :=
  let s' := { s with pos := s.pos + 1#32 }
  if 0x7fffffff ≤ s.pos.toNat then s' else if c = 0#8 then s' else s'.put [c]

/-- `write(const char*)` (iodevice.hpp:33-38) -/
def cString (cs : List Byte) : List Byte := cs.takeWhile (· ≠ 0#8)

/-- the types with an own `operator <<`; the last is the address of the parameter and the function it points to -/
inductive Item
  | bool (v : Bool)
  | char (v : Byte)
  | u8 (v : Byte)
  | u16 (v : BitVec 16)
  | i16 (v : BitVec 16)
  | u32 (v : BitVec 32)
  | i32 (v : BitVec 32)
  | u64 (v : BitVec 64)
  | i64 (v : BitVec 64)
  | str (v : List Byte)
  | pointer (v : BitVec 32)
  | function (addressOfParameter v : BitVec 32)
  | hex
  | bin
  | ascii
  | endl
  | flush

/-- `writeIntegerMode` of an unsigned type (iostream.hpp.in:243-257) -/
def unsigned {n : Nat} (s : Stream) (v : BitVec n) : Option Stream :=
  match s.mode with
  | .ascii => some ((printInteger (v.toNat, false)).foldl putGadget s)
  | .bin => (bytewise writeBin v).map s.put
  | .hex => (bytewise writeHex v).map s.put

/-- `writeIntegerMode` of a signed type (iostream.hpp.in:243-257) -/
def signed {n : Nat} (ib : Nat) (s : Stream) (v : BitVec n) : Option Stream :=
  match s.mode with
  | .ascii => (magnitude ib v).map fun m => (printInteger m).foldl putGadget s
  | .bin => (bytewise writeBin v).map s.put
  | .hex => (bytewise writeHex v).map s.put

/-- `writePointer` with pointers of 32 bits (iostream.cpp:85-106) -/
def pointer (s : Stream) (v : BitVec 32) : Option Stream := (bytewise writeHex v).map fun b => s.put ([0x30#8, 0x78#8] ++ b)

/-- one `operator <<` (iostream.hpp.in:99-231, iostream.cpp:42-58); `ib` is the bits of `int` -/
def step (ib : Nat) (s : Stream) : Item → Option Stream
  | .bool v => some (match s.mode with
    | .ascii => s.put (if v then "true".toUTF8.toList.map (·.toBitVec) else "false".toUTF8.toList.map (·.toBitVec))
    | .hex => s.put [0x30#8, if v then 0x31#8 else 0x30#8]
    | .bin => s.put [if v then 0x31#8 else 0x30#8])
  | .char v => some (match s.mode with
    | .ascii => s.put [v]
    | .bin => s.put (writeBin v)
    | .hex => s.put (writeHex v))
  | .u8 v => some (match s.mode with
    | .ascii => (printInteger (v.toNat, false)).foldl putGadget s
    | .bin => s.put (writeBin v)
    | .hex => s.put (writeHex v))
  | .u16 v => unsigned s v
  | .i16 v => signed ib s v
  | .u32 v => unsigned s v
  | .i32 v => signed ib s v
  | .u64 v => unsigned s v
  | .i64 v => signed ib s v
  | .str v => some (s.put (cString v))
  | .pointer v => pointer s v
  | .function a _ => pointer s a
  | .hex => some { s with mode := .hex }
  | .bin => some { s with mode := .bin }
  | .ascii => some { s with mode := .ascii }
  | .endl => some ({ s with mode := .ascii }.put [0x0a#8])
  | .flush => some { s with mode := .ascii }

/-- a sequence of `<<` -/
def run (ib : Nat) (s : Stream) : List Item → Option Stream
  | [] => some s
  | i :: rest => (step ib s i).bind fun s' => run ib s' rest

/-- AVR: the buffer for `itoa` and its kin (iostream_printf.cpp.in:84, 97, 111, 124) by bits and sign -/
def avrBuffer (n : Nat) (sgn : Bool) : Nat := if n = 16 then (if sgn then 8 else 7) else if sgn then 12 else 11

/-! ### Devices -/

/-- `IODeviceWrapper::write` (iodevice_wrapper.hpp:40-49, 75-84). `answers` is what the device returns to the next attempts; the result is what is left of them and what the device has taken;
`none` if the loop has not ended -/
def wrapWrite (block : Bool) (c : Byte) : List Bool → Option (List Bool × List Byte)
  | [] => none
  | true :: rest => some (rest, [c])
  | false :: rest => if block then wrapWrite block c rest else some (rest, [])

/-- characters one after the other -/
def wrapAll (block : Bool) : List Byte → List Bool → Option (List Bool × List Byte)
  | [], a => some (a, [])
  | c :: cs, a => (wrapWrite block c a).bind fun r => (wrapAll block cs r.1).map fun q => (q.1, r.2 ++ q.2)

/-- `get(char* s, size_t n)` (iostream.cpp:22-40) for a device with `input` ready: what is in the array from the start (`none`: unchanged), and the rest of the input -/
def getLoop : Nat → List Byte → List Byte × List Byte
  | 0, input => ([], input)
  | _ + 1, [] => ([], [])
  | n + 1, c :: rest => let r := getLoop n rest; (c :: r.1, r.2)

def get (n : Nat) (input : List Byte) : Option (List Byte) × List Byte :=
  if n < 1 then (none, input) else let r := getLoop (n - 1) input; (some (r.1 ++ [0#8]), r.2)

/-- `get(char& c)` (iostream.hpp.in:79-86) -/
def getChar (input : List Byte) : Byte × List Byte :=
  match input with
  | [] => (0xff#8, [])
  | c :: rest => (c, rest)

end Modm.IoStream
