import Mathlib.Logic.Function.Basic
/-!
The temperature measurement system LTC2984.

Models `/repo/src/modm/driver/temperature/ltc2984_impl.hpp:18-211` and `/repo/src/modm/driver/temperature/ltc2984.hpp:27-110,328-336,464-472`.
The calls run to their ends (no other coroutine uses the driver); an instance has the bus for itself.  The chip is a memory:
instruction 2 writes and instruction 3 reads bytes at consecutive addresses (data sheet).  If no chip is present, 0xff is read.
`configure()` does not compile when used: its second call of `writeData()` passes a byte for a pointer (ltc2984_impl.hpp:49);
only its first call is modelled.
-/

set_option autoImplicit false

namespace Model.Ltc2984

abbrev Byte := BitVec 8
abbrev Mem := Nat → Byte

/-! ### Data -/

/-- ltc2984.hpp:57-62: `isValid()`. -/
def isValid (data : BitVec 32) : Bool := decide (((data >>> 24).setWidth 8 : Byte) &&& 0x01#8 ≠ 0#8)

/-- ltc2984.hpp:78-84: `getTemperatureFixed()`. -/
def getTemperatureFixed (data : BitVec 32) : BitVec 32 :=
  let ret := data &&& 0xffffff#32
  if data &&& 0x800000#32 ≠ 0#32 then -((~~~ret + 1#32) &&& 0xffffff#32) else ret

/-- ltc2984.hpp:86-91: `getTemperatureInteger()` for 32 bit `unsigned long`: the sum and the division are unsigned. -/
def getTemperatureInteger (data : BitVec 32) : BitVec 16 := ((getTemperatureFixed data + 512#32) / 1024#32).setWidth 16

/-! ### The chip -/

/-- Bytes stored at consecutive addresses. -/
def store (m : Mem) (a : Nat) (ds : List Byte) : Mem := fun k => if a ≤ k then (ds[k - a]?).getD (m k) else m k

/-- The chip receives a transaction. -/
def chipWrite (present : Bool) (m : Mem) : List Byte → Mem
  | op :: hi :: lo :: ds => if present = true ∧ op = 2#8 then store m (hi ++ lo).toNat ds else m
  | _ => m

/-- The chip receives three bytes and sends what follows. -/
def chipRead (present : Bool) (m : Mem) : List Byte → Nat → Byte
  | [op, hi, lo] => if present = true ∧ op = 3#8 then fun i => m ((hi ++ lo).toNat + i) else fun _ => 0xff#8
  | _ => fun _ => 0xff#8

/-! ### The driver -/

structure State where
  present : Bool
  mem : Mem
  buffer : Nat → Byte
  enabled : BitVec 32

/-- A pointer to bytes of the caller, or into the buffer of the driver. -/
inductive Ptr where
  | bytes (f : Nat → Byte)
  | buffer (off : Nat)

def deref (b : Nat → Byte) : Ptr → Nat → Byte
  | .bytes f, i => f i
  | .buffer off, i => b (off + i)

/-- ltc2984_impl.hpp:133-136,168-171: the instruction and the address. -/
def head (b : Nat → Byte) (op : Byte) (a : BitVec 16) : Nat → Byte :=
  Function.update (Function.update (Function.update b 0 op) 1 ((a >>> 8).setWidth 8)) 2 (a.setWidth 8)

/-- ltc2984_impl.hpp:138-141: the loop that reverses the order. -/
def copyLoop (p : Ptr) (len : Nat) (b : Nat → Byte) : Nat → Byte :=
  (List.range len).foldl (fun b i => Function.update b (3 + i) (deref b p (len - 1 - i))) b

/-- ltc2984_impl.hpp:120-150: `writeData()`. -/
def writeData (s : State) (a : BitVec 16) (p : Ptr) (len : Nat) : State :=
  if len > 4 then s
  else
    let b := copyLoop p len (head s.buffer 2#8 a)
    { s with buffer := b, mem := chipWrite s.present s.mem ((List.range (len + 3)).map b) }

/-- The bytes of a word in memory, low byte first. -/
def wordBytes (w : BitVec 32) (i : Nat) : Byte := (w >>> (8 * i)).setWidth 8

/-- ltc2984_impl.hpp:159-187: `readFourBytes()` into a word. -/
def readFourBytes (s : State) (a : BitVec 16) : State × BitVec 32 :=
  let b := head s.buffer 3#8 a
  let r := chipRead s.present s.mem ((List.range 3).map b)
  let b := fun i => if i < 4 then r i else b i
  ({ s with buffer := b }, BitVec.ofNat 32 ((b 3).toNat + 2 ^ 8 * (b 2).toNat + 2 ^ 16 * (b 1).toNat + 2 ^ 24 * (b 0).toNat))

/-- ltc2984_impl.hpp:189-211: `readByte()` to an element of the buffer. -/
def readByte (s : State) (a : BitVec 16) (dest : Nat) : State :=
  let b := head s.buffer 3#8 a
  let r := chipRead s.present s.mem ((List.range 3).map b)
  { s with buffer := Function.update b dest (r 0) }

/-- ltc2984_impl.hpp:25-38: `ping()`. -/
def ping (s : State) : State × Bool :=
  let s := readByte s 0x250#16 4
  let s := { s with buffer := Function.update s.buffer 5 0x42#8 }
  let s := writeData s 0x250#16 (.buffer 5) 1
  let s := readByte s 0x250#16 6
  let s := writeData s 0x250#16 (.buffer 4) 1
  (s, decide (s.buffer 5 = s.buffer 6))

/-- ltc2984_impl.hpp:40-48: the first half of `configure()`. -/
def configure (s : State) (rejection unit : Byte) : State :=
  writeData { s with buffer := Function.update s.buffer 0 (rejection ||| unit) } 0x0f0#16 (.buffer 0) 1

/-- ltc2984_impl.hpp:52-59: `isBusy()`. -/
def isBusy (s : State) : State × Bool :=
  let s := readByte s 0x000#16 0
  (s, decide (s.buffer 0 &&& 0xC0#8 = 0x80#8))

/-- ltc2984_impl.hpp:62-67, ltc2984.hpp:328-331: `configureChannel()`. -/
def configureChannel (s : State) (ch : Fin 20) (config : BitVec 32) : State :=
  writeData s (0x200#16 + BitVec.ofNat 16 ch.val * 4#16) (.bytes (wordBytes config)) 4

/-- ltc2984_impl.hpp:152-157: `writeData()` of a command. -/
def command (s : State) (c : Byte) : State := writeData s 0x000#16 (.bytes fun _ => c) 1

/-- ltc2984_impl.hpp:69-74, ltc2984.hpp:333-336: `initiateSingleMeasurement()`. -/
def initiateSingleMeasurement (s : State) (ch : Fin 20) : State := command s (0x80#8 ||| (BitVec.ofNat 8 ch.val + 1#8))

/-- ltc2984_impl.hpp:76-81: `initiateMeasurements()`. -/
def initiateMeasurements (s : State) : State := command s 0x80#8

/-- ltc2984_impl.hpp:104-109: `enterSleepMode()`. -/
def enterSleepMode (s : State) : State := command s 0x97#8

/-- ltc2984_impl.hpp:83-88: `enableChannel()`. -/
def enableChannel (s : State) (ch : Fin 20) : State := { s with enabled := s.enabled ||| (1#32 <<< ch.val) }

/-- ltc2984_impl.hpp:90-95: `disableChannel()`. -/
def disableChannel (s : State) (ch : Fin 20) : State := { s with enabled := s.enabled &&& ~~~(1#32 <<< ch.val) }

/-- ltc2984_impl.hpp:97-102: `setChannels()`. -/
def setChannels (s : State) : State := writeData s 0x0f4#16 (.bytes (wordBytes s.enabled)) 4

/-- ltc2984_impl.hpp:112-117: `readChannel()`. -/
def readChannel (s : State) (ch : Fin 20) : State × BitVec 32 := readFourBytes s (0x010#16 + BitVec.ofNat 16 ch.val * 4#16)

/-- Calls, and the chip storing a byte itself. -/
inductive Op where
  | ping
  | configureChannel (ch : Fin 20) (config : BitVec 32)
  | single (ch : Fin 20)
  | all
  | sleep
  | enable (ch : Fin 20)
  | disable (ch : Fin 20)
  | setChannels
  | read (ch : Fin 20)
  | busy
  | chip (a : Nat) (v : Byte)

/-- What a call returns; 0 for calls without a result. -/
def step (s : State) : Op → State × BitVec 32
  | .ping => ((ping s).1, if (ping s).2 then 1#32 else 0#32)
  | .configureChannel ch c => (configureChannel s ch c, 0#32)
  | .single ch => (initiateSingleMeasurement s ch, 0#32)
  | .all => (initiateMeasurements s, 0#32)
  | .sleep => (enterSleepMode s, 0#32)
  | .enable ch => (enableChannel s ch, 0#32)
  | .disable ch => (disableChannel s ch, 0#32)
  | .setChannels => (setChannels s, 0#32)
  | .read ch => readChannel s ch
  | .busy => ((isBusy s).1, if (isBusy s).2 then 1#32 else 0#32)
  | .chip a v => ({ s with mem := Function.update s.mem a v }, 0#32)

def run : State → List Op → State × List (BitVec 32)
  | s, [] => (s, [])
  | s, op :: ops => ((run (step s op).1 ops).1, (step s op).2 :: (run (step s op).1 ops).2)

/-- ltc2984_impl.hpp:18-23: the constructor; the buffer has any contents. -/
def init (mem : Mem) (buffer : Nat → Byte) : State := ⟨true, mem, buffer, 0#32⟩

end Model.Ltc2984
