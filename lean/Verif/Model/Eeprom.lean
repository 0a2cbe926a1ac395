/-
Model of the drivers of I2C EEPROMs (src/modm/driver/storage/i2c_eeprom.hpp, i2c_eeprom_impl.hpp, at24mac402.hpp, at24mac402_impl.hpp)
on top of `I2cWriteReadTransaction` (src/modm/architecture/interface/i2c_transaction.hpp).

A buffer is the list of its bytes.  `none` is undefined behaviour.  The functions are resumable; that a call is repeated until the bus
is free is not modelled, only the transaction that is started in the end.
-/
set_option autoImplicit false
namespace Modm.Eeprom

abbrev Byte := BitVec 8

/-- What a pointer to bytes points at: bytes of the caller, the address buffer of the transaction, or a variable that does not exist any more. -/
inductive Buffer
  | null
  | bytes (l : List Byte)
  | addressBuffer
  | dead

/-- `I2c::Operation`, i2c.hpp:49-56 -/
inductive Operation
  | stop | restart | write | read
  deriving DecidableEq

/-- `DataTransmissionAdapter`, i2c_eeprom.hpp:29-54, with the members of its base classes -/
structure Adapter where
  address : Byte
  readSize : Nat
  writeSize : Nat
  writeBuffer : Buffer
  isReading : Bool
  addressBuffer : List Byte
  writeAddress : Bool

/-- `I2cTransaction::setAddress`, i2c_transaction.hpp:100-104 -/
def Adapter.setAddress (t : Adapter) (address : Byte) : Adapter := { t with address := address <<< 1 }

/-- `getAddress`, i2c_eeprom.hpp:43-45 -/
def Adapter.getAddress (t : Adapter) : Byte := t.address >>> 1

/-- `configureWriteRead`, i2c_transaction.hpp:249-291, of a transaction that is not busy -/
def Adapter.configureWriteRead (t : Adapter) (writeBuffer : Buffer) (writeSize readSize : Nat) : Adapter :=
  { t with readSize := readSize, writeBuffer := writeBuffer, writeSize := writeSize, isReading := writeSize = 0 }

/-- the address in `addressBuffer`, i2c_eeprom_impl.hpp:81-86 and 98-103; `wide` is `AddressBytes == 2` -/
def addressBytes (wide : Bool) (address : BitVec 16) : List Byte :=
  if wide then [(address >>> 8).setWidth 8, address.setWidth 8] else [address.setWidth 8]

/-- `configureWrite`, i2c_eeprom_impl.hpp:75-92 -/
def Adapter.configureWrite (wide : Bool) (t : Adapter) (address : BitVec 16) (buffer : Buffer) (size : Nat) : Adapter :=
  { t.configureWriteRead buffer size 0 with addressBuffer := addressBytes wide address, writeAddress := true }

/-- `configureRead`, i2c_eeprom_impl.hpp:94-107 -/
def Adapter.configureRead (wide : Bool) (t : Adapter) (address : BitVec 16) (size : Nat) : Adapter :=
  { t with addressBuffer := addressBytes wide address, writeAddress := false }.configureWriteRead .addressBuffer (if wide then 2 else 1) size

/-- `starting`, i2c_transaction.hpp:326-340 -/
def Adapter.starting (t : Adapter) : Byte × Operation :=
  (t.address, if t.isReading then (if t.readSize = 0 then .stop else .read) else (if t.writeSize = 0 then .stop else .write))

/-- `writing`, i2c_eeprom_impl.hpp:109-119 and i2c_transaction.hpp:342-373 -/
def Adapter.writing (t : Adapter) : (Buffer × Nat × Operation) × Adapter :=
  if t.writeAddress then ((.addressBuffer, t.addressBuffer.length, .write), { t with writeAddress := false })
  else
    let reading := t.readSize ≠ 0
    ((t.writeBuffer, t.writeSize, if reading then .restart else .stop), { t with isReading := reading })

/-- The bytes a master finds when it follows the pointer. -/
def Adapter.fetch (t : Adapter) : Buffer → Nat → Option (List Byte)
  | .null, _ => some []
  | .bytes l, n => if n ≤ l.length then some (l.take n) else none
  | .addressBuffer, n => if n ≤ t.addressBuffer.length then some (t.addressBuffer.take n) else none
  | .dead, _ => none

/-- What happens on the bus: (repeated) start with an address and direction, bytes written, a number of bytes read, stop. -/
inductive Bus
  | start (address : Byte) (read : Bool)
  | write (b : Byte)
  | read (n : Nat)
  | stop
  deriving DecidableEq

/-- What a master does with a transaction, as long as the device acknowledges (i2c_transaction.hpp:20-33, and C109 for the bit banged one). -/
def loop : Nat → Operation → Adapter → Option (List Bus)
  | 0, _, _ => none
  | _ + 1, .stop, _ => some [.stop]
  | k + 1, .restart, t =>
    let s := t.starting
    (loop k s.2 t).map fun r => .start s.1 (s.2 == .read) :: r
  | k + 1, .write, t => do
    let w := t.writing
    let bytes ← t.fetch w.1.1 w.1.2.1
    let r ← loop k w.1.2.2 w.2
    some (bytes.map Bus.write ++ r)
  | k + 1, .read, t => (loop k .stop t).map fun r => .read t.readSize :: r

/-- The transaction from start to stop; no transaction of these drivers has more than six operations. -/
def transfer (t : Adapter) : Option (List Bus) := loop 6 .restart t

/-- The choice of the device, i2c_eeprom_impl.hpp:34-39 and 55-60 -/
def select (wide : Bool) (t : Adapter) (address : BitVec 32) : Adapter :=
  if wide then
    if address &&& 0x10000#32 ≠ 0#32 then t.setAddress (t.getAddress ||| 0b100#8) else t.setAddress (t.getAddress &&& ~~~0b100#8)
  else t.setAddress t.getAddress

/-- `write`, i2c_eeprom_impl.hpp:27-47; the address is passed on as 16 bits -/
def write (wide : Bool) (t : Adapter) (address : BitVec 32) (data : Buffer) (length : Nat) : Adapter :=
  (select wide t address).configureWrite wide (address.setWidth 16) data length

/-- `read`, i2c_eeprom_impl.hpp:50-68 -/
def read (wide : Bool) (t : Adapter) (address : BitVec 32) (length : Nat) : Adapter :=
  (select wide t address).configureRead wide (address.setWidth 16) length

/-- `writeByte`, i2c_eeprom.hpp:81-85.  `data` is a parameter.  The pointer to it is stored in the transaction when the function is first called; a master that works
with interrupts follows it after the function has returned. -/
def writeByte (wide atOnce : Bool) (t : Adapter) (address : BitVec 32) (data : Byte) : Adapter :=
  write wide t address (if atOnce then .bytes [data] else .dead) 1

/-- `write(address, const T&)`, i2c_eeprom.hpp:107-112 -/
def writeValue (wide : Bool) (t : Adapter) (address : BitVec 32) (value : List Byte) : Adapter :=
  write wide t address (.bytes value) value.length

/-- `read(uint16_t address, T&)`, i2c_eeprom.hpp:133-138 -/
def readValue (wide : Bool) (t : Adapter) (address : BitVec 32) (size : Nat) : Adapter :=
  let address16 : BitVec 16 := address.setWidth 16
  read wide t (address16.setWidth 32) size

/-! ## At24Mac402 -/

/-- The driver of the AT24MAC402: an `I2cEeprom` with addresses of one byte, and `address_`, at24mac402.hpp:30-90 -/
structure Mac where
  base : Adapter
  address_ : Byte

/-- `setAddress`, at24mac402_impl.hpp:22-28 -/
def Mac.setAddress (m : Mac) (address : Byte) : Mac :=
  let a := (address &&& 0b111#8) ||| 0b1010000#8
  ⟨m.base.setAddress a, a⟩

/-- `readMac`, lines 30-36: 6 bytes -/
def Mac.readMac (m : Mac) : Mac := { m with base := read false (m.base.setAddress (m.address_ ||| 0b1000#8)) 0x9a#32 6 }

/-- `readUniqueId`, lines 38-44: 16 bytes -/
def Mac.readUniqueId (m : Mac) : Mac := { m with base := read false (m.base.setAddress (m.address_ ||| 0b1000#8)) 0x80#32 16 }

/-- `ping`, lines 46-52 -/
def Mac.ping (m : Mac) : Mac := { m with base := (m.base.setAddress m.address_).configureWriteRead .null 0 0 }

/-- `write`, lines 62-68 -/
def Mac.write (m : Mac) (address : BitVec 32) (data : List Byte) : Mac :=
  { m with base := Eeprom.write false (m.base.setAddress m.address_) address (.bytes data) data.length }

/-- `read`, lines 87-93 and 95-102 -/
def Mac.read (m : Mac) (address : BitVec 32) (length : Nat) : Mac :=
  { m with base := Eeprom.read false (m.base.setAddress m.address_) address length }

/-- A call of the functions of `At24Mac402`. -/
inductive MacCall
  | setAddress (a : Byte)
  | readMac | readUniqueId | ping
  | write (address : BitVec 32) (data : List Byte)
  | read (address : BitVec 32) (length : Nat)

def Mac.call (m : Mac) : MacCall → Mac
  | .setAddress a => m.setAddress a
  | .readMac => m.readMac
  | .readUniqueId => m.readUniqueId
  | .ping => m.ping
  | .write a d => m.write a d
  | .read a n => m.read a n

end Modm.Eeprom
