set_option autoImplicit false

/-!
Model of `modm::platform::BitBangOneWireMaster` (src/modm/platform/one_wire/bitbang/bitbang_master_impl.hpp.in):
the bytes, the search for devices and the verification of a device.

The pin and its timing are replaced by the bus: the devices pull the line low (wired and), and each device follows the
search protocol of the 1-Wire standard.  A ROM code is a `BitVec 64`, its bits are sent from the lowest one on.
-/

namespace Modm.OneWire

/-- The bus during a search: the devices that still take part, and the number of the bits done -/
structure Bus where
  active : List (BitVec 64)
  pos : Nat

/-- `readBit` in the first slot of a bit: the line is high if every device that takes part sends a one -/
def Bus.readBit (b : Bus) : Bool := b.active.all fun d => d.getLsbD b.pos

/-- `readBit` in the second slot of a bit: the devices send the complement -/
def Bus.readComplement (b : Bus) : Bool := b.active.all fun d => !d.getLsbD b.pos

/-- `writeBit` in the third slot of a bit: the devices with another bit drop out -/
def Bus.writeBit (b : Bus) (bit : Bool) : Bus :=
  { active := b.active.filter fun d => d.getLsbD b.pos == bit, pos := b.pos + 1 }

/-- The static members, impl.hpp.in:23-27; `crc8` is set by each search before it is used -/
structure Search where
  lastDiscrepancy : BitVec 8
  lastFamilyDiscrepancy : BitVec 8
  lastDeviceFlag : Bool
  romBuffer : List (BitVec 8)
  deriving DecidableEq

/-- `resetSearch()`, impl.hpp.in:142-149 -/
def Search.resetSearch (s : Search) : Search :=
  { s with lastDiscrepancy := 0, lastFamilyDiscrepancy := 0, lastDeviceFlag := false }

/-- `resetSearch(familyCode)`, impl.hpp.in:152-165 -/
def Search.resetSearchFamily (s : Search) (familyCode : BitVec 8) : Search :=
  { s with
    lastDiscrepancy := 64
    lastFamilyDiscrepancy := 0
    lastDeviceFlag := false
    romBuffer := [familyCode, 0, 0, 0, 0, 0, 0, 0] }

/-- The loop body of `crcUpdate`, impl.hpp.in:253-258 -/
def crcStep (crc : BitVec 8) : BitVec 8 :=
  if crc &&& 0x01 ≠ 0 then (crc >>> 1) ^^^ 0x8C else crc >>> 1

/-- `crcUpdate`, impl.hpp.in:244-262 (the portable variant) -/
def crcUpdate (crc data : BitVec 8) : BitVec 8 :=
  crcStep (crcStep (crcStep (crcStep (crcStep (crcStep (crcStep (crcStep (crc ^^^ data))))))))

/-- The local variables of `performSearch`, impl.hpp.in:288-295, with the members it changes in the loop -/
structure Loop where
  idBitNumber : BitVec 8
  lastZeroBit : BitVec 8
  romByteNumber : Nat
  romByteMask : BitVec 8
  crc8 : BitVec 8
  lastFamilyDiscrepancy : BitVec 8
  romBuffer : List (BitVec 8)
  bus : Bus

/-- The choice of the direction at a discrepancy, impl.hpp.in:315-323 -/
def direction (lastDiscrepancy : BitVec 8) (l : Loop) : Bool :=
  if l.idBitNumber < lastDiscrepancy then decide (l.romBuffer.getD l.romByteNumber 0 &&& l.romByteMask > 0)
  else decide (l.idBitNumber = lastDiscrepancy)

/-- The end of the loop body, impl.hpp.in:334-360: store the bit, write it to the bus, go on to the next bit -/
def advance (l : Loop) (searchDirection : Bool) : Loop :=
  let byte := l.romBuffer.getD l.romByteNumber 0
  let byte := if searchDirection then byte ||| l.romByteMask else byte &&& ~~~l.romByteMask
  let l := { l with
    romBuffer := l.romBuffer.set l.romByteNumber byte
    bus := l.bus.writeBit searchDirection
    idBitNumber := l.idBitNumber + 1
    romByteMask := l.romByteMask <<< 1 }
  if l.romByteMask = 0 then
    { l with crc8 := crcUpdate l.crc8 byte, romByteNumber := l.romByteNumber + 1, romByteMask := 1 }
  else l

/-- The loop body, impl.hpp.in:299-361; `none` is the `break` -/
def body (lastDiscrepancy : BitVec 8) (l : Loop) : Option Loop :=
  let idBit := l.bus.readBit
  let complementIdBit := l.bus.readComplement
  if idBit && complementIdBit then none
  else if idBit ≠ complementIdBit then some (advance l idBit)
  else
    let searchDirection := direction lastDiscrepancy l
    let l := if searchDirection then l
      else if l.idBitNumber < 9 then
        { l with lastZeroBit := l.idBitNumber, lastFamilyDiscrepancy := l.idBitNumber }
      else { l with lastZeroBit := l.idBitNumber }
    some (advance l searchDirection)

/-- The loop, impl.hpp.in:297-362; each pass without `break` advances by one of 64 bits -/
def search (lastDiscrepancy : BitVec 8) : Nat → Loop → Loop
  | 0, l => l
  | fuel + 1, l =>
    match body lastDiscrepancy l with
    | none => l
    | some l' => if l'.romByteNumber < 8 then search lastDiscrepancy fuel l' else l'

/-- The variables before the loop, impl.hpp.in:284-295 -/
def Search.start (s : Search) (devices : List (BitVec 64)) : Loop :=
  { idBitNumber := 1, lastZeroBit := 0, romByteNumber := 0, romByteMask := 1, crc8 := 0,
    lastFamilyDiscrepancy := s.lastFamilyDiscrepancy, romBuffer := s.romBuffer, bus := ⟨devices, 0⟩ }

/-- The end of `performSearch` without a device, impl.hpp.in:377-384 -/
def Search.notFound (s : Search) : Bool × Search :=
  (false, { s with lastDiscrepancy := 0, lastDeviceFlag := false, lastFamilyDiscrepancy := 0 })

/-- `performSearch`, impl.hpp.in:266-387.  `touchReset` is true if there is a device. -/
def Search.performSearch (s : Search) (devices : List (BitVec 64)) : Bool × Search :=
  if s.lastDeviceFlag then s.notFound
  else if devices.isEmpty then s.notFound
  else
    let l := search s.lastDiscrepancy 64 (s.start devices)
    let s := { s with romBuffer := l.romBuffer, lastFamilyDiscrepancy := l.lastFamilyDiscrepancy }
    if l.idBitNumber < 65 ∨ l.crc8 ≠ 0 then s.notFound
    else
      let s := { s with
        lastDiscrepancy := l.lastZeroBit, lastDeviceFlag := decide (l.lastZeroBit = 0) }
      if s.romBuffer.getD 0 0 = 0 then s.notFound else (true, s)

/-- `searchNext`, impl.hpp.in:167-178: the ROM code if it returns true -/
def Search.searchNext (s : Search) (devices : List (BitVec 64)) : Option (List (BitVec 8)) × Search :=
  let r := s.performSearch devices
  (if r.1 then some r.2.romBuffer else none, r.2)

/-- `searchSkipCurrentFamily`, impl.hpp.in:181-193 -/
def Search.searchSkipCurrentFamily (s : Search) : Search :=
  { s with
    lastDiscrepancy := s.lastFamilyDiscrepancy
    lastFamilyDiscrepancy := 0
    lastDeviceFlag := s.lastDeviceFlag || decide (s.lastFamilyDiscrepancy = 0) }

/-- `verifyDevice`, impl.hpp.in:195-241 -/
def Search.verifyDevice (s : Search) (devices : List (BitVec 64)) (rom : List (BitVec 8)) : Bool × Search :=
  let r := { s with lastDiscrepancy := 64, lastDeviceFlag := false }.performSearch devices
  (r.1 && rom == r.2.romBuffer, s)

/-- `writeByte`, impl.hpp.in:86-96: the bits written -/
def writeByte (data : BitVec 8) : List Bool :=
  go 8 data
where
  go : Nat → BitVec 8 → List Bool
    | 0, _ => []
    | n + 1, data => decide (data &&& 0x01 ≠ 0) :: go n (data >>> 1)

/-- `readByte`, impl.hpp.in:98-112, for the bits the device sends -/
def readByte (bits : Nat → Bool) : BitVec 8 :=
  (List.range 8).foldl (fun result i => if bits i then (result >>> 1) ||| 0x80 else result >>> 1) 0

/-- `touchByte`, impl.hpp.in:115-139: the result; a device sends `bits i` in slot `i` if the master reads there -/
def touchByte (data : BitVec 8) (bits : Nat → Bool) : BitVec 8 :=
  ((List.range 8).foldl (fun (p : BitVec 8 × BitVec 8) i =>
    (if p.2 &&& 0x01 ≠ 0 ∧ bits i then (p.1 >>> 1) ||| 0x80 else p.1 >>> 1, p.2 >>> 1)) (0, data)).1

end Modm.OneWire
