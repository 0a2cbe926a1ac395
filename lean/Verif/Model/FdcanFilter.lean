/-
Model of the acceptance filters of the STM32 FDCAN driver (src/modm/platform/can/stm32-fdcan/message_ram.hpp, can.cpp.in).

The message RAM is a function from byte addresses to words of 32 bits.  `EnterInitMode` (can.hpp.in:337-360), which stops the
controller while a filter is changed, is not modelled.
-/
set_option autoImplicit false
namespace Modm.FdcanFilter

/-- The message RAM: the word at a byte address. -/
abbrev Ram := Nat → BitVec 32

/-- `*reinterpret_cast<uint32_t*>(address) = value` -/
def Ram.write (ram : Ram) (address : Nat) (value : BitVec 32) : Ram := fun a => if a = address then value else ram a

/-- `FilterType`, message_ram.hpp:78-83 -/
inductive FilterType
  | range | dual | classic
  deriving DecidableEq

def FilterType.bits : FilterType → BitVec 32
  | .range => 0#32
  | .dual => 1#32 <<< 30
  | .classic => 1#32 <<< 31

/-- `FilterConfig`, lines 85-95 -/
inductive FilterConfig
  | disabled | fifo0 | fifo1 | reject
  deriving DecidableEq

def FilterConfig.bits : FilterConfig → BitVec 32
  | .disabled => 0#32 <<< 27
  | .fifo0 => 1#32 <<< 27
  | .fifo1 => 2#32 <<< 27
  | .reject => 3#32 <<< 27

/-- Lines 97-106 -/
def StandardFilterCount : Nat := 28
def StandardFilterSize : Nat := 1 * 4
def ExtendedFilterCount : Nat := 8
def ExtendedFilterSize : Nat := 2 * 4
def RxFifoElements : Nat := 3
def RxFifoElementSize : Nat := 18 * 4
def TxEventFifoEntries : Nat := 3
def TxEventFifoEntrySize : Nat := 2 * 4
def TxFifoElements : Nat := 3
def TxFifoElementSize : Nat := 18 * 4

/-- `Size`, lines 109-114 -/
def Size : Nat :=
  StandardFilterCount * StandardFilterSize + ExtendedFilterCount * ExtendedFilterSize + RxFifoElements * RxFifoElementSize * 2 +
    TxEventFifoEntries * TxEventFifoEntrySize + TxFifoElements * TxFifoElementSize

/-- Lines 116-123; `base` is `SRAMCAN_BASE`, `k` is `InstanceIndex` -/
def RamBase (base k : Nat) : Nat := base + Size * k
def FilterListStandard (base k : Nat) : Nat := RamBase base k + 0
def FilterListExtended (base k : Nat) : Nat := FilterListStandard base k + StandardFilterCount * StandardFilterSize
def RxFifo0 (base k : Nat) : Nat := FilterListExtended base k + ExtendedFilterCount * ExtendedFilterSize
def RxFifo1 (base k : Nat) : Nat := RxFifo0 base k + RxFifoElements * RxFifoElementSize
def TxEventFifo (base k : Nat) : Nat := RxFifo1 base k + RxFifoElements * RxFifoElementSize
def TxFifo (base k : Nat) : Nat := TxEventFifo base k + TxEventFifoEntries * TxEventFifoEntrySize

/-- `RxFifoAddress::ptr`, lines 132-137 -/
def rxFifoElement (base k fifoIndex getIndex : Nat) : Nat :=
  RxFifo0 base k + RxFifoElementSize * (RxFifoElements * fifoIndex + getIndex)

/-- `txFifoElement`, lines 141-145 -/
def txFifoElement (base k putIndex : Nat) : Nat := TxFifo base k + putIndex * TxFifoElementSize

/-- `standardFilter`, lines 148-153 -/
def standardFilter (base k index : Nat) : Nat := FilterListStandard base k + index * StandardFilterSize

/-- `extendedFilter`, lines 156-161 -/
def extendedFilter (base k index : Nat) : Nat := FilterListExtended base k + index * ExtendedFilterSize

/-- The word of `setStandardFilter`, lines 239-245 -/
def standardWord (type : FilterType) (config : FilterConfig) (id1 id2 : BitVec 16) : BitVec 32 :=
  let idMask := (1#32 <<< 11) - 1#32
  type.bits ||| config.bits ||| (id2.setWidth 32 &&& idMask) ||| ((id1.setWidth 32 &&& idMask) <<< 16)

/-- The word of `setExtendedFilter0`, lines 247-252 -/
def extendedWord0 (config : FilterConfig) (id : BitVec 32) : BitVec 32 :=
  let idMask := (1#32 <<< 29) - 1#32
  (config.bits <<< 2) ||| (id &&& idMask)

/-- The word of `setExtendedFilter1`, lines 254-259 -/
def extendedWord1 (type : FilterType) (id : BitVec 32) : BitVec 32 :=
  let idMask := (1#32 <<< 29) - 1#32
  type.bits ||| (id &&& idMask)

/-- `setStandardFilter` and `setStandardRangeFilter`, can.cpp.in:484-541: identifier and mask are `classic`, two identifiers `dual` -/
def setStandard (base k : Nat) (ram : Ram) (index : BitVec 8) (config : FilterConfig) (type : FilterType) (a b : BitVec 16) : Ram × Bool :=
  if StandardFilterCount ≤ index.toNat then (ram, false)
  else (ram.write (standardFilter base k index.toNat) (standardWord type config a b), true)

/-- `setExtendedFilter` and `setExtendedRangeFilter`, can.cpp.in:544-603 -/
def setExtended (base k : Nat) (ram : Ram) (index : BitVec 8) (config : FilterConfig) (type : FilterType) (a b : BitVec 32) : Ram × Bool :=
  if ExtendedFilterCount ≤ index.toNat then (ram, false)
  else
    ((ram.write (extendedFilter base k index.toNat) (extendedWord0 config a)).write (extendedFilter base k index.toNat + 4) (extendedWord1 type b), true)

/-- the loop of `clearStandardFilters`, can.cpp.in:606-613, for the filters from `i` to `i + n - 1` -/
def clearStandardLoop (base k : Nat) (ram : Ram) (i : Nat) : Nat → Ram
  | 0 => ram
  | n + 1 => clearStandardLoop base k (ram.write (standardFilter base k i) 0#32) (i + 1) n

/-- `clearStandardFilters`, can.cpp.in:606-613 -/
def clearStandard (base k : Nat) (ram : Ram) : Ram := clearStandardLoop base k ram 0 StandardFilterCount

/-- the loop of `clearExtendedFilters`, can.cpp.in:616-623 -/
def clearExtendedLoop (base k : Nat) (ram : Ram) (i : Nat) : Nat → Ram
  | 0 => ram
  | n + 1 => clearExtendedLoop base k (ram.write (extendedFilter base k i) 0#32) (i + 1) n

/-- `clearExtendedFilters`, can.cpp.in:616-623 -/
def clearExtended (base k : Nat) (ram : Ram) : Ram := clearExtendedLoop base k ram 0 ExtendedFilterCount

/-- A call of the functions of the filters. -/
inductive Call
  | standard (index : BitVec 8) (config : FilterConfig) (type : FilterType) (a b : BitVec 16)
  | extended (index : BitVec 8) (config : FilterConfig) (type : FilterType) (a b : BitVec 32)
  | clearStandard
  | clearExtended

def call (base k : Nat) (ram : Ram) : Call → Ram × Bool
  | .standard i c t a b => setStandard base k ram i c t a b
  | .extended i c t a b => setExtended base k ram i c t a b
  | .clearStandard => (clearStandard base k ram, true)
  | .clearExtended => (clearExtended base k ram, true)

/-- Calls one after the other, with their answers. -/
def calls (base k : Nat) (ram : Ram) : List Call → Ram × List Bool
  | [] => (ram, [])
  | c :: cs =>
    let r := call base k ram c
    let q := calls base k r.1 cs
    (q.1, r.2 :: q.2)

/-- `RXGFC` as `initializeWithPrescaler` sets it (can.cpp.in:195-198): with the masks of the header of the device,
`LSE` is 15, `LSS` is 31, `ANFE` and `ANFS` are 3. -/
def RXGFC (overwrite : Bool) : BitVec 32 :=
  (if overwrite then 0x100#32 ||| 0x200#32 else 0#32) ||| (0xf#32 <<< 24) ||| (0x1f#32 <<< 16) ||| (3#32 <<< 2) ||| (3#32 <<< 4)

end Modm.FdcanFilter
