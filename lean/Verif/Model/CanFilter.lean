/-
Model of the acceptance filters of the STM32 bxCAN driver, `modm::platform::CanFilter`
(src/modm/platform/can/stm32/can_filter.hpp.in, can_filter.cpp.in).

The registers are `FMR`, `FA1R`, `FM1R`, `FS1R`, `FFA1R` and the 28 pairs `sFilterRegister`.  `none` is an access to a register which does not exist.
-/
set_option autoImplicit false
namespace Modm.CanFilter

/-- The registers of the filters. -/
structure Regs where
  fmr : BitVec 32
  fa1r : BitVec 32
  fm1r : BitVec 32
  fs1r : BitVec 32
  ffa1r : BitVec 32
  fr1 : Nat → BitVec 32
  fr2 : Nat → BitVec 32

/-- Lines 32-36 -/
def MASK_MODE : BitVec 32 := 0x00#32
def LIST_MODE : BitVec 32 := 0x02#32
def DUAL_MODE : BitVec 32 := 0x00#32
def SINGLE_MODE : BitVec 32 := 0x04#32

/-- `Fifo`, lines 40-44: `true` is `FIFO1` -/
def fifoBits (fifo : Bool) : BitVec 32 := if fifo then 1#32 else 0#32

/-- `ExtendedIdentifier`, lines 88-89.  `rtr` is `true` for `RTR`. -/
def extendedIdentifier (identifier : BitVec 32) (rtr : Bool) : BitVec 32 :=
  (identifier <<< 3) ||| 0x4#32 ||| (if rtr then 0x2#32 else 0#32)

/-- `ExtendedFilterMask`, lines 100-101.  `rtr` is `true` for `RTR_MATCH`. -/
def extendedFilterMask (identifier : BitVec 32) (rtr : Bool) : BitVec 32 :=
  (identifier <<< 3) ||| 0x4#32 ||| (if rtr then 0x2#32 else 0#32)

/-- `StandardIdentifier`, lines 121-122; the 16 bit number is converted to `int` before the shift -/
def standardIdentifier (identifier : BitVec 16) (rtr : Bool) : BitVec 32 :=
  (identifier.setWidth 32 <<< 21) ||| (if rtr then 0x2#32 else 0#32)

/-- `StandardFilterMask`, lines 133-134 -/
def standardFilterMask (identifier : BitVec 16) (rtr : Bool) : BitVec 32 :=
  (identifier.setWidth 32 <<< 21) ||| (if rtr then 0x2#32 else 0#32)

/-- `ExtendedIdentifierShort`, lines 180-184 -/
def extendedIdentifierShort (identifier : BitVec 32) (rtr : Bool) : BitVec 16 :=
  (((identifier >>> 13) &&& 0xffe0#32) ||| ((identifier >>> 15) &&& 0x007f#32) ||| 0x08#32 ||| (if rtr then 0x10#32 else 0#32)).setWidth 16

/-- `ExtendedFilterMaskShort`, lines 198-202 -/
def extendedFilterMaskShort (identifier : BitVec 32) (rtr : Bool) : BitVec 16 :=
  (((identifier >>> 13) &&& 0xffe0#32) ||| ((identifier >>> 15) &&& 0x007f#32) ||| 0x08#32 ||| (if rtr then 0x10#32 else 0#32)).setWidth 16

/-- `StandardIdentifierShort`, lines 223-224 -/
def standardIdentifierShort (identifier : BitVec 16) (rtr : Bool) : BitVec 16 :=
  (((identifier.setWidth 32 <<< 5) &&& 0xffe0#32) ||| (if rtr then 0x10#32 else 0#32)).setWidth 16

/-- `StandardFilterMaskShort`, lines 232-233 -/
def standardFilterMaskShort (identifier : BitVec 16) (rtr : Bool) : BitVec 16 :=
  (((identifier.setWidth 32 <<< 5) &&& 0xffe0#32) ||| (if rtr then 0x10#32 else 0#32)).setWidth 16

/-- a bit of a register is set or cleared -/
def assign (reg mask : BitVec 32) (on : Bool) : BitVec 32 := if on then reg ||| mask else reg &&& ~~~mask

/-- `CAN_FMR_FINIT` -/
def FINIT : BitVec 32 := 1#32

/-- `setFilterBase`, can_filter.cpp.in:22-62 -/
def setFilterBase (r : Regs) (bank : Nat) (flags fr1 fr2 : BitVec 32) : Option Regs :=
  if bank < 28 then
    let mask := 1#32 <<< bank
    some {
      fmr := (r.fmr ||| FINIT) &&& ~~~FINIT
      fa1r := (r.fa1r &&& ~~~mask) ||| mask
      fm1r := assign r.fm1r mask (flags &&& LIST_MODE != 0#32)
      fs1r := assign r.fs1r mask (flags &&& SINGLE_MODE != 0#32)
      ffa1r := assign r.ffa1r mask (flags &&& 1#32 != 0#32)
      fr1 := fun b => if b = bank then fr1 else r.fr1 b
      fr2 := fun b => if b = bank then fr2 else r.fr2 b }
  else none

/-- `setFilter`, can_filter.hpp.in:257-276, for both kinds of identifiers -/
def setFilter (r : Regs) (bank : Nat) (fifo : Bool) (id mask : BitVec 32) : Option Regs :=
  setFilterBase r bank (fifoBits fifo ||| MASK_MODE ||| SINGLE_MODE) id mask

/-- `setIdentifierFilter`, lines 289-293 -/
def setIdentifierFilter (r : Regs) (bank : Nat) (fifo : Bool) (id id2 : BitVec 32) : Option Regs :=
  setFilterBase r bank (fifoBits fifo ||| LIST_MODE ||| SINGLE_MODE) id id2

/-- `setFilterShort`, lines 296-334, for the four combinations of kinds of identifiers -/
def setFilterShort (r : Regs) (bank : Nat) (fifo : Bool) (id1 mask1 id2 mask2 : BitVec 16) : Option Regs :=
  setFilterBase r bank (fifoBits fifo ||| MASK_MODE ||| DUAL_MODE)
    (id1.setWidth 32 ||| (mask1.setWidth 32 <<< 16)) (id2.setWidth 32 ||| (mask2.setWidth 32 <<< 16))

/-- `setIdentifierFilterShort`, lines 351-359 -/
def setIdentifierFilterShort (r : Regs) (bank : Nat) (fifo : Bool) (id1 id2 id3 id4 : BitVec 16) : Option Regs :=
  setFilterBase r bank (fifoBits fifo ||| LIST_MODE ||| DUAL_MODE)
    (id1.setWidth 32 ||| (id2.setWidth 32 <<< 16)) (id3.setWidth 32 ||| (id4.setWidth 32 <<< 16))

/-- `disableFilter`, can_filter.cpp.in:64-77; a shift by 32 or more is undefined -/
def disableFilter (r : Regs) (id : Nat) : Option Regs :=
  if id < 32 then
    some { r with fmr := (r.fmr ||| FINIT) &&& ~~~FINIT, fa1r := r.fa1r &&& ~~~(1#32 <<< id) }
  else none

/-- `CAN_FMR_CAN2SB` -/
def CAN2SB_Msk : BitVec 32 := 0x3f00#32

/-- `setStartFilterBankForCan2`, lines 81-91 -/
def setStartFilterBankForCan2 (r : Regs) (startBank : Nat) : Regs :=
  { r with fmr := (((r.fmr ||| FINIT) &&& ~~~CAN2SB_Msk) ||| (BitVec.ofNat 32 startBank <<< 8)) &&& ~~~FINIT }

end Modm.CanFilter
