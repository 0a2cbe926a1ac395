import Verif.Model.Mcp2515Filter
/-
The MCP2515 as its data sheet (DS20001801) describes it: the SPI commands (chapter 12), the modes (chapter 10) and the filters (4.5).
And what the user asks for.
-/
set_option autoImplicit false
namespace Spec.Mcp2515Filter
open Modm.Mcp2515Filter (Event)

/-! ## The controller -/

/-- The registers, and the mode in which the controller is (`OPMOD`). -/
structure Chip where
  reg : Nat → BitVec 8
  mode : BitVec 3

/-- Acceptance filters and masks (rows 0 to 2, columns 0 to 11 or 7) can be written in configuration mode only. -/
def filterRegister (a : Nat) : Bool := a < 0x0c || (0x10 ≤ a && a < 0x1c) || (0x20 ≤ a && a < 0x28)

/-- A register is written.  `CANSTAT` is read-only, and so are `TEC` and `REC`. -/
def Chip.write (c : Chip) (a : Nat) (v : BitVec 8) : Chip :=
  if (filterRegister a && c.mode != 4#3) || a % 16 = 0x0e || a = 0x1c || a = 0x1d then c
  else { c with reg := fun b => if b = a then v else c.reg b }

/-- Consecutive registers. -/
def Chip.writes (c : Chip) (a : Nat) : List (BitVec 8) → Chip
  | [] => c
  | v :: vs => (c.write a v).writes (a + 1) vs

/-- A command, or the mode asked for in bits 7 to 5 of `CANCTRL` is reached. -/
def Chip.step (c : Chip) : Event → Chip
  | .modeReached => { c with mode := (c.reg 0x0f).extractLsb' 5 3 }
  | .spi (0x02#8 :: a :: vs) => c.writes a.toNat vs
  | .spi [0x05#8, a, mask, data] => c.write a.toNat ((c.reg a.toNat &&& ~~~mask) ||| (data &&& mask))
  | .spi _ => c

def Chip.run (c : Chip) (es : List Event) : Chip := es.foldl Chip.step c

/-- What the filters see of a frame.  `base` are the first 11 bits of the identifier, `ext` the others, `data` the first two bytes. -/
structure Frame where
  extended : Bool
  base : BitVec 11
  ext : BitVec 18
  data : BitVec 16

def Frame.id29 (f : Frame) : BitVec 29 := f.base ++ f.ext

/-- `SIDH`, `SIDL`, `EID8`, `EID0` at an address -/
def Chip.sid (c : Chip) (a : Nat) : BitVec 11 := c.reg a ++ (c.reg (a + 1)).extractLsb' 5 3
def Chip.eid (c : Chip) (a : Nat) : BitVec 18 := (c.reg (a + 1)).extractLsb' 0 2 ++ c.reg (a + 2) ++ c.reg (a + 3)
def Chip.exide (c : Chip) (a : Nat) : Bool := (c.reg (a + 1)).getLsbD 3

/-- The filter at `a` with the mask at `m` lets the frame pass.  The filter decides which kind of frames it is for.
For standard frames the further bits are compared with the data. -/
def Chip.passes (c : Chip) (m a : Nat) (f : Frame) : Bool :=
  c.exide a == f.extended && f.base &&& c.sid m == c.sid a &&& c.sid m &&
  if f.extended then f.ext &&& c.eid m == c.eid a &&& c.eid m
  else f.data &&& (c.eid m).setWidth 16 == (c.eid a).setWidth 16 &&& (c.eid m).setWidth 16

/-- The frame is taken by the first buffer; `RXM` of the buffer is 3 if it takes everything. -/
def Chip.buffer0 (c : Chip) (f : Frame) : Bool :=
  (c.reg 0x60).extractLsb' 5 2 == 3#2 || c.passes 0x20 0x00 f || c.passes 0x20 0x04 f

/-- The frame is taken by the second buffer if not by the first. -/
def Chip.buffer1 (c : Chip) (f : Frame) : Bool :=
  (c.reg 0x70).extractLsb' 5 2 == 3#2 || c.passes 0x24 0x08 f || c.passes 0x24 0x10 f || c.passes 0x24 0x14 f || c.passes 0x24 0x18 f

/-! ## The user -/

/-- A group of filters with a mask, all for standard or all for extended messages. -/
inductive Group (n : Nat)
  | standard (filters : Fin n → BitVec 32) (mask : BitVec 32)
  | extended (filters : Fin n → BitVec 32) (mask : BitVec 32)

/-- The frames the group is for: the bits of the identifier selected by the mask are those of one of the filters. -/
def Group.wants {n : Nat} (f : Frame) : Group n → Prop
  | .standard filters mask => f.extended = false ∧
      ∃ i, ∀ j, j < 11 → mask.getLsbD j = true → f.base.getLsbD j = (filters i).getLsbD j
  | .extended filters mask => f.extended = true ∧
      ∃ i, ∀ j, j < 29 → mask.getLsbD j = true → f.id29.getLsbD j = (filters i).getLsbD j

end Spec.Mcp2515Filter
