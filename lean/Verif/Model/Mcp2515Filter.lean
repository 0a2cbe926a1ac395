/-
Model of the acceptance filters of the MCP2515 driver (src/modm/driver/can/mcp2515.hpp, mcp2515_impl.hpp).

The driver is seen through the bytes it sends over SPI.  Between two of its commands the controller may reach the mode it was asked for.
-/
set_option autoImplicit false
namespace Modm.Mcp2515Filter

/-- `MCP2515_FILTER_EXTENDED`, mcp2515.hpp:71-76, and `MCP2515_MASK_EXTENDED`, lines 84-89 -/
def FILTER_EXTENDED (id : BitVec 32) : List (BitVec 8) :=
  [(id >>> 21).setWidth 8,
   (((id >>> 13) &&& 0xe0#32) ||| (1#32 <<< 3) ||| ((id >>> 16) &&& 0x3#32)).setWidth 8,
   (id >>> 8).setWidth 8,
   id.setWidth 8]

def MASK_EXTENDED (id : BitVec 32) : List (BitVec 8) :=
  [(id >>> 21).setWidth 8,
   (((id >>> 13) &&& 0xe0#32) ||| (1#32 <<< 3) ||| ((id >>> 16) &&& 0x3#32)).setWidth 8,
   (id >>> 8).setWidth 8,
   id.setWidth 8]

/-- `MCP2515_FILTER`, lines 78-82, and `MCP2515_MASK`, lines 92-96, of a number or a name -/
def FILTER (id : BitVec 32) : List (BitVec 8) := [(id >>> 3).setWidth 8, (id <<< 5).setWidth 8, 0#8, 0#8]

def MASK (id : BitVec 32) : List (BitVec 8) := [(id >>> 3).setWidth 8, (id <<< 5).setWidth 8, 0#8, 0#8]

/-- `MCP2515_FILTER(a | b)`: the macro has no brackets around `id`, and `|` binds less than the shifts. -/
def FILTER_or (a b : BitVec 32) : List (BitVec 8) := [(a ||| (b >>> 3)).setWidth 8, (a ||| (b <<< 5)).setWidth 8, 0#8, 0#8]

/-- What happens at the controller: a command over SPI, from the falling to the rising edge of chip select; or the controller
reaches the mode it was asked for. -/
inductive Event
  | spi (bytes : List (BitVec 8))
  | modeReached
  deriving DecidableEq

/-- commands and registers -/
def WRITE : BitVec 8 := 0x02#8
def READ : BitVec 8 := 0x03#8
def BIT_MODIFY : BitVec 8 := 0x05#8
def CANSTAT : BitVec 8 := 0x0e#8
def CANCTRL : BitVec 8 := 0x0f#8
def RXB0CTRL : BitVec 8 := 0x60#8
def RXB1CTRL : BitVec 8 := 0x70#8
def REQOP2 : BitVec 8 := 0x80#8
def BUKT : BitVec 8 := 0x04#8

/-- `bitModify`, mcp2515_impl.hpp:340-352 -/
def bitModify (address mask data : BitVec 8) : Event := .spi [BIT_MODIFY, address, mask, data]

/-- `writeRegister`, lines 309-320 -/
def writeRegister (address data : BitVec 8) : Event := .spi [WRITE, address, data]

/-- `readRegister`, lines 322-336; the last byte is `0xff` while the answer comes -/
def readRegister (address : BitVec 8) : Event := .spi [READ, address, 0xff#8]

/-- The inner loop, lines 150-157, from `j` on, with `n` rounds left: the bytes sent and the rest of the table.
Reading beyond the table is undefined. -/
def rowLoop (i j : BitVec 8) : Nat → List (BitVec 8) → Option (List (BitVec 8) × List (BitVec 8))
  | 0, filter => some ([], filter)
  | n + 1, filter =>
    if i = 0x20#8 ∧ 0x08 ≤ j.toNat then some ([], filter)
    else
      match filter with
      | [] => none
      | b :: rest => (rowLoop i (j + 1#8) n rest).map fun r => (b :: r.1, r.2)

/-- One round of the outer loop, lines 145-159 -/
def row (i : BitVec 8) (filter : List (BitVec 8)) : Option (Event × List (BitVec 8)) :=
  (rowLoop i 0#8 12 filter).map fun r => (.spi ([WRITE, i] ++ r.1), r.2)

/-- `setFilter`, lines 131-163.  The controller needs a while to reach the configuration mode: the driver asks `polls` times in vain. -/
def setFilter (polls : Nat) (filter : List (BitVec 8)) : Option (List Event) := do
  let r0 ← row 0x00#8 filter
  let r1 ← row 0x10#8 r0.2
  let r2 ← row 0x20#8 r1.2
  some ([bitModify CANCTRL 0xe0#8 REQOP2] ++ List.replicate polls (readRegister CANSTAT) ++ [.modeReached, readRegister CANSTAT,
    writeRegister RXB0CTRL BUKT, writeRegister RXB1CTRL 0#8, r0.1, r1.1, r2.1, bitModify CANCTRL 0xe0#8 0#8])

end Modm.Mcp2515Filter
