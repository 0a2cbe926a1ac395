import Mathlib.Logic.Function.Basic
/-!
The matrix of 12 × 16 LEDs with IS31FL3733.

Models `/repo/src/modm/driver/display/is31fl3733.hpp:44-73,98-286`.  Each transaction on the bus either happens as a whole or
fails and changes nothing.  The chip has four pages; the page is changed by a write to 0xFD, which must follow the write of
0xC5 to 0xFE (data sheet); other writes store bytes at consecutive addresses of the page.
-/

set_option autoImplicit false

namespace Model.Is31fl3733

structure Chip where
  page : Nat
  unlocked : Bool
  regs : Nat → Nat → BitVec 8

/-- A write transaction as seen by the chip: an address and bytes. -/
def chipWrite (c : Chip) (addr : Nat) (bytes : List (BitVec 8)) : Chip :=
  if addr = 0xFE then { c with unlocked := decide (bytes = [0xC5#8]) }
  else if addr = 0xFD then
    match c.unlocked, bytes with
    | true, [p] => { c with page := p.toNat, unlocked := false }
    | _, _ => c
  else { c with regs := fun p a => if p = c.page ∧ addr ≤ a then (bytes[a - addr]?).getD (c.regs p a) else c.regs p a }

structure State where
  chip : Chip
  currentPage : Nat
  ledOnOff : Nat → BitVec 16
  ledPwm : Nat → Nat → BitVec 8

/-- is31fl3733.hpp:271-285: the beginning: the page is unknown. -/
def init (chip : Chip) (on : Nat → BitVec 16) (pwm : Nat → Nat → BitVec 8) : State := ⟨chip, 0xff, on, pwm⟩

def SizeX : Nat := 12
def SizeY : Nat := 16

/-- is31fl3733.hpp:119-128: `enable()`. -/
def enable (s : State) (x y : Nat) : State × Bool :=
  if x < SizeX ∧ y < SizeY then ({ s with ledOnOff := Function.update s.ledOnOff x (s.ledOnOff x ||| (1#16 <<< y)) }, true) else (s, false)

/-- is31fl3733.hpp:129-130: `enableAll()`. -/
def enableAll (s : State) : State := { s with ledOnOff := fun _ => 0xffff#16 }

/-- is31fl3733.hpp:132-141: `disable()`. -/
def disable (s : State) (x y : Nat) : State × Bool :=
  if x < SizeX ∧ y < SizeY then ({ s with ledOnOff := Function.update s.ledOnOff x (s.ledOnOff x &&& ~~~(1#16 <<< y)) }, true) else (s, false)

/-- is31fl3733.hpp:142-143: `disableAll()`. -/
def disableAll (s : State) : State := { s with ledOnOff := fun _ => 0#16 }

/-- is31fl3733.hpp:145-154: `setPwm()`. -/
def setPwm (s : State) (x y : Nat) (v : BitVec 8) : State × Bool :=
  if x < SizeX ∧ y < SizeY then ({ s with ledPwm := Function.update s.ledPwm x (Function.update (s.ledPwm x) y v) }, true) else (s, false)

/-- is31fl3733.hpp:155-156: `setAllPwm()`. -/
def setAllPwm (s : State) (v : BitVec 8) : State := { s with ledPwm := fun _ _ => v }

/-- A transaction: happens or fails. -/
def transact (s : State) (ok : Bool) (addr : Nat) (bytes : List (BitVec 8)) : State × Bool :=
  if ok then ({ s with chip := chipWrite s.chip addr bytes }, true) else (s, false)

/-- Which transactions of a function fail. -/
structure Bus where
  lock : Bool
  command : Bool
  data : Bool

/-- is31fl3733.hpp:249-268: `setPage()` for a register with a page. -/
def setPage (s : State) (b : Bus) (page : Nat) : State × Bool :=
  if page ≠ s.currentPage then
    let r := transact s b.lock 0xFE [0xC5#8]
    if r.2 = false then (r.1, false)
    else
      let r := transact r.1 b.command 0xFD [BitVec.ofNat 8 page]
      if r.2 = false then (r.1, false)
      else ({ r.1 with currentPage := page }, true)
  else (s, true)

/-- is31fl3733.hpp:223-234: `writeRegister()`. -/
def writeRegister (s : State) (b : Bus) (page addr : Nat) (v : BitVec 8) : State × Bool :=
  let r := setPage s b page
  if r.2 = false then (r.1, false) else transact r.1 b.data addr [v]

/-- is31fl3733.hpp:271-278: the words in memory as bytes, low byte first. -/
def onOffBytes (on : Nat → BitVec 16) : List (BitVec 8) := (List.range 24).map (fun i => (on (i / 2) >>> (8 * (i % 2))).setWidth 8)

def pwmBytes (pwm : Nat → Nat → BitVec 8) : List (BitVec 8) := (List.range 192).map (fun i => pwm (i / 16) (i % 16))

/-- is31fl3733.hpp:202-210: `writeOnOff()`. -/
def writeOnOff (s : State) (b : Bus) : State × Bool :=
  let r := setPage s b 0
  if r.2 = false then (r.1, false) else transact r.1 b.data 0x00 (onOffBytes r.1.ledOnOff)

/-- is31fl3733.hpp:212-220: `writePwm()`. -/
def writePwm (s : State) (b : Bus) : State × Bool :=
  let r := setPage s b 1
  if r.2 = false then (r.1, false) else transact r.1 b.data 0x00 (pwmBytes r.1.ledPwm)

/-- is31fl3733.hpp:167-169: `reset()`: reading the register in page 3; the chip then selects `to`, or keeps the page. -/
def reset (s : State) (b : Bus) (to : Option Nat) : State × Bool :=
  let r := setPage s b 3
  if r.2 = false then (r.1, false)
  else if b.data then ({ r.1 with chip := { r.1.chip with page := to.getD r.1.chip.page, unlocked := false, regs := fun _ _ => 0#8 } }, true)
  else (r.1, false)

end Model.Is31fl3733
