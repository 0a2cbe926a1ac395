import Mathlib.Logic.Function.Basic

/-!
Direct memory access of STM32: flags and interrupts of the channels.

Models `/repo/src/modm/platform/dma/stm32/dma.hpp.in`, `dma_hal.hpp.in` and `dma_hal_impl.hpp.in` for the
controllers with channels (`stream = false`) and with streams (`stream = true`).  The registers `LISR` and
`HISR` of the latter are one word of 64 bits.
-/

set_option autoImplicit false

namespace Model.Dma

/-- The handlers of a channel (dma.hpp.in:441-443), each has a number. -/
structure Handlers where
  error : Option Nat
  half : Option Nat
  complete : Option Nat

/-- A controller: its clock, the flags, the enabled channels, the handlers, and the calls of handlers. -/
structure St where
  clock : Bool
  isr : BitVec 64
  en : Nat → Bool
  handlers : Nat → Handlers
  calls : List Nat

/-- dma.hpp.in:120,371: `FlagOffsetLut`, and dma.hpp.in:369. -/
def offset (stream : Bool) (ch : Nat) : Nat :=
  if stream then #[0, 6, 16, 22, 0 + 32, 6 + 32, 16 + 32, 22 + 32].getD ch 0 else ch * 4

/-- dma_base.hpp.in:239-263: `InterruptFlags`. -/
def flagError (_stream : Bool) : BitVec 8 := 0b1000#8
def flagHalf (stream : Bool) : BitVec 8 := if stream then 0b010000#8 else 0b0100#8
def flagComplete (stream : Bool) : BitVec 8 := if stream then 0b100000#8 else 0b0010#8
def flagAll (stream : Bool) : BitVec 8 := if stream then 0b111101#8 else 0b1111#8
def flagGlobal (stream : Bool) : BitVec 8 := if stream then 0b111101#8 else 0b0001#8

/-- The hardware: writing `CGIF` of a channel clears its four flags. -/
def cleared (stream : Bool) (v : BitVec 8) : BitVec 8 := if !stream && v.getLsbD 0 then v ||| 0b1111#8 else v

/-- dma_hal.hpp.in:120-136: what `clearInterruptFlags()` clears: the value in `IFCR`, `LIFCR` or `HIFCR`. -/
def clearMask (stream : Bool) (v : BitVec 8) (ch : Nat) : BitVec 64 :=
  let lut : Array Nat := #[0, 6, 16, 22]
  let w : BitVec 32 := (cleared stream v).setWidth 32
  if stream then
    if ch < 4 then (w <<< lut.getD ch 0).setWidth 64
    else if ch < 8 then (w <<< lut.getD (ch - 4) 0).setWidth 64 <<< 32
    else 0
  else (w <<< (ch * 4)).setWidth 64

/-- dma_hal.hpp.in:120-136: `clearInterruptFlags()`; without its clock the controller ignores the write. -/
def clearFlags (stream : Bool) (s : St) (v : BitVec 8) (ch : Nat) : St :=
  if s.clock then { s with isr := s.isr &&& ~~~clearMask stream v ch } else s

/-- dma.hpp.in:363-375: `getInterruptFlags()`. -/
def getFlags (stream : Bool) (s : St) (ch : Nat) : BitVec 8 :=
  ((s.isr >>> offset stream ch).setWidth 8) &&& flagAll stream

/-- dma.hpp.in:154-159: `start()`. -/
def start (stream : Bool) (s : St) (ch : Nat) : St :=
  let s := clearFlags stream s (flagAll stream) ch
  { s with en := Function.update s.en ch true }

/-- dma.hpp.in:164-168: `stop()`. -/
def stop (s : St) (ch : Nat) : St := { s with en := Function.update s.en ch false }

/-- dma.hpp.in:83-92: `disable()` of the controller. -/
def disable (s : St) : St := { s with clock := false }

/-- The call of a handler, if there is one. -/
def call (s : St) : Option Nat → St
  | some h => { s with calls := s.calls ++ [h] }
  | none => s

/-- The hardware: flag number `e.2` of channel `e.1` is set. -/
def event (stream : Bool) (s : St) (e : Nat × Nat) : St := { s with isr := s.isr ||| (1#64 <<< (offset stream e.1 + e.2)) }

/-- A flag of a channel in the status that was read (dma.hpp.in:317-339). -/
def has (stream : Bool) (isr : BitVec 64) (flag : BitVec 8) (ch : Nat) : Bool :=
  decide (isr &&& (flag.setWidth 64 <<< offset stream ch) ≠ 0#64)

/-- dma.hpp.in:314-353: `interruptHandler()`; the events `env` happen after the status has been read.  The
unqualified `disable()` is the one of the controller: neither `Channel` nor `DmaBase` have another one. -/
def interruptHandler (stream : Bool) (s : St) (ch : Nat) (env : List (Nat × Nat)) : St :=
  let isr := s.isr
  let s := if has stream isr (flagError stream) ch then call (disable s) (s.handlers ch).error else s
  let s := if has stream isr (flagHalf stream) ch then call s (s.handlers ch).half else s
  let s := if has stream isr (flagComplete stream) ch then call s (s.handlers ch).complete else s
  let s := env.foldl (event stream) s
  clearFlags stream s (flagGlobal stream) ch

end Model.Dma
