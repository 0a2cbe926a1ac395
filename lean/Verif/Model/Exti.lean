import Mathlib.Logic.Function.Basic

/-!
External interrupts of STM32.

Models `/repo/src/modm/platform/extint/stm32/exti.hpp.in` and `exti.cpp.in` with handlers, for the lines 0
to 15 of the pins (the second registers of the devices with more than 32 lines are not modelled).

The hardware (reference manuals): an edge on the selected port of a line that is enabled in `RTSR` or
`FTSR` sets the pending bit of the line, also if the line is masked in `IMR`; writing a one clears it.
-/

set_option autoImplicit false

namespace Model.Exti

/-- A device: `sep` with separate pending bits for rising and falling edges (module.lb:52), `width` bits
for each line in `EXTICR` (4 in `SYSCFG` and `AFIO`, 8 in `EXTI` of G0, L5 and U5), and the range of
lines that share the vector of a line (module.lb:30-46). -/
structure Chip where
  sep : Bool
  width : Nat
  lo : Nat → Nat
  hi : Nat → Nat

/-- The registers, the handlers (each has a number), the enabled vectors (by their first line) and the
calls of handlers with the line that is passed. -/
structure St where
  imr : BitVec 32
  rtsr : BitVec 32
  ftsr : BitVec 32
  rpr : BitVec 32
  fpr : BitVec 32
  exticr : Nat → BitVec 32
  handlers : Nat → Option Nat
  nvic : Nat → Bool
  calls : List (Nat × Nat)

/-- An edge on a pin. -/
structure Edge where
  port : Nat
  line : Nat
  rising : Bool
  deriving DecidableEq

/-- exti.hpp.in:44-51. -/
inductive Trigger
  | noEdges
  | risingEdge
  | fallingEdge
  | bothEdges
  deriving DecidableEq

/-- exti.hpp.in:100: the bit of a line. -/
def bit (l : Nat) : BitVec 32 := 1#32 <<< l

/-- The hardware: the port that is connected to a line. -/
def source (c : Chip) (s : St) (l : Nat) : Nat :=
  (s.exticr (l / 4)).toNat / 2 ^ (l % 4 * c.width) % 2 ^ c.width

/-- The hardware: an edge (`PR` of the devices without separate bits is `rpr`). -/
def edge (c : Chip) (s : St) (e : Edge) : St :=
  if source c s e.line = e.port then
    if e.rising then (if s.rtsr.getLsbD e.line then { s with rpr := s.rpr ||| bit e.line } else s)
    else if s.ftsr.getLsbD e.line then
      (if c.sep then { s with fpr := s.fpr ||| bit e.line } else { s with rpr := s.rpr ||| bit e.line })
    else s
  else s

/-- exti.hpp.in:103-111: `setTriggerSource()`. -/
def setTriggerSource (s : St) (l port : Nat) : St :=
  let index := l >>> 2
  let pos := (l &&& 3) <<< 2
  let mask : BitVec 32 := 0xf#32 <<< pos
  let value : BitVec 32 := (BitVec.ofNat 32 port &&& 0xf#32) <<< pos
  { s with exticr := Function.update s.exticr index ((s.exticr index &&& ~~~mask) ||| value) }

/-- exti.hpp.in:130-168: `setTrigger()`. -/
def setTrigger (s : St) (mask : BitVec 32) : Trigger → St
  | .noEdges => { s with rtsr := s.rtsr &&& ~~~mask, ftsr := s.ftsr &&& ~~~mask }
  | .risingEdge => { s with rtsr := s.rtsr ||| mask, ftsr := s.ftsr &&& ~~~mask }
  | .fallingEdge => { s with rtsr := s.rtsr &&& ~~~mask, ftsr := s.ftsr ||| mask }
  | .bothEdges => { s with rtsr := s.rtsr ||| mask, ftsr := s.ftsr ||| mask }

/-- exti.hpp.in:341-353,367-380: `acknowledgeFlags()`. -/
def acknowledge (s : St) (mask : BitVec 32) : St :=
  { s with rpr := s.rpr &&& ~~~mask, fpr := s.fpr &&& ~~~mask }

/-- exti.hpp.in:410-428: `getVectorMaskForLine()`. -/
def vectorMask (c : Chip) (l : Nat) : BitVec 32 :=
  if c.lo l = c.hi l then 1#32 <<< c.lo l
  else ((1#32 <<< (c.hi l + 1)) - 1#32) &&& ~~~((1#32 <<< c.lo l) - 1#32)

/-- exti.hpp.in:70-85: `connect()`; the edges `early` arrive after the acknowledgement. -/
def connect (c : Chip) (s : St) (l port : Nat) (trigger : Trigger) (h : Nat) (early : List Edge) : St :=
  let s := { s with imr := s.imr &&& ~~~bit l }
  let s := acknowledge s (bit l)
  let s := early.foldl (edge c) s
  let s := { s with handlers := Function.update s.handlers l (some h) }
  let s := setTriggerSource s l port
  let s := setTrigger s (bit l) trigger
  let s := { s with nvic := Function.update s.nvic (c.lo l) true }
  { s with imr := s.imr ||| bit l }

/-- exti.hpp.in:87-96: `disconnect()`. -/
def disconnect (c : Chip) (s : St) (l : Nat) : St :=
  let s := { s with imr := s.imr &&& ~~~bit l }
  let s := if s.imr &&& vectorMask c l = 0#32 then { s with nvic := Function.update s.nvic (c.lo l) false } else s
  { s with handlers := Function.update s.handlers l none }

/-- exti.cpp.in:22-27: the lines to look at. -/
def flags (c : Chip) (s : St) (mask : BitVec 32) : BitVec 32 :=
  s.imr &&& mask &&& (if c.sep then (s.fpr &&& s.ftsr) ||| (s.rpr &&& s.rtsr) else s.rpr)

/-- exti.cpp.in:31-32: the call of a handler. -/
def callHandler (s : St) (l : Nat) : St :=
  match s.handlers l with
  | some h => { s with calls := s.calls ++ [(h, l)] }
  | none => s

/-- exti.cpp.in:28-40: the loop; `env l` are the edges that arrive while line `l` is handled.  At most 32
rounds are needed. -/
def irqLoop (c : Chip) (env : Nat → List Edge) : Nat → BitVec 32 → St → St
  | 0, _, s => s
  | n + 1, f, s =>
    if f = 0#32 then s
    else
      let lmb := f.toNat.log2
      let s := callHandler s lmb
      let s := (env lmb).foldl (edge c) s
      let s := acknowledge s (bit lmb)
      irqLoop c env n (f &&& ~~~bit lmb) s

/-- exti.cpp.in:20-41: `irq()`. -/
def irq (c : Chip) (env : Nat → List Edge) (s : St) (mask : BitVec 32) : St := irqLoop c env 32 (flags c s mask) s

/-- exti.cpp.in:43-48: the vector of a line, if it is enabled. -/
def service (c : Chip) (env : Nat → List Edge) (s : St) (l : Nat) : St :=
  if s.nvic (c.lo l) then irq c env s (vectorMask c l) else s

/-- The vectors of F4: 0, 1, 2, 3, 4, 9_5 and 15_10. -/
def f4 : Chip where
  sep := false
  width := 4
  lo l := if l < 5 then l else if l < 10 then 5 else 10
  hi l := if l < 5 then l else if l < 10 then 9 else 15

/-- The vectors of G0: 0_1, 2_3 and 4_15. -/
def g0 : Chip where
  sep := true
  width := 8
  lo l := if l < 2 then 0 else if l < 4 then 2 else 4
  hi l := if l < 2 then 1 else if l < 4 then 3 else 15

end Model.Exti
