import Mathlib.Logic.Function.Basic

set_option autoImplicit false

/-!
What a user of a GPIO expander means by a call: a little story per pin, told without masks, registers and buffers.
-/

namespace Spec.GpioExpander

/-- A pin the way the user sees it. -/
structure Pin where
  out : Bool
  level : Bool
  pull : Bool
  inverted : Bool
  deriving DecidableEq, Repr

/-- What a call says about one pin: `named` tells whether the pin is one of those the call is for. -/
inductive Say where
  | beOutput (named : Bool)
  | beInput (named : Bool)
  | high (named : Bool)
  | low (named : Bool)
  | flip (named : Bool)
  | pull (named on : Bool)
  | invert (named on : Bool)
  | nothing
  deriving DecidableEq

/-- Levels can be given to outputs only (gpio_expander.hpp, the warnings of the interface); a pin which becomes an
input forgets its level. -/
def Pin.hear (p : Pin) : Say → Pin
  | .beOutput n => if n then { p with out := true } else p
  | .beInput n => if n then { p with out := false, level := false } else p
  | .high n => if n && p.out then { p with level := true } else p
  | .low n => if n && p.out then { p with level := false } else p
  | .flip n => if n && p.out then { p with level := !p.level } else p
  | .pull n v => if n then { p with pull := v } else p
  | .invert n v => if n then { p with inverted := v } else p
  | .nothing => p

/-- All that was said to a pin which began as an input without pull-up. -/
def Pin.after (l : List Say) : Pin := l.foldl Pin.hear ⟨false, false, false, false⟩

/-- What is known of a pin nobody has told anything: nothing. -/
structure Known where
  out : Option Bool
  level : Option Bool
  deriving DecidableEq, Repr

/-- The same story for a pin of which one knows what it was told only; here levels are kept for inputs, too. -/
def Known.hear (p : Known) : Say → Known
  | .beOutput n => if n then { p with out := some true } else p
  | .beInput n => if n then { p with out := some false } else p
  | .high n => if n then { p with level := some true } else p
  | .low n => if n then { p with level := some false } else p
  | .flip n => if n then { p with level := p.level.map (!·) } else p
  | _ => p

def Known.after (l : List Say) : Known := l.foldl Known.hear ⟨none, none⟩

/-- A pin that can only be pulled low or released (`level = true`); inputs are released. -/
structure Soft where
  out : Bool
  level : Bool
  deriving DecidableEq, Repr

/-- `Say.high true` releases any pin, the other words are for outputs. -/
def Soft.hear (p : Soft) : Say → Soft
  | .beOutput n => if n then { p with out := true } else p
  | .beInput n => if n then ⟨false, true⟩ else p
  | .high n => if n then { p with level := true } else p
  | .low n => if n && p.out then { p with level := false } else p
  | .flip n => if n && p.out then { p with level := !p.level } else p
  | _ => p

def Soft.after (l : List Say) : Soft := l.foldl Soft.hear ⟨true, true⟩

end Spec.GpioExpander
