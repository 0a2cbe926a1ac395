import Mathlib.Logic.Function.Basic

/-!
What a user of a character display expects: a page of `count` lines of `width`
characters that is written like with a typewriter.
-/

set_option autoImplicit false

namespace CharDisplaySpec

/-- The page (`cells line column`) and the position of the next character. -/
structure Page where
  cells : Nat → Nat → BitVec 8
  col : Nat
  line : Nat

/-- The next line, the first one after the last one. -/
def Page.newline (count : Nat) (p : Page) : Page :=
  { p with col := 0, line := if p.line + 1 = count then 0 else p.line + 1 }

/-- Puts a character at the position and goes one further. -/
def Page.put (p : Page) (ch : BitVec 8) : Page :=
  { p with cells := Function.update p.cells p.line (Function.update (p.cells p.line) p.col ch), col := p.col + 1 }

/-- Writes a character; a full line is continued in the next one. -/
def Page.write (width count : Nat) (p : Page) (ch : BitVec 8) : Page :=
  if ch = 10#8 then p.newline count
  else if p.col = width then (p.newline count).put ch
  else p.put ch

/-- Calls of a user. -/
inductive Op
  | write (ch : BitVec 8)
  | cursor (col line : Nat)
  | clear

/-- The page after a call. -/
def Page.step (width count : Nat) (p : Page) : Op → Page
  | .write ch => p.write width count ch
  | .cursor col line => { p with col := col, line := line }
  | .clear => ⟨fun _ _ => 0x20#8, 0, 0⟩

/-- An empty page. -/
def blank : Page := ⟨fun _ _ => 0x20#8, 0, 0⟩

/-- Where the character of a position is kept: the controller and the address in
its memory (data sheets of the controller and of the displays).  With one
controller the third and fourth line continue the first and second one. -/
def cell (dual : Bool) (width col line : Nat) : Bool × Nat :=
  if dual then (decide (2 ≤ line), 0x40 * (line % 2) + col)
  else (false, 0x40 * (line % 2) + col + line / 2 * width)

/-- The displays there are. -/
def Fits (dual : Bool) (width count : Nat) : Prop :=
  1 ≤ width ∧ 1 ≤ count ∧ count ≤ 4 ∧
    (if dual then width ≤ 40 else if count = 1 then width ≤ 80
     else if count = 2 then width ≤ 40 else width ≤ 20)

end CharDisplaySpec
