/-
What texts and menus should show.
-/
import Verif.Model.Menu
set_option autoImplicit false
namespace Spec.Menu
open Modm.Menu (Button Op Ask)

/-- The part of a text that is seen through a window after it has moved by `p`: the text is written around a ring, with a blank between its end and its beginning. -/
def window (text : List Char) (space p : Nat) : List Char :=
  (List.range space).map (fun i => (text ++ [' ']).getD ((p + i) % (text.length + 1)) ' ')

/-- A text that fits is shown as it is. -/
def shown (text : List Char) (space p : Nat) : List Char := if text.length ≤ space then text else window text space p

/-- A text that scrolls, or pauses: `pos` is what it shows next when it scrolls, `last` is what it showed last. -/
structure Scroll where
  paused : Bool := true
  pos : Nat := 0
  last : Nat := 0

def Scroll.ask (text : List Char) (space : Nat) (s : Scroll) : Ask → Option (List Char) × Scroll
  | .toggle => (none, { s with paused := !s.paused })
  | .scroll => (none, { s with paused := false })
  | .pause => (none, { s with paused := true })
  | .toStart => (none, { s with pos := 0, last := 0 })
  | .get => if s.paused then (some (shown text space s.last), s) else (some (shown text space s.pos), { s with pos := s.pos + 1, last := s.pos })

/-- What `getText` gives, for each call. -/
def Scroll.asks (text : List Char) (space : Nat) : Scroll → List Ask → List (List Char)
  | _, [] => []
  | s, a :: l => (s.ask text space a).1.toList ++ Scroll.asks text space (s.ask text space a).2 l

/-- A menu: `n` entries, at most `rows` of which are seen, from `home`; `sel` is selected; `age`: how often the menu was drawn since. -/
structure Nav where
  n : Nat
  rows : Nat
  sel : Nat := 0
  home : Nat := 0
  age : Nat := 0
  /-- the entries that were selected, in order -/
  told : List Nat := []

/-- An entry is selected, and the rows are moved no further than is needed to see it. -/
def Nav.select (s : Nav) (k : Nat) : Nav :=
  { s with sel := k, home := min (max s.home (k + 1 - s.rows)) k, age := 0, told := s.told ++ [k] }

def Nav.op (s : Nav) : Op → Nav
  | .press .down => if s.sel + 1 < s.n then s.select (s.sel + 1) else s
  | .press .up => if 0 < s.sel then s.select (s.sel - 1) else s
  | .press _ => s
  | .draw => { s with age := s.age + 1 }

def Nav.ops (s : Nav) (l : List Op) : Nav := l.foldl Nav.op s

/-- The entries that are chosen by RIGHT. -/
def Nav.chosen : Nav → List Op → List Nat
  | _, [] => []
  | s, o :: l => (if o = .press .right then [s.sel] else []) ++ (s.op o).chosen l

/-- How the entry `k` is shown: the selected one moves by a letter each time, the others show their beginning. -/
def Nav.text (s : Nav) (text : List Char) (space k : Nat) : List Char := if k = s.sel then shown text space s.age else shown text space 0

/-- The values of a menu of choices: OK changes the value of the selected entry; `var k` is the variable of entry `k`. -/
def Nav.values (var : Nat → Nat) : Nav → (Nat → Bool) → List Op → (Nat → Bool)
  | _, f, [] => f
  | s, f, o :: l => (s.op o).values var (if o = .press .ok then (fun a => if a = var s.sel then !f a else f a) else f) l

/-- What a variable is set to by the entries of a menu of choices (texts, variables and defaults): the last one decides. -/
def preset (entries : List (List Char × Nat × Bool)) (v : Nat) : Bool := ((entries.filter (fun e => decide (e.2.1 = v))).getLast?.map (fun e => e.2.2)).getD false

end Spec.Menu
