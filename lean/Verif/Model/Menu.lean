/-
Model of scrolling texts and of the menus (src/modm/ui/menu/scrollable_text.hpp, scrollable_text.cpp, standard_menu.cpp, choice_menu.cpp).

Texts are lists of characters without the terminating zero.  `int` has 32 bits.  Lists of entries (`DoublyLinkedList`) are lists here.
Not modelled: timers of `hasChanged`, titles, pixels.
-/
import Mathlib.Logic.Function.Basic
set_option autoImplicit false
namespace Modm.Menu

/-- `ScrollableText`, scrollable_text.hpp:113-118; `print`: the characters before the zero, `none` where they were not written -/
structure Text where
  paused : Bool
  text : List Char
  start : Nat
  length : Nat
  space : Nat
  print : Nat → Option Char

/-- `needsScrolling`, scrollable_text.hpp:51-55 -/
def Text.needsScrolling (t : Text) : Bool := decide (t.length > t.space)

/-- The loop `for (uint8_t i = 0; i < space; ++i) print[i] = text[i]`, scrollable_text.cpp:23-26, 48-51, 71-74, 123-126:
the counter cannot reach a space of more than 255. -/
def Text.printStart (t : Text) : Option Text :=
  if t.needsScrolling then
    if t.space ≤ 255 then some { t with print := fun i => if i < t.space then t.text[i]? else t.print i } else none
  else some t

/-- the constructor, scrollable_text.cpp:17-29 -/
def Text.make (text : List Char) (space : Nat) : Option Text :=
  Text.printStart ⟨true, text, 0, text.length % 2 ^ 16, space % 2 ^ 16, fun _ => none⟩

/-- the copy constructor, scrollable_text.cpp:36-54 -/
def Text.copy (t : Text) : Option Text :=
  Text.printStart { t with start := 0, print := fun _ => none }

/-- `operator =`, scrollable_text.cpp:56-79, from another text -/
def Text.assign (t : Text) : Option Text :=
  Text.printStart { t with print := fun _ => none }

/-- What one character of the text that scrolls is, scrollable_text.cpp:90-100 -/
def Text.charAt (t : Text) (i : Nat) : Option Char :=
  if i + t.start < t.length then t.text[i + t.start]?
  else if i + t.start = t.length then some ' '
  else t.text[i + t.start - (t.length + 1)]?

/-- `getText`, scrollable_text.cpp:81-114; the text until the zero: `none` if it was not written -/
def Text.getText (t : Text) : Option (List Char) × Text :=
  if t.needsScrolling then
    let t :=
      if !t.paused then
        let t := { t with print := fun i => if i < t.space then t.charAt i else t.print i }
        let start := (t.start + 1) % 2 ^ 16
        { t with start := if start > t.length then 0 else start }
      else t
    ((List.range t.space).mapM t.print, t)
  else (some t.text, t)

/-- `toogle`, `scroll`, `pause`, scrollable_text.hpp:71-93 -/
def Text.toogle (t : Text) : Text := { t with paused := !t.paused }
def Text.scroll (t : Text) : Text := { t with paused := false }
def Text.pause (t : Text) : Text := { t with paused := true }

/-- `setToStart`, scrollable_text.cpp:117-130 -/
def Text.setToStart (t : Text) : Option Text := Text.printStart { t with start := 0 }

/-- What is done to a text. -/
inductive Ask where
  | toggle | scroll | pause | toStart | get
  deriving DecidableEq

/-- What is done to a text, and what `getText` gives. -/
def Text.ask (t : Text) : Ask → Option (List (Option (List Char)) × Text)
  | .toggle => some ([], t.toogle)
  | .scroll => some ([], t.scroll)
  | .pause => some ([], t.pause)
  | .toStart => do some ([], ← t.setToStart)
  | .get => some ([t.getText.1], t.getText.2)

def Text.asks : Text → List Ask → Option (List (Option (List Char)))
  | _, [] => some []
  | t, a :: l => do
    let (x, t) ← t.ask a
    some (x ++ (← Text.asks t l))

/-- `MenuEntry`, standard_menu.hpp:32-46, and `ChoiceMenuEntry`, choice_menu_entry.hpp:21-29: `value` is the address of the variable -/
structure Entry where
  text : Text
  value : Nat := 0
  default_ : Bool := true

/-- `StandardMenu`, standard_menu.hpp:124-141, and `ChoiceMenu`, choice_menu.hpp:105-122 -/
structure Menu where
  entries : List Entry := []
  /-- `maximalDrawnEntrys`, `homePosition` and `position` have 8 bits -/
  maximal : Nat
  home : Nat := 0
  position : Nat := 0
  buttonAction : Bool := false
  alive : Bool := true
  /-- the variables of the entries of a `ChoiceMenu` -/
  values : Nat → Bool := fun _ => false
  /-- calls of `selectedEntryFunction` -/
  selected : List Nat := []
  /-- entries whose callback was called -/
  chosen : List Nat := []
  /-- calls of `openNextScreen` -/
  opened : Nat := 0

/-- the constructors, standard_menu.cpp:22-44, choice_menu.cpp:17-39: `(height - 16) / 8` of ints, as 8 bits -/
def make (height : Nat) : Menu := { maximal := (((height : Int) - 16).tdiv 8 % 256).toNat }

/-- `addEntry`, standard_menu.cpp:50-55: the space is `(width - 16) / 6`, as 16 bits; the entry is copied into the list -/
def addEntry (m : Menu) (width : Nat) (text : List Char) : Option Menu := do
  let t ← Text.make text ((((width : Int) - 16).tdiv 6 % 2 ^ 16).toNat)
  let t ← t.copy
  some { m with entries := m.entries ++ [{ text := t }] }

/-- `addEntry`, choice_menu.cpp:41-47; `space`: the static variable, set by the first call for any menu -/
def addChoice (space : Option Nat) (m : Menu) (width : Nat) (text : List Char) (value : Nat) (default_ : Bool) : Option (Option Nat × Menu) := do
  let sp := space.getD ((((width : Int) - 16).tdiv 6 - 6) % 2 ^ 16).toNat
  let t ← Text.make text sp
  let t ← t.copy
  some (some sp, { m with entries := m.entries ++ [⟨t, value, default_⟩] })

/-- `initialise`, choice_menu.cpp:49-63; without entries a null pointer is followed -/
def initialise (m : Menu) : Option Menu :=
  let values := m.entries.foldl (fun f e => Function.update f e.value e.default_) m.values
  match m.entries with
  | [] => none
  | e :: l =>
    let e := if e.text.needsScrolling then { e with text := e.text.toogle } else e
    some { m with entries := e :: l, values := values, position := 0, home := 0 }

/-- A line of the menu: row, mark of the selected entry, text, value. -/
structure Line where
  row : Nat
  mark : Bool
  text : Option (List Char)
  value : Bool
  deriving DecidableEq

/-- The loop of `draw` over the rows from `i`, standard_menu.cpp:81-97, choice_menu.cpp:89-113; `count` has 8 bits -/
def drawRows (m : Menu) (count : Nat) : Nat → Nat → Option (List Line × Menu)
  | 0, _ => some ([], m)
  | fuel + 1, i =>
    if i < m.maximal then
      if m.home + i ≥ count then some ([], m)
      else do
        let e ← m.entries[m.home + i]?
        let (s, t) := e.text.getText
        let m := { m with entries := m.entries.set (m.home + i) { e with text := t } }
        let (l, m) ← drawRows m count fuel (i + 1)
        some (⟨i, decide ((m.position : Int) - m.home = i), s, m.values e.value⟩ :: l, m)
    else some ([], m)

/-- `draw`, standard_menu.cpp:64-99, choice_menu.cpp:72-116; the iterator may not be advanced past the end -/
def draw (m : Menu) : Option (List Line × Menu) :=
  if m.home > m.entries.length then none else drawRows m (m.entries.length % 256) 256 0

inductive Button where
  | left | right | up | down | ok
  deriving DecidableEq

/-- The text of the entry at `k` is changed; past the end a null pointer is followed. -/
def onText (m : Menu) (k : Nat) (f : Text → Option Text) : Option Menu := do
  let e ← m.entries[k]?
  let t ← f e.text
  some { m with entries := m.entries.set k { e with text := t } }

/-- UP and DOWN, standard_menu.cpp:127-189, choice_menu.cpp:139-199 -/
def move (m : Menu) (b : Button) : Option Menu :=
  match b with
  | .down =>
    if m.position + 1 < m.entries.length then do
      let m ← onText m m.position (fun t => t.toogle.setToStart)
      let old := m.position
      let m :=
        if (m.position : Int) - m.home = m.maximal - 1 then { m with home := (m.home + 1) % 256, position := (m.position + 1) % 256 }
        else { m with position := (m.position + 1) % 256 }
      let m ← onText m (old + 1) (fun t => some t.toogle)
      some { m with selected := m.selected ++ [m.position], buttonAction := true }
    else some m
  | .up =>
    if m.position > 0 then do
      let m ← onText m m.position (fun t => t.toogle.setToStart)
      let m :=
        if m.position = m.home then { m with home := (m.home + 255) % 256, position := m.position - 1 }
        else { m with position := m.position - 1 }
      let m ← onText m m.position (fun t => some t.toogle)
      some { m with selected := m.selected ++ [m.position], buttonAction := true }
    else some m
  | _ => some m

/-- `shortButtonPress` of a `StandardMenu`, standard_menu.cpp:122-212 -/
def pressStandard (m : Menu) (b : Button) : Option Menu :=
  match b with
  | .left => some { m with alive := false }
  | .ok => some m
  | .right => do
    let _ ← m.entries[m.position]?
    some { m with chosen := m.chosen ++ [m.position] }
  | b => move m b

/-- `shortButtonPress` of a `ChoiceMenu`, choice_menu.cpp:134-223 (which has no `selectedEntryFunction`) -/
def pressChoice (m : Menu) (b : Button) : Option Menu :=
  match b with
  | .left => some { m with alive := false }
  | .ok => do
    let e ← m.entries[m.position]?
    some { m with values := Function.update m.values e.value (!m.values e.value), buttonAction := true }
  | .right => some { m with opened := m.opened + 1 }
  | b => do
    let m' ← move m b
    some { m' with selected := m.selected }

/-- What happens to a menu: buttons, and being drawn. -/
inductive Op where
  | press (b : Button)
  | draw
  deriving DecidableEq

def step (press : Menu → Button → Option Menu) (m : Menu) : Op → Option Menu
  | .press b => press m b
  | .draw => do some (← draw m).2

def run (press : Menu → Button → Option Menu) : Menu → List Op → Option Menu
  | m, [] => some m
  | m, o :: l => do run press (← step press m o) l

/-- A `StandardMenu` with entries. -/
def standard (width height : Nat) (texts : List (List Char)) : Option Menu := texts.foldlM (fun m t => addEntry m width t) (make height)

/-- A `ChoiceMenu` with entries, initialised. -/
def choice (space : Option Nat) (width height : Nat) (entries : List (List Char × Nat × Bool)) : Option (Option Nat × Menu) := do
  let (sp, m) ← entries.foldlM (fun p e => addChoice p.1 p.2 width e.1 e.2.1 e.2.2) (space, make height)
  some (sp, ← initialise m)

end Modm.Menu
