/-
Model of the widgets of graphical interfaces (src/modm/ui/gui/view.cpp, view.hpp, widgets/widget.hpp, widgets/widget.cpp, widgets/numberfield.cpp,
widgets/checkbox.hpp, widgets/checkbox.cpp, widgets/composed_widgets/stringrocker.cpp).

Coordinates are integers: sums are taken to fit into int16_t.  The identifiers `uid` of widgets are taken to be unique (widget.hpp:58-59).
A widget is packed once.  Events, positions and drawing use three views of the same tree of widgets, each with the fields it needs.
-/
import Mathlib.Logic.Function.Basic
set_option autoImplicit false
namespace Modm.Gui

/-- position and dimension of a widget, widget.hpp:299, 314 -/
structure Rect where
  x : Int
  y : Int
  w : Int
  h : Int
  deriving DecidableEq

/-! ### Input events -/

/-- types.hpp:64-68 -/
inductive Direction where
  | up
  | down
  deriving DecidableEq

/-- types.hpp:54-85; the type of an event is not used by widgets -/
structure InputEvent where
  x : Int
  y : Int
  direction : Direction

/-- Widgets for events: a plain widget with its absolute area and `is_interactive`, or a group with its children in the order of `pack` -/
inductive Node where
  | leaf (id : Nat) (area : Rect) (interactive : Bool)
  | group (kids : List Node)

/-- What events change: the flags of widgets and the calls of `cb_activate` (`down`) and `cb_deactivate` (`up`) -/
structure Ui where
  activated : Nat → Bool := fun _ => false
  dirty : Nat → Bool := fun _ => true
  calls : List (Nat × Direction) := []

/-- `activate`, widget.hpp:119-128; what the callback does is up to the user -/
def Ui.activate (s : Ui) (id : Nat) : Ui :=
  ⟨Function.update s.activated id true, Function.update s.dirty id true, s.calls ++ [(id, .down)]⟩

/-- `deactivate`, widget.hpp:131-140 -/
def Ui.deactivate (s : Ui) (id : Nat) : Ui :=
  ⟨Function.update s.activated id false, Function.update s.dirty id true, s.calls ++ [(id, .up)]⟩

/-- the area that reacts, widget.cpp:138-141 -/
def within (r : Rect) (x y : Int) : Bool := r.x < x && r.y < y && r.x + r.w > x && r.y + r.h > y

/-- `Widget::handleInputEvent`, widget.cpp:131-157 -/
def handleLeaf (id : Nat) (r : Rect) (interactive : Bool) (ev : InputEvent) (s : Ui) : Bool × Ui :=
  if within r ev.x ev.y then
    (true, if interactive then (match ev.direction with | .down => s.activate id | .up => s.deactivate id) else s)
  else (false, s)

mutual
/-- virtual `handleInputEvent`, widget.cpp:131-172 -/
def Node.handle : Node → InputEvent → Ui → Bool × Ui
  | .leaf id r i, ev, s => handleLeaf id r i ev s
  | .group kids, ev, s => handleKids kids ev s
/-- the loop of `WidgetGroup::handleInputEvent`, widget.cpp:162-171 -/
def handleKids : List Node → InputEvent → Ui → Bool × Ui
  | [], _, s => (false, s)
  | n :: ns, ev, s => if (n.handle ev s).1 then (true, (n.handle ev s).2) else handleKids ns ev (n.handle ev s).2
end

/-- the loop of `View::update` for one event, from the last widget to the first, view.cpp:53-62 (the argument is the reversed list) -/
def handleReversed : List Node → InputEvent → Ui → Ui
  | [], _, s => s
  | n :: ns, ev, s => if (n.handle ev s).1 then (n.handle ev s).2 else handleReversed ns ev (n.handle ev s).2

/-- `View::update`, view.cpp:34-69: all events of the queue -/
def update (widgets : List Node) (evs : List InputEvent) (s : Ui) : Ui := evs.foldl (fun s ev => handleReversed widgets.reverse ev s) s

/-! ### Positions -/

/-- Widgets for positions: whether it is a group, `relative_position`, `position`, `dimension`, children -/
inductive Tree where
  | mk (group : Bool) (rel pos dim : Int × Int) (kids : List Tree)

def Tree.rel : Tree → Int × Int | .mk _ r _ _ _ => r
def Tree.pos : Tree → Int × Int | .mk _ _ p _ _ => p
def Tree.dim : Tree → Int × Int | .mk _ _ _ d _ => d
def Tree.kids : Tree → List Tree | .mk _ _ _ _ k => k

def addP (a b : Int × Int) : Int × Int := (a.1 + b.1, a.2 + b.2)

/-- the loop over the parents, widget.hpp:204-212; `anc` are the relative positions of the parents, nearest first -/
def absolute (rel : Int × Int) (anc : List (Int × Int)) : Int × Int := anc.foldl addP rel

mutual
/-- `updatePosition`: Widget widget.hpp:201-213, WidgetGroup widget.hpp:393-410 -/
def Tree.updatePosition (anc : List (Int × Int)) : Tree → Tree
  | .mk g rel _ dim kids => .mk g rel (absolute rel anc) dim (if g then updateKids (rel :: anc) kids else kids)
def updateKids (anc : List (Int × Int)) : List Tree → List Tree
  | [] => []
  | t :: ts => t.updatePosition anc :: updateKids anc ts
end

/-- `setRelativePosition`, widget.hpp:190-195 -/
def Tree.setRelative (p : Int × Int) : Tree → Tree
  | .mk g _ pos dim kids => .mk g p pos dim kids

/-- the second loop of `WidgetGroup::setPosition`, widget.cpp:67-71 -/
def Tree.again (anc : List (Int × Int)) : Tree → Tree
  | .mk g rel pos dim kids => .mk g rel pos dim (if g then updateKids (rel :: anc) kids else kids)

/-- `setPosition`: Widget widget.hpp:168-174, WidgetGroup widget.cpp:60-72 -/
def Tree.setPosition (anc : List (Int × Int)) (p : Int × Int) (t : Tree) : Tree := ((t.setRelative p).updatePosition anc).again anc

/-- the condition of `WidgetGroup::pack`, widget.cpp:20 -/
def fits (dim wdim c : Int × Int) : Bool := !(decide (c.1 > dim.1 - wdim.1) || decide (c.2 > dim.2 - wdim.2) || decide (c.1 < 0) || decide (c.2 < 0))

/-- `WidgetGroup::pack`, widget.cpp:17-35, with `setParent`, widget.hpp:216-221 -/
def Tree.pack (anc : List (Int × Int)) (w : Tree) (c : Int × Int) : Tree → Bool × Tree
  | .mk g rel pos dim kids =>
    if fits dim w.dim c then (true, .mk g rel pos dim (kids ++ [(w.updatePosition (rel :: anc)).setPosition (rel :: anc) c])) else (false, .mk g rel pos dim kids)

/-- What the user does to a widget -/
inductive PosOp where
  | setPosition (p : Int × Int)
  | pack (w : Tree) (c : Int × Int)

def Tree.op (anc : List (Int × Int)) (o : PosOp) (t : Tree) : Tree :=
  match o with
  | .setPosition p => t.setPosition anc p
  | .pack w c => (Tree.pack anc w c t).2

mutual
/-- The operation is done to the widget that is reached by a path of indices of children. -/
def Tree.opAt (o : PosOp) : List Nat → List (Int × Int) → Tree → Tree
  | [], anc, t => t.op anc o
  | i :: path, anc, .mk g rel pos dim kids => .mk g rel pos dim (opKids o i path (rel :: anc) kids)
def opKids (o : PosOp) : Nat → List Nat → List (Int × Int) → List Tree → List Tree
  | _, _, _, [] => []
  | 0, path, anc, t :: ts => t.opAt o path anc :: ts
  | i + 1, path, anc, t :: ts => t :: opKids o i path anc ts
end

/-! ### Drawing -/

/-- Widgets for drawing: the area, and the areas of what is drawn: the widget itself or the children of a group (simplified: the children are no groups) -/
structure Wid where
  rect : Rect
  group : Bool
  parts : List Rect

/-- A view: the widgets by their index, and `intersecting_widgets` of each -/
structure View where
  n : Nat := 0
  wid : Nat → Wid := fun _ => ⟨⟨-10, -10, 0, 0⟩, false, [⟨-10, -10, 0, 0⟩]⟩
  inter : Nat → List Nat := fun _ => []

/-- `checkIntersection`, widget.cpp:101-129, for different widgets -/
def checkIntersection (a b : Rect) : Bool :=
  !(decide (a.x > b.x + b.w) || decide (b.x > a.x + a.w) || decide (a.y > b.y + b.h) || decide (b.y > a.y + a.h))

/-- `updateIntersections`, widget.cpp:74-93: the widgets after this one -/
def updateIntersections (v : View) (i : Nat) : List Nat :=
  (List.range v.n).filter fun j => decide (i < j) && checkIntersection (v.wid i).rect (v.wid j).rect

/-- `View::pack`, view.cpp:72-101; `w` is the widget after `setPosition`, `dim` the dimension of the view -/
def View.pack (v : View) (dim : Int × Int) (w : Wid) : Bool × View :=
  if w.rect.x ≥ dim.1 ∨ w.rect.y ≥ dim.2 ∨ w.rect.x < 0 ∨ w.rect.y < 0 then (false, v)
  else
    let v1 : View := ⟨v.n + 1, Function.update v.wid v.n w, v.inter⟩
    (true, { v1 with inter := updateIntersections v1 })

/-- `setPosition` of a widget that is packed: the lists of intersecting widgets stay, widget.hpp:168-174 -/
def View.move (v : View) (i : Nat) (w : Wid) : View := { v with wid := Function.update v.wid i w }

/-- the flags `dirty` of part `k` of widget `i`, and what has been rendered -/
structure Pass where
  dirty : Nat → Nat → Bool
  log : List (Nat × Nat) := []

/-- `isDirty`: widget.hpp:245-249, WidgetGroup widget.hpp:364-373 -/
def isDirty (v : View) (s : Pass) (i : Nat) : Bool :=
  if (v.wid i).group then (List.range (v.wid i).parts.length).any (s.dirty i) else s.dirty i 0

/-- `render` of a widget, which always draws, and of a group, which draws the children that are dirty, widget.cpp:37-48.
Children have no intersecting widgets, because only `View::pack` looks for them. -/
def render (v : View) (i : Nat) (s : Pass) : Pass :=
  if (v.wid i).group then { s with log := s.log ++ ((List.range (v.wid i).parts.length).filter (s.dirty i)).map fun k => (i, k) }
  else { s with log := s.log ++ [(i, 0)] }

/-- `markDrawn`: widget.hpp:259-263, WidgetGroup widget.hpp:384-391 -/
def markDrawn (i : Nat) (s : Pass) : Pass := { s with dirty := Function.update s.dirty i fun _ => false }

/-- `Widget::draw`, widget.hpp:75-90; the recursion ends because intersecting widgets have higher indices -/
def draw (v : View) : Nat → Nat → Pass → Pass
  | 0, _, s => s
  | fuel + 1, i, s => (v.inter i).foldl (fun s j => draw v fuel j s) (markDrawn i (render v i s))

/-- `View::draw`, view.cpp:111-127 -/
def View.draw (v : View) (s : Pass) : Pass :=
  (List.range v.n).foldl (fun s i => if isDirty v s i then Gui.draw v v.n i s else s) s

/-- The area that is filled by `fillRectangle(getPosition(), getWidth(), getHeight())`, e.g. checkbox.cpp:38 -/
def covers (r : Rect) (p : Int × Int) : Bool := r.x ≤ p.1 && p.1 < r.x + r.w && r.y ≤ p.2 && p.2 < r.y + r.h

/-- The display after a part has been rendered; `look` is what the part looks like -/
def paint (v : View) (look : Nat → Nat → Nat) (scr : Int × Int → Option (Nat × Nat × Nat)) (ik : Nat × Nat) : Int × Int → Option (Nat × Nat × Nat) :=
  fun p => if ((v.wid ik.1).parts[ik.2]?).any (covers · p) then some (ik.1, ik.2, look ik.1 ik.2) else scr p

/-! ### Colours -/

/-- `setColorPalette` of a widget (widget.hpp:150-155) and of a group (widget.cpp:50-58): the widgets whose colours have been set, `none`
if the call has not returned after `fuel` nested calls -/
def setColorPalette : Nat → Node → Option (List Nat)
  | 0, _ => none
  | _ + 1, .leaf id _ _ => some [id]
  | fuel + 1, .group kids => (setColorPalette fuel (.group kids)).bind fun a => (kids.mapM (setColorPalette fuel)).map fun b => a ++ b.flatten

/-- `View::setColorPalette`, view.cpp:130-147 -/
def viewSetColorPalette (fuel : Nat) (widgets : List Node) : Option (List Nat) := (widgets.mapM (setColorPalette fuel)).map List.flatten

/-! ### Fields -/

/-- Text of a number: minus sign, digits before the point, the three digits after it -/
structure NumText where
  minus : Bool
  whole : Nat
  frac : Nat
  deriving DecidableEq

/-- `FloatField::render`, numberfield.cpp:57-61; the value is the fraction `n / d` (simplified: the products of floats are exact) -/
def floatText (n : Int) (d : Nat) : NumText :=
  let before := n.tdiv d
  let after := (((n - before * d) * 1000).tdiv d).natAbs
  ⟨before < 0, before.natAbs, after⟩

/-- a check box: checkbox.hpp:53, widget.hpp:320 -/
structure Checkbox where
  state : Bool
  dirty : Bool := true

/-- `setState`, checkbox.hpp:45-46 -/
def Checkbox.set (c : Checkbox) (b : Bool) : Checkbox := { c with state := b }

/-- `activate` with `click_cb`, widget.hpp:119-128, checkbox.cpp:56-62 -/
def Checkbox.click (c : Checkbox) : Checkbox := ({ c with dirty := true } : Checkbox).set (!c.state)

/-- `StringRocker::next`, stringrocker.cpp:15-24 -/
def rockerNext (start stop id : BitVec 32) : BitVec 32 := if id ≥ stop then start else id + 1

/-- `StringRocker::previous`, stringrocker.cpp:35-44 -/
def rockerPrevious (start stop id : BitVec 32) : BitVec 32 := if id ≤ start then stop else id - 1

end Modm.Gui
