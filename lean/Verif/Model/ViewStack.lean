/-
Model of the stacks of views (src/modm/ui/menu/view_stack.hpp, view_stack.cpp, abstract_view.cpp; src/modm/ui/gui/view_stack.cpp).

Views are numbered by their construction.  What the functions of a view do when they are called (`update`, `onRemove`, `shortButtonPress`) is up to the user:
each call comes with the list of what it does to the stack and to views.  `draw` and `hasChanged` do nothing to the stack.
A use of a view that does not exist (dangling or null pointer) and of the front of an empty list is undefined: `none`.
-/
import Mathlib.Logic.Function.Basic
set_option autoImplicit false
namespace Modm.ViewStack

/-- What the user can see: the display, and the calls of the functions of views. -/
inductive Event where
  | clear
  | draw (v : Nat)
  /-- `display->update()` -/
  | show
  | update (v : Nat)
  | onRemove (v : Nat)
  | button (v : Nat)
  | delete (v : Nat)
  deriving DecidableEq

structure World where
  /-- the list of `stack`, front first (container/stack.hpp:63-85: `get` is `getFront`, `push` is `prepend`, `pop` is `removeFront`) -/
  stack : List Nat := []
  /-- `alive` of each view that exists, abstract_view.cpp:18-21 -/
  alive : Nat → Option Bool := fun _ => none
  /-- number of views constructed -/
  next : Nat := 0
  log : List Event := []

/-- One event more. -/
def World.emit (w : World) (e : Event) : World := { w with log := w.log ++ [e] }

/-- `get`, view_stack.hpp:44-48; linked_list_impl.hpp:158-161 dereferences `front` -/
def get (w : World) : Option Nat := w.stack.head?

/-- a virtual function of a view is called: the view has to exist -/
def call (w : World) (v : Nat) (e : Event) : Option World := if (w.alive v).isSome then some (w.emit e) else none

/-- What the user does: `push(new View)`, `view->remove()`, `pop()`. -/
inductive Act where
  | push
  | remove (v : Nat)
  | pop

/-- `push`, view_stack.hpp:57-65, of a view that is constructed for it -/
def push (w : World) : Option World := do
  let w := { w with stack := w.next :: w.stack, alive := Function.update w.alive w.next (some true), next := w.next + 1 }
  let w := w.emit .clear
  let top ← get w
  let w ← call w top (.draw top)
  some (w.emit .show)

/-- `pop`, view_stack.cpp:30-38 -/
def pop (w : World) : Option World := do
  let top ← get w
  let w := { w with stack := w.stack.tail }
  let w ← call w top (.delete top)
  some { w with alive := Function.update w.alive top none }

/-- `remove`, abstract_view.cpp:47-51 -/
def remove (w : World) (v : Nat) : Option World := do
  let _ ← w.alive v
  some { w with alive := Function.update w.alive v (some false) }

def act (w : World) : Act → Option World
  | .push => push w
  | .remove v => remove w v
  | .pop => pop w

def acts : World → List Act → Option World
  | w, [] => some w
  | w, a :: l => do acts (← act w a) l

/-- `update`, view_stack.cpp:40-71; `now`: what the `update` of the view on top does, `changed`: its `hasChanged`,
`removing`: what its `onRemove` does, `after`: what the `update` of the next view does -/
def update (w : World) (now : List Act) (changed : Bool) (removing after : List Act) : Option World := do
  let top ← get w
  let w ← call w top (.update top)
  let w ← acts w now
  if ← w.alive top then
    if changed then
      let w ← call w top (.draw top)
      some (w.emit .show)
    else some w
  else
    let w ← call w top (.onRemove top)
    let w ← acts w removing
    let w ← pop w
    let top ← get w
    let w ← call w top (.update top)
    let w ← acts w after
    let w := w.emit .clear
    let w ← call w top (.draw top)
    some (w.emit .show)

/-- `shortButtonPress`, view_stack.cpp:73-79 -/
def shortButtonPress (w : World) (l : List Act) : Option World := do
  let top ← get w
  let w ← call w top (.button top)
  acts w l

/-- `~ViewStack`, view_stack.cpp:25-28; the list frees its nodes (linked_list_impl.hpp:22-32), the views stay -/
def destroy (w : World) : World := { w with stack := [] }

/-- What the program does with the stack. -/
inductive Op where
  | act (a : Act)
  | update (now : List Act) (changed : Bool) (removing after : List Act)
  | button (l : List Act)

def step (w : World) : Op → Option World
  | .act a => act w a
  | .update now changed removing after => update w now changed removing after
  | .button l => shortButtonPress w l

def run : World → List Op → Option World
  | w, [] => some w
  | w, o :: l => do run (← step w o) l

/-- A `GuiViewStack` has a stack of its own (gui/view_stack.hpp:81-83) beside that of `ViewStack`; `push`, `pop`, `get` and `update` use its own
(gui/view_stack.hpp:45-64, view_stack.cpp:28-66, which calls `markDirty` too), `shortButtonPress` is the one of `ViewStack`. -/
structure Gui where
  own : World := {}
  base : List Nat := []

/-- `shortButtonPress` of a `GuiViewStack`: menu/view_stack.cpp:73-79 with the stack of the base class -/
def Gui.shortButtonPress (g : Gui) (l : List Act) : Option Gui := do
  let w ← Modm.ViewStack.shortButtonPress { g.own with stack := g.base } l
  some { own := { w with stack := g.own.stack }, base := w.stack }

def Gui.step (g : Gui) : Op → Option Gui
  | .act a => do some { g with own := ← act g.own a }
  | .update now changed removing after => do some { g with own := ← Modm.ViewStack.update g.own now changed removing after }
  | .button l => g.shortButtonPress l

end Modm.ViewStack
