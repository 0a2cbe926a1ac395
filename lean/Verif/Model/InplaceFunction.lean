import Mathlib.Logic.Function.Basic
set_option autoImplicit false

/-!
# `modm::inplace_function` (`src/modm/utils/inplace_function.hpp`)

A container for a function object, kept in its own storage.  As in the model of `inplace_any` the storage of a
container is a cell which is raw or holds an object with the number of its construction, its type and its value; what
C++ leaves undefined, and a construction over an object which lives, gives `none`.  The table of a container is the
type it was made for, `none` for `empty_vtable`.

What calling an object does is a parameter: the result and the value the object has afterwards (line 73 calls an
object which is not constant).  Calling an empty container reports `bad_fn_call` (line 64) and is taken to change
nothing.  Moving a function object does not throw: the functions which relocate are called where nothing may throw.
-/

namespace Modm.InplaceFunction

/-- What the class sees of the type of a function object: which one it is, `sizeof`, `alignof`. -/
structure Ty where
  tag : Nat
  size : Nat
  align : Nat
deriving DecidableEq, Repr

structure Obj where
  id : Nat
  ty : Ty
  val : Nat
deriving DecidableEq, Repr

/-- `Capacity` and `Alignment`. -/
abbrev Dim := Nat × Nat

/-- The containers of the program by number, the parameter `other` of the assignment (line 234) and the local storage
of `swap` (line 278), which is no container: its table is not used. -/
inductive Var
  | user (i : Nat)
  | param
  | tmp
deriving DecidableEq, Repr

/-- The variables which live with their sizes and their `vtable_ptr_`, what is in their storage, the number of
constructions so far, the objects destroyed, and the results of the calls, latest first; `none` for a call which
reported `bad_fn_call`. -/
structure World where
  fns : Var → Option (Dim × Option Ty)
  cell : Var → Option Obj
  next : Nat
  dead : List Nat
  out : List (Option Nat)

/-- Placement `new` into the storage of a variable. -/
def newAt (w : World) (i : Var) (ty : Ty) (v : Nat) : Option World :=
  match w.fns i with
  | some (d, _) =>
    if w.cell i = none ∧ ty.size ≤ d.1 ∧ ty.align ∣ d.2 then
      some { w with cell := Function.update w.cell i (some ⟨w.next, ty, v⟩), next := w.next + 1 }
    else none
  | none => none

/-- The destructor of a type on the storage of a variable. -/
def delAt (w : World) (i : Var) (ty : Ty) : Option World :=
  match w.cell i with
  | some o =>
    if o.ty = ty then some { w with cell := Function.update w.cell i none, dead := o.id :: w.dead } else none
  | none => none

/-- The object of a type in the storage of a variable. -/
def objAt (w : World) (i : Var) (ty : Ty) : Option Obj :=
  match w.cell i with
  | some o => if o.ty = ty then some o else none
  | none => none

/-- `copy_ptr` of a table (lines 66, 77-79).  Without `ok` the constructor throws. -/
def copyPtr (tab : Option Ty) (w : World) (dst src : Var) (ok : Bool) : Option World :=
  match tab with
  | some ty => do
    let o ← objAt w src ty
    if ok then newAt w dst ty o.val else some w
  | none => some w

/-- `relocate_ptr` of a table (lines 67, 80-85). -/
def relocatePtr (tab : Option Ty) (w : World) (dst src : Var) : Option World :=
  match tab with
  | some ty => do
    let o ← objAt w src ty
    let w ← newAt w dst ty o.val
    delAt w src ty
  | none => some w

/-- `destructor_ptr` of a table (lines 68, 86-88). -/
def destructorPtr (tab : Option Ty) (w : World) (i : Var) : Option World :=
  match tab with
  | some ty => delAt w i ty
  | none => some w

/-- A variable begins to live with a table. -/
def declare (w : World) (i : Var) (d : Dim) (tab : Option Ty) : World :=
  { w with fns := Function.update w.fns i (some (d, tab)) }

/-- A variable ends to live; what is in its storage stays there. -/
def undeclare (w : World) (i : Var) : World := { w with fns := Function.update w.fns i none }

/-- `vtable_ptr_ = …`. -/
def setTab (w : World) (i : Var) (tab : Option Ty) : Option World :=
  match w.fns i with
  | some (d, _) => some { w with fns := Function.update w.fns i (some (d, tab)) }
  | none => none

/-- The constructor from a function object (lines 157-183): the table, then the object.  If it throws there is no
container. -/
def closureCtor (w : World) (i : Var) (d : Dim) (ty : Ty) (v : Nat) (ok : Bool) : Option World :=
  let w := declare w i d (some ty)
  if ok then newAt w i ty v else some (undeclare w i)

/-- The constructors from a container (lines 185-192, 209-216, 306-313): the table of the other, then its `copy_ptr`. -/
def copyCtor (w : World) (i : Var) (d : Dim) (j : Var) (ok : Bool) : Option World := do
  let (_, tab) ← w.fns j
  let w ← copyPtr tab (declare w i d tab) i j ok
  if tab.isSome ∧ ok = false then some (undeclare w i) else some w

/-- The constructors which move from a container: of the same size (lines 218-225), `std::exchange` and then the
`relocate_ptr` of the own table; of another size (lines 194-203, 306-313), the `relocate_ptr` of the other's table
and then the empty table for the other. -/
def moveCtor (w : World) (i : Var) (d : Dim) (j : Var) : Option World := do
  let (e, tab) ← w.fns j
  if d = e then
    let w := declare w i d tab
    let w ← setTab w j none
    relocatePtr tab w i j
  else
    let w := declare w i d tab
    let w ← relocatePtr tab w i j
    setTab w j none

/-- `~inplace_function` (lines 246-249). -/
def dtor (w : World) (i : Var) : Option World := do
  let (_, tab) ← w.fns i
  let w ← destructorPtr tab w i
  some (undeclare w i)

/-- `operator=(std::nullptr_t)` (lines 227-232). -/
def assignNull (w : World) (i : Var) : Option World := do
  let (_, tab) ← w.fns i
  let w ← destructorPtr tab w i
  setTab w i none

/-- `operator=(inplace_function other)` (lines 234-244) with `other` constructed, and the end of `other`. -/
def assignBody (w : World) (i : Var) : Option World := do
  let (_, tab) ← w.fns i
  let w ← destructorPtr tab w i
  let (_, ptab) ← w.fns .param
  let w ← setTab w i ptab
  let w ← setTab w .param none
  let w ← relocatePtr ptab w i .param
  dtor w .param

/-- `swap` (lines 274-295). -/
def swap (w : World) (i j : Var) : Option World :=
  if i = j then some w else do
    let (d, tab) ← w.fns i
    let (_, tab') ← w.fns j
    let w := declare w .tmp d none
    let w ← relocatePtr tab w .tmp i
    let w ← relocatePtr tab' w i j
    let w ← relocatePtr tab w j .tmp
    let w ← setTab w i tab'
    let w ← setTab w j tab
    some (undeclare w .tmp)

/-- The uses of the class. -/
inductive Op
  | defaultCtor (i : Nat) (d : Dim)
  | closureCtor (i : Nat) (d : Dim) (ty : Ty) (v : Nat) (ok : Bool)
  | copyCtor (i : Nat) (d : Dim) (j : Nat) (ok : Bool)
  | moveCtor (i : Nat) (d : Dim) (j : Nat)
  | assignNull (i : Nat)
  | assignClosure (i : Nat) (ty : Ty) (v : Nat) (ok : Bool)
  | assignCopy (i j : Nat) (ok : Bool)
  | assignMove (i j : Nat)
  | swap (i j : Nat)
  | call (i : Nat) (arg : Nat)
  | destroy (i : Nat)
deriving DecidableEq, Repr

/-- What calling an object does: of its type, value and argument, the result and its value afterwards. -/
abbrev Calls := Ty → Nat → Nat → Nat × Nat

/-- `operator()` (lines 251-257) and `invoke_ptr` (lines 63-65, 72-76). -/
def call (f : Calls) (w : World) (i : Var) (arg : Nat) : Option World := do
  let (_, tab) ← w.fns i
  match tab with
  | some ty =>
    let o ← objAt w i ty
    some { w with
      cell := Function.update w.cell i (some { o with val := (f ty o.val arg).2 })
      out := some (f ty o.val arg).1 :: w.out }
  | none => some { w with out := none :: w.out }

/-- One use.  In an assignment the parameter is constructed first; if that throws there is no assignment. -/
def step (f : Calls) (w : World) : Op → Option World
  | .defaultCtor i d => some (declare w (.user i) d none)
  | .closureCtor i d ty v ok => closureCtor w (.user i) d ty v ok
  | .copyCtor i d j ok => copyCtor w (.user i) d (.user j) ok
  | .moveCtor i d j => moveCtor w (.user i) d (.user j)
  | .assignNull i => assignNull w (.user i)
  | .assignClosure i ty v ok => do
    let (d, _) ← w.fns (.user i)
    let w ← closureCtor w .param d ty v ok
    if ok then assignBody w (.user i) else some w
  | .assignCopy i j ok => do
    let (d, _) ← w.fns (.user i)
    let w ← copyCtor w .param d (.user j) ok
    if (w.fns .param).isSome then assignBody w (.user i) else some w
  | .assignMove i j => do
    let (d, _) ← w.fns (.user i)
    let w ← moveCtor w .param d (.user j)
    assignBody w (.user i)
  | .swap i j => swap w (.user i) (.user j)
  | .call i arg => call f w (.user i) arg
  | .destroy i => dtor w (.user i)

def run (f : Calls) (w : World) : List Op → Option World
  | [] => some w
  | op :: ops => (step f w op).bind (fun w => run f w ops)

/-- `operator bool`, `operator!=(nullptr)` (lines 259-272). -/
def isSet (w : World) (i : Nat) : Option Bool := (w.fns (.user i)).map (fun p => p.2.isSome)

def start : World := ⟨fun _ => none, fun _ => none, 0, [], []⟩

end Modm.InplaceFunction
