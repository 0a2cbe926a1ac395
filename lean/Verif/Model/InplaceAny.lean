import Mathlib.Data.Nat.GCD.Basic
set_option autoImplicit false

/-!
# `modm::inplace_any` (`src/modm/utils/inplace_any.hpp`)

A container for one value of any type, kept in its own storage.  The model follows the lifetimes of the objects:
the storage of a container is a cell which is raw or holds an object; each object has the number of its
construction, its type and its value, `none` for the value of an object which was moved from.  What C++ leaves
undefined - destroying, copying or moving from a cell which holds no object of that type, constructing where the
object does not fit or is not aligned - gives `none`, and so does constructing over an object which lives, which
would never be destroyed.

A type is its identity, its size and its alignment.  The handler of a container is the type whose function
`inplace_any_handler<T>::execute` it points to (lines 79-83); the functions of different types are taken to have
different addresses.
-/

namespace Modm.InplaceAny

/-- What the class sees of a type: which one it is, `sizeof`, `alignof`. -/
structure Ty where
  tag : Nat
  size : Nat
  align : Nat
deriving DecidableEq, Repr

/-- An object: the number of its construction, its type, its value, `none` once it was moved from. -/
structure Obj where
  id : Nat
  ty : Ty
  val : Option Nat
deriving DecidableEq, Repr

/-- `inplace_any<Size>`: `Size`, `handler_`, and what `storage_` holds (lines 210-211). -/
structure Any where
  cap : Nat
  handler : Option Ty
  cell : Option Obj
deriving DecidableEq, Repr

/-- A variable of the program, by number; `none` is the local variable of `swap`. -/
abbrev Var := Option Nat

/-- The variables which live, the number of constructions so far, the objects destroyed, latest first. -/
structure World where
  vars : Var → Option Any
  next : Nat
  dead : List Nat

/-- The sizes and alignments a compiler gives to `int`, `long`, `long long`, `void*`, `void(*)()`, `double`,
`double[4]` and `long double`, and the alignment of a pointer to a function. -/
structure Target where
  scalars : List (Nat × Nat)
  fnAlign : Nat

/-- GCC for ARM. -/
def arm : Target := ⟨[(4, 4), (4, 4), (8, 8), (4, 4), (4, 4), (8, 8), (32, 8), (8, 8)], 4⟩

/-- GCC for x86-64. -/
def x64 : Target := ⟨[(4, 4), (8, 8), (8, 8), (8, 8), (8, 8), (8, 8), (32, 8), (16, 16)], 8⟩

/-- `aligned_storage.hpp:35-50`: the alignment of the union of the members which are no larger than the capacity.
Alignments are powers of two, whose largest is their least common multiple. -/
def helperAlign (t : Target) (cap : Nat) : Nat :=
  (t.scalars.filter (fun p => p.1 ≤ cap)).foldr (fun p a => Nat.lcm p.2 a) 1

/-- The alignment of the first member of the class, which is that of the class: of the storage and of the pointer
(`inplace_any.hpp:210-211`). -/
def anyAlign (t : Target) (cap : Nat) : Nat := Nat.lcm (helperAlign t cap) t.fnAlign

def World.put (w : World) (i : Var) (a : Option Any) : World :=
  { w with vars := fun k => if k = i then a else w.vars k }

/-- `inplace_any_handler<T>::construct` (lines 523-529): an object is made in the storage, then the handler is set. -/
def construct (t : Target) (w : World) (i : Var) (ty : Ty) (v : Option Nat) : Option World :=
  match w.vars i with
  | some a =>
    if a.cell = none ∧ ty.size ≤ a.cap ∧ ty.align ∣ anyAlign t a.cap then
      some { w.put i (some { a with cell := some ⟨w.next, ty, v⟩, handler := some ty }) with next := w.next + 1 }
    else none
  | none => none

/-- `execute` with `Action::Destruct` (line 519): the destructor of `T` on the storage. -/
def destroyObj (w : World) (i : Var) (ty : Ty) : Option World :=
  match w.vars i with
  | some a =>
    match a.cell with
    | some o => if o.ty = ty then some { w.put i (some { a with cell := none }) with dead := o.id :: w.dead } else none
    | none => none
  | none => none

/-- `handler = nullptr`. -/
def clearHandler (w : World) (i : Var) : Option World :=
  match w.vars i with
  | some a => some (w.put i (some { a with handler := none }))
  | none => none

/-- `inplace_any::destruct` (lines 473-481); the beginning of `move` and `copy` (lines 535-538, 546-549). -/
def destruct (w : World) (i : Var) : Option World := do
  let a ← w.vars i
  match a.handler with
  | some ty =>
    let w ← destroyObj w i ty
    clearHandler w i
  | none => some w

/-- The object of type `ty` a pointer to the storage is cast to. -/
def objAt (w : World) (j : Var) (ty : Ty) : Option (Any × Obj) :=
  match w.vars j with
  | some b =>
    match b.cell with
    | some o => if o.ty = ty then some (b, o) else none
    | none => none
  | none => none

/-- `move_from` (lines 463-471) and `inplace_any_handler<T>::move` (lines 531-540), `this = i`, `other = j`: what is
in `i` is destroyed, an object is constructed there from the object in `j`, which is left with no value. -/
def moveFrom (t : Target) (w : World) (i j : Var) : Option World := do
  let b ← w.vars j
  match b.handler with
  | some ty =>
    let w ← destruct w i
    let (b, o) ← objAt w j ty
    let w := w.put j (some { b with cell := some { o with val := none } })
    construct t w i ty o.val
  | none => some w

/-- `copy_from` (lines 452-461) and `inplace_any_handler<T>::copy` (lines 542-551).  Without `ok` the constructor of
the type throws; nothing follows it in any caller. -/
def copyFrom (t : Target) (w : World) (i j : Var) (ok : Bool) : Option World := do
  let b ← w.vars j
  match b.handler with
  | some ty =>
    let w ← destruct w i
    let (_, o) ← objAt w j ty
    if ok then construct t w i ty o.val else some w
  | none => some w

/-- A variable begins to live: `handler_{nullptr}` (lines 107, 211). -/
def declare (w : World) (i : Var) (cap : Nat) : World := w.put i (some ⟨cap, none, none⟩)

/-- A variable ends to live; what is in its storage stays there. -/
def undeclare (w : World) (i : Var) : World := w.put i none

/-- `~inplace_any` (lines 397-401). -/
def dtor (w : World) (i : Var) : Option World := do
  let w ← destruct w i
  some (undeclare w i)

/-- The uses of the class.  `ok` is whether the constructor of the type returns. -/
inductive Op
  | defaultCtor (i : Nat) (cap : Nat)
  | copyCtor (i : Nat) (cap : Nat) (j : Nat) (ok : Bool)
  | moveCtor (i : Nat) (cap : Nat) (j : Nat)
  | valueCtor (i : Nat) (cap : Nat) (ty : Ty) (v : Nat) (ok : Bool)
  | copyAssign (i j : Nat) (ok : Bool)
  | moveAssign (i j : Nat)
  | valueAssign (i : Nat) (ty : Ty) (v : Nat) (ok : Bool)
  | emplace (i : Nat) (ty : Ty) (v : Nat) (ok : Bool)
  | reset (i : Nat)
  | swap (i j : Nat)
  | destroy (i : Nat)
deriving DecidableEq, Repr

/-- `swap` (lines 483-500). -/
def swap (t : Target) (w : World) (i j : Var) : Option World :=
  if i = j then some w else do
    let a ← w.vars i
    let b ← w.vars j
    if a.handler.isSome ∧ b.handler.isSome then
      let w := declare w none a.cap
      let w ← moveFrom t w none j
      let w ← moveFrom t w j i
      let w ← moveFrom t w i none
      dtor w none
    else if a.handler.isSome then moveFrom t w j i
    else moveFrom t w i j

/-- The constructors (lines 327-337, 360-374, 403-419), assignments (lines 339-358, 376-395, 421-431), `emplace`
(lines 433-441), `reset` (line 168), `swap` and the destructor.  A constructor which throws leaves no variable. -/
def step (t : Target) (w : World) : Op → Option World
  | .defaultCtor i cap => some (declare w (some i) cap)
  | .copyCtor i cap j ok => do
    let b ← w.vars (some j)
    let w' ← copyFrom t (declare w (some i) cap) (some i) (some j) ok
    if b.handler.isSome ∧ ok = false then some (undeclare w' (some i)) else some w'
  | .moveCtor i cap j => moveFrom t (declare w (some i) cap) (some i) (some j)
  | .valueCtor i cap ty v ok =>
    let w := declare w (some i) cap
    if ok then construct t w (some i) ty (some v) else some (undeclare w (some i))
  | .copyAssign i j ok =>
    if i = j then some w else do
      let w ← destruct w (some i)
      copyFrom t w (some i) (some j) ok
  | .moveAssign i j =>
    if i = j then some w else do
      let w ← destruct w (some i)
      moveFrom t w (some i) (some j)
  | .valueAssign i ty v ok => do
    let w ← destruct w (some i)
    if ok then construct t w (some i) ty (some v) else some w
  | .emplace i ty v ok => do
    let w ← destruct w (some i)
    if ok then construct t w (some i) ty (some v) else some w
  | .reset i => destruct w (some i)
  | .swap i j => swap t w (some i) (some j)
  | .destroy i => dtor w (some i)

/-- The uses in their order; `none` as soon as one is undefined. -/
def run (t : Target) (w : World) : List Op → Option World
  | [] => some w
  | op :: ops => (step t w op).bind (fun w => run t w ops)

/-- `has_value`, `empty`, `operator bool` (lines 170-177). -/
def hasValue (w : World) (i : Nat) : Option Bool := (w.vars (some i)).map (fun a => a.handler.isSome)

/-- `any_cast<T>(&any)` (lines 270-292): the object, if the handler is that of `T`.  The outer `none` is undefined
behaviour, the inner one the null pointer. -/
def anyCast (w : World) (i : Nat) (ty : Ty) : Option (Option (Option Nat)) := do
  let a ← w.vars (some i)
  if a.handler = some ty then
    let (_, o) ← objAt w (some i) ty
    some (some o.val)
  else some none

/-- `a = *any_cast<T>(&a)` (lines 421-431): the value which is assigned is a reference into the container, read by
the constructor after `destruct`. -/
def assignOwn (t : Target) (w : World) (i : Nat) (ty : Ty) : Option World := do
  let _ ← objAt w (some i) ty
  let w ← destruct w (some i)
  let (_, o) ← objAt w (some i) ty
  construct t w (some i) ty o.val

/-- Before any variable lives. -/
def start : World := ⟨fun _ => none, 0, []⟩

end Modm.InplaceAny
