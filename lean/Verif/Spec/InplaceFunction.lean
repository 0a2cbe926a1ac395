import Verif.Model.InplaceFunction
set_option autoImplicit false

/-!
# What a container of a function is to do

Independently of tables and storages: a container which lives is empty or holds a function object, a value of a type.
-/

namespace Spec.InplaceFunction

open Modm.InplaceFunction

abbrev Holding := Option (Ty × Nat)

/-- The containers which live, with their sizes and what they hold, and the results of the calls, latest first. -/
structure State where
  fns : Nat → Option (Dim × Holding)
  out : List (Option Nat)

def State.holding (s : State) (i : Nat) : Holding := (s.fns i).bind Prod.snd

def State.dim (s : State) (i : Nat) : Dim := ((s.fns i).map Prod.fst).getD (0, 0)

def State.set (s : State) (i : Nat) (x : Option (Dim × Holding)) : State :=
  { s with fns := Function.update s.fns i x }

def State.hold (s : State) (i : Nat) (h : Holding) : State := s.set i (some (s.dim i, h))

/-- Copies hold the same, moving empties, what throws changes nothing, a call gives the result and changes the object;
calling an empty container is reported. -/
def mean (f : Calls) (s : State) : Op → State
  | .defaultCtor i d => s.set i (some (d, none))
  | .closureCtor i d ty v ok => if ok then s.set i (some (d, some (ty, v))) else s
  | .copyCtor i d j ok => if ok || (s.holding j).isNone then s.set i (some (d, s.holding j)) else s
  | .moveCtor i d j => (s.hold j none).set i (some (d, s.holding j))
  | .assignNull i => s.hold i none
  | .assignClosure i ty v ok => if ok then s.hold i (some (ty, v)) else s
  | .assignCopy i j ok => if ok || (s.holding j).isNone then s.hold i (s.holding j) else s
  | .assignMove i j => (s.hold j none).hold i (s.holding j)
  | .swap i j => (s.hold j (s.holding i)).hold i (s.holding j)
  | .call i arg =>
    match s.holding i with
    | some (ty, v) => { s.hold i (some (ty, (f ty v arg).2)) with out := some (f ty v arg).1 :: s.out }
    | none => { s with out := none :: s.out }
  | .destroy i => s.set i none

def meanAll (f : Calls) (s : State) (ops : List Op) : State := ops.foldl (mean f) s

/-- The assertions on a function object (lines 167-177). -/
def Fits (ty : Ty) (d : Dim) : Prop := ty.size ≤ d.1 ∧ ty.align ∣ d.2

/-- The assertions on another container (lines 104-114). -/
def Holds (dst src : Dim) : Prop := src.1 ≤ dst.1 ∧ src.2 ∣ dst.2

/-- The program uses containers while they live, and compiles. -/
def Legal (s : State) : Op → Prop
  | .defaultCtor i _ => s.fns i = none
  | .closureCtor i d ty _ _ => s.fns i = none ∧ Fits ty d
  | .copyCtor i d j _ => s.fns i = none ∧ s.fns j ≠ none ∧ Holds d (s.dim j)
  | .moveCtor i d j => s.fns i = none ∧ s.fns j ≠ none ∧ Holds d (s.dim j)
  | .assignNull i => s.fns i ≠ none
  | .assignClosure i ty _ _ => s.fns i ≠ none ∧ Fits ty (s.dim i)
  | .assignCopy i j _ => s.fns i ≠ none ∧ s.fns j ≠ none ∧ Holds (s.dim i) (s.dim j)
  | .assignMove i j => s.fns i ≠ none ∧ s.fns j ≠ none ∧ Holds (s.dim i) (s.dim j)
  | .swap i j => s.fns i ≠ none ∧ s.fns j ≠ none ∧ s.dim i = s.dim j
  | .call i _ => s.fns i ≠ none
  | .destroy i => s.fns i ≠ none

instance (ty : Ty) (d : Dim) : Decidable (Fits ty d) := inferInstanceAs (Decidable (_ ∧ _))
instance (a b : Dim) : Decidable (Holds a b) := inferInstanceAs (Decidable (_ ∧ _))
instance (s : State) (op : Op) : Decidable (Legal s op) := by
  cases op <;> unfold Legal <;> infer_instance

/-- Each use is legal where it happens. -/
def LegalRun (f : Calls) (s : State) : List Op → Prop
  | [] => True
  | op :: ops => Legal s op ∧ LegalRun f (mean f s op) ops

instance decLegalRun (f : Calls) : (s : State) → (ops : List Op) → Decidable (LegalRun f s ops)
  | _, [] => isTrue trivial
  | s, op :: ops => by
    have := decLegalRun f (mean f s op) ops
    unfold LegalRun
    infer_instance

def start : State := ⟨fun _ => none, []⟩

/-- What the variables hold. -/
def view (w : World) : State :=
  ⟨fun i => (w.fns (.user i)).map (fun p => (p.1, (w.cell (.user i)).map (fun o => (o.ty, o.val)))), w.out⟩

/-- Each object which was constructed and not destroyed is in exactly one container which lives; none was destroyed
twice. -/
def Accounted (w : World) : Prop :=
  w.dead.Nodup ∧ (∀ x ∈ w.dead, x < w.next) ∧
  ∀ x < w.next, x ∉ w.dead → ∃! i : Nat, w.fns (.user i) ≠ none ∧ ∃ o, w.cell (.user i) = some o ∧ o.id = x

/-- Each object which was ever constructed has been destroyed, once. -/
def Balanced (w : World) : Prop := w.dead.Nodup ∧ ∀ x, x ∈ w.dead ↔ x < w.next

end Spec.InplaceFunction
