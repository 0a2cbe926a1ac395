import Verif.Model.InplaceAny
set_option autoImplicit false

/-!
# What a container of any value is to do

Independently of handlers and storages: a container which lives has a capacity and holds nothing or a value of a type;
`none` for the value is that of an object which was moved from, of which nothing is promised.
-/

namespace Spec.InplaceAny

open Modm.InplaceAny

abbrev Holding := Option (Ty × Option Nat)

/-- The containers which live: their capacity and what they hold. -/
abbrev State := Nat → Option (Nat × Holding)

def State.set (s : State) (i : Nat) (x : Option (Nat × Holding)) : State := fun k => if k = i then x else s k

/-- What the container holds. -/
def State.holding (s : State) (i : Nat) : Holding := (s i).bind Prod.snd

def State.cap (s : State) (i : Nat) : Nat := ((s i).map Prod.fst).getD 0

/-- Moving leaves an object without value. -/
def moved (h : Holding) : Holding := h.map (fun p => (p.1, none))

/-- Sets what a container which lives holds. -/
def State.hold (s : State) (i : Nat) (h : Holding) : State := s.set i (some (s.cap i, h))

/-- The meaning of the uses: that of `std::any`, except that a copy which throws leaves the target empty (lines 94-97
of `inplace_any.hpp`). -/
def mean (s : State) : Op → State
  | .defaultCtor i cap => s.set i (some (cap, none))
  | .copyCtor i cap j ok =>
    if ok || (s.holding j).isNone then s.set i (some (cap, s.holding j)) else s
  | .moveCtor i cap j => (s.hold j (moved (s.holding j))).set i (some (cap, s.holding j))
  | .valueCtor i cap ty v ok => if ok then s.set i (some (cap, some (ty, some v))) else s
  | .copyAssign i j ok => if i = j then s else s.hold i (if ok then s.holding j else none)
  | .moveAssign i j => if i = j then s else (s.hold j (moved (s.holding j))).hold i (s.holding j)
  | .valueAssign i ty v ok => s.hold i (if ok then some (ty, some v) else none)
  | .emplace i ty v ok => s.hold i (if ok then some (ty, some v) else none)
  | .reset i => s.hold i none
  | .swap i j => (s.hold j (s.holding i)).hold i (s.holding j)
  | .destroy i => s.set i none

def meanAll (s : State) (ops : List Op) : State := ops.foldl mean s

/-- The type may be put in a container of this capacity: it is no larger, which the class asserts, and its
alignment is one the storage has. -/
def Fits (t : Target) (ty : Ty) (cap : Nat) : Prop := ty.size ≤ cap ∧ ty.align ∣ anyAlign t cap

/-- The program uses variables while they live, and compiles: containers are assigned and constructed from no larger
ones, only containers of the same type are swapped, and types fit. -/
def Legal (t : Target) (s : State) : Op → Prop
  | .defaultCtor i _ => s i = none
  | .copyCtor i cap j _ => s i = none ∧ s j ≠ none ∧ s.cap j ≤ cap
  | .moveCtor i cap j => s i = none ∧ s j ≠ none ∧ s.cap j ≤ cap
  | .valueCtor i cap ty _ _ => s i = none ∧ Fits t ty cap
  | .copyAssign i j _ => s i ≠ none ∧ s j ≠ none ∧ s.cap j ≤ s.cap i
  | .moveAssign i j => s i ≠ none ∧ s j ≠ none ∧ s.cap j ≤ s.cap i
  | .valueAssign i ty _ _ => s i ≠ none ∧ Fits t ty (s.cap i)
  | .emplace i ty _ _ => s i ≠ none ∧ Fits t ty (s.cap i)
  | .reset i => s i ≠ none
  | .swap i j => s i ≠ none ∧ s j ≠ none ∧ s.cap i = s.cap j
  | .destroy i => s i ≠ none

instance (t : Target) (ty : Ty) (cap : Nat) : Decidable (Fits t ty cap) := inferInstanceAs (Decidable (_ ∧ _))

instance (t : Target) (s : State) (op : Op) : Decidable (Legal t s op) := by
  cases op <;> unfold Legal <;> infer_instance

/-- No container which holds a value is swapped with one which holds none. -/
def NotHalf (s : State) : Op → Prop
  | .swap i j => (s.holding i).isSome = (s.holding j).isSome
  | _ => True

instance (s : State) (op : Op) : Decidable (NotHalf s op) := by
  cases op <;> unfold NotHalf <;> infer_instance

/-- Each use is legal where it happens, and no swap is half. -/
def LegalRun (t : Target) (s : State) : List Op → Prop
  | [] => True
  | op :: ops => Legal t s op ∧ NotHalf s op ∧ LegalRun t (mean s op) ops

instance decLegalRun (t : Target) : (s : State) → (ops : List Op) → Decidable (LegalRun t s ops)
  | _, [] => isTrue trivial
  | s, op :: ops => by
    have := decLegalRun t (mean s op) ops
    unfold LegalRun
    infer_instance

/-- What the variables hold. -/
def view (w : World) : State := fun i => (w.vars (some i)).map (fun a => (a.cap, a.cell.map (fun o => (o.ty, o.val))))

/-- Each use is legal in the state the uses before it leave. -/
def LegalFrom (t : Target) (w : World) : List Op → Prop
  | [] => True
  | op :: ops =>
    Legal t (view w) op ∧
      match step t w op with
      | some w' => LegalFrom t w' ops
      | none => True

instance decLegalFrom (t : Target) : (w : World) → (ops : List Op) → Decidable (LegalFrom t w ops)
  | _, [] => isTrue trivial
  | w, op :: ops => by
    unfold LegalFrom
    cases h : step t w op with
    | none => infer_instance
    | some w' =>
      have := decLegalFrom t w' ops
      infer_instance

/-- Each object which was constructed and not destroyed is in exactly one variable; none was destroyed twice. -/
def Accounted (w : World) : Prop :=
  w.dead.Nodup ∧ (∀ x ∈ w.dead, x < w.next) ∧
  ∀ x < w.next, x ∉ w.dead → ∃! i : Nat, ∃ a o, w.vars (some i) = some a ∧ a.cell = some o ∧ o.id = x

/-- Each object which was ever constructed has been destroyed, once. -/
def Balanced (w : World) : Prop := w.dead.Nodup ∧ ∀ x, x ∈ w.dead ↔ x < w.next

/-- The types made of the scalars of the target, of what is no more aligned than a pointer to a function, and of
structures and arrays of such types: size and alignment. -/
inductive Natural (t : Target) : Nat → Nat → Prop
  | scalar (s a : Nat) : (s, a) ∈ t.scalars → Natural t s a
  | small (s a : Nat) : a ∣ t.fnAlign → Natural t s a
  | both (s a s₁ a₁ s₂ a₂ : Nat) : Natural t s₁ a₁ → Natural t s₂ a₂ → s₁ ≤ s → s₂ ≤ s → a = Nat.lcm a₁ a₂ →
      Natural t s a

end Spec.InplaceAny
