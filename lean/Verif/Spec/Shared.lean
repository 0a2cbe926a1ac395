/-
Shared ownership: handles refer to objects, an object exists as long as a handle refers to it.
-/
set_option autoImplicit false
namespace Spec.Shared
variable {P : Type}

/-- the living handles, each with the object it refers to, and the contents of the objects -/
structure Store (P : Type) where
  handles : List (Nat × Nat)
  contents : Nat → Option P

def empty : Store P := ⟨[], fun _ => none⟩

inductive Op (P : Type)
  | create (h object : Nat) (p : P)
  | copy (h g : Nat)
  | destroy (h : Nat)
  | assign (h g : Nat)
  | write (h : Nat) (p : P)

/-- the object a handle refers to -/
def target (s : Store P) (h : Nat) : Option Nat := (s.handles.find? fun x => x.1 = h).map (·.2)

/-- number of handles of an object -/
def owners (s : Store P) (object : Nat) : Nat := s.handles.countP fun x => x.2 = object

def without (s : Store P) (h : Nat) : List (Nat × Nat) := s.handles.filter fun x => x.1 ≠ h

/-- objects without handles cease to exist -/
def collect (s : Store P) : Store P := ⟨s.handles, fun o => if owners s o = 0 then none else s.contents o⟩

def setContents (s : Store P) (o : Nat) (p : P) : Nat → Option P := fun x => if x = o then some p else s.contents x

/-- `none`: not allowed -/
def apply (s : Store P) : Op P → Option (Store P)
  | .create h o p => match target s h with
    | none => if owners s o = 0 then some ⟨(h, o) :: s.handles, setContents s o p⟩ else none
    | some _ => none
  | .copy h g => match target s h, target s g with
    | none, some o => some ⟨(h, o) :: s.handles, s.contents⟩
    | _, _ => none
  | .destroy h => match target s h with
    | some _ => some (collect ⟨without s h, s.contents⟩)
    | none => none
  | .assign h g => match target s h, target s g with
    | some _, some o => some (collect ⟨(h, o) :: without s h, s.contents⟩)
    | _, _ => none
  | .write h p => match target s h with
    | some o => some ⟨s.handles, setContents s o p⟩
    | none => none

end Spec.Shared
