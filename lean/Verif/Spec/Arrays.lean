/-
Named sequences: the reference for `modm::DynamicArray`.
-/
set_option autoImplicit false
namespace Spec.Arrays
variable {T : Type}

/-- the sequences in existence -/
abbrev Store (T : Type) := Nat → Option (List T)

inductive Op (T : Type)
  | create (i : Nat)
  | fill (i n : Nat) (v : T)
  | ofList (i : Nat) (l : List T)
  | copy (i j : Nat)
  | destroy (i : Nat)
  | assign (i j : Nat)
  | reserve (i n : Nat)
  | clear (i : Nat)
  | append (i : Nat) (v : T)
  | removeBack (i : Nat)
  | set (i k : Nat) (v : T)

def write (s : Store T) (i : Nat) (l : Option (List T)) : Store T := fun x => if x = i then l else s x

/-- what an operation does to the sequences; `none`: the operation is not allowed -/
def apply (s : Store T) : Op T → Option (Store T)
  | .create i => match s i with | none => some (write s i (some [])) | some _ => none
  | .fill i n v => match s i with | none => some (write s i (some (List.replicate n v))) | some _ => none
  | .ofList i l => match s i with | none => some (write s i (some l)) | some _ => none
  | .copy i j => match s i, s j with | none, some l => some (write s i (some l)) | _, _ => none
  | .destroy i => match s i with | some _ => some (write s i none) | none => none
  | .assign i j => match s i, s j with | some _, some l => if i = j then none else some (write s i (some l)) | _, _ => none
  | .reserve i _ => match s i with | some _ => some s | none => none
  | .clear i => match s i with | some _ => some (write s i (some [])) | none => none
  | .append i v => match s i with | some l => some (write s i (some (l ++ [v]))) | none => none
  | .removeBack i => match s i with | some l => if l = [] then none else some (write s i (some l.dropLast)) | none => none
  | .set i k v => match s i with | some l => if k < l.length then some (write s i (some (l.set k v))) else none | none => none

end Spec.Arrays
