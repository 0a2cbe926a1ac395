/-
What the animations promise: values on the way from one to the other, frames in order, and points in time.
-/
set_option autoImplicit false
namespace Spec.Animation

/-- `y` lies on the way from `b` to `e`. -/
def Between (b y e : Int) : Prop := (b ≤ y ∧ y ≤ e) ∨ (e ≤ y ∧ y ≤ b)

/-- Times (in milliseconds) at which a function is called after `t`: in order, and never 256 ms apart. -/
inductive Often : Nat → List Nat → Prop
  | nil (t : Nat) : Often t []
  | cons (t u : Nat) (us : List Nat) : t ≤ u → u < t + 256 → Often u us → Often t (u :: us)

/-- The last of the times, or `t`. -/
def last (t : Nat) : List Nat → Nat
  | [] => t
  | u :: us => last u us

/-- The number of the frame that is played as number `k`: again and again from the first to the last, or up and down. -/
def frameAt (cycle : Bool) (n k : Nat) : Nat :=
  if cycle then k % n
  else
    let p := k % (2 * (n - 1))
    if p < n then p else 2 * (n - 1) - p

/-- How many frames are played for `r` repeats. -/
def total (cycle : Bool) (n r : Nat) : Nat := if cycle then n * r else 1 + 2 * (n - 1) * r

end Spec.Animation
