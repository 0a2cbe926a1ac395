import Verif.Model.Timer
/- Independent specification of a one-shot timeout on an ideal clock that never wraps. -/
set_option autoImplicit false
namespace Spec.Timer
open Modm.Timer (Op)

/-- `off`: stopped. `on t0 i seen fired`: armed at absolute time `t0` for `i` ticks; `seen` = some call has
already observed the expiry; `fired` = `execute` already reported it. -/
inductive A where
  | off
  | on (t0 i : Nat) (seen fired : Bool)
deriving Repr, DecidableEq

def A.interval : A → Nat
  | .off => 0
  | .on _ i _ _ => i

/-- One call at absolute time `t`. `none` means the caller is outside the documented limits: an interval that
does not fit, a time before the arming, or the first poll after expiry comes a whole counter period
after the arming. -/
def step (W t : Nat) (a : A) : Op → Option (A × Option Bool)
  | .restart i => if i < W then some (.on t i false false, none) else none
  | .restartSame => some (.on t a.interval false false, none)
  | .stop => some (.off, none)
  | .isStopped => some (a, some (a = .off))
  | .execute => match a with
    | .off => some (.off, some false)
    | .on t0 i seen fired =>
      if t0 ≤ t ∧ (seen ∨ t - t0 < W) then
        let expired := decide (seen ∨ t - t0 ≥ i)
        some (.on t0 i expired (fired || expired), some (expired && !fired))
      else none
  | .isExpired => match a with
    | .off => some (.off, some false)
    | .on t0 i seen fired =>
      if t0 ≤ t ∧ (seen ∨ t - t0 < W) then
        let expired := decide (seen ∨ t - t0 ≥ i)
        some (.on t0 i expired fired, some expired)
      else none
  | .isArmed => match a with
    | .off => some (.off, some false)
    | .on t0 i seen fired =>
      if t0 ≤ t ∧ (seen ∨ t - t0 < W) then
        let expired := decide (seen ∨ t - t0 ≥ i)
        some (.on t0 i expired fired, some (!expired))
      else none

def run (W : Nat) (a : A) : List (Nat × Op) → Option (A × List (Option Bool))
  | [] => some (a, [])
  | (t, o) :: os => do
    let (a, r) ← step W t a o
    let (a, rs) ← run W a os
    some (a, r :: rs)

/-- `k` full periods of length `i` fit between the phase `t0` and `t` -/
def periods (t0 i t : Nat) : Nat := (t - t0) / i

end Spec.Timer
