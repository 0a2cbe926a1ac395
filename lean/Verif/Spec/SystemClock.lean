import Verif.Model.SystemClock

set_option autoImplicit false

/-!
# What a user of `modm::Clock` and `modm::PreciseClock` expects
-/

namespace Spec.SystemClock

open Modm.SystemClock

/-- What the clock shows at time `t`. -/
def shown (cfg : Config) (t : Nat) : Nat := cfg.step * (t / cfg.period) + cfg.interp (t % cfg.period)

/-- The clock never goes backwards, neither within a period nor into the next one. -/
structure Monotone (cfg : Config) : Prop where
  within : ∀ c d, c ≤ d → d < cfg.period → cfg.interp c ≤ cfg.interp d
  next : ∀ c, c < cfg.period → cfg.interp c ≤ cfg.step

/-- The calls: when each began, what it returned, and when; `t` is when the call going on began. -/
def callsFrom : Option Nat → List Ev → List (Nat × Nat × Nat)
  | _, [] => []
  | _, .called t :: tr => callsFrom (some t) tr
  | some t, .returned r u :: tr => (t, r, u) :: callsFrom none tr
  | none, .returned _ _ :: tr => callsFrom none tr
  | o, .other _ _ :: tr => callsFrom o tr

def calls (tr : List Ev) : List (Nat × Nat × Nat) := callsFrom none tr

/-- The interrupt is handled within two steps of the caller and before the timer starts again. -/
def Prompt (cfg : Config) (s : State) : Act → Prop
  | .main => s.pend = true → s.late < 2
  | .tick => s.pend = true → s.cnt + 1 < cfg.period
  | _ => True

/-- In addition, nobody else calls `now` during a call. -/
def Alone (cfg : Config) (s : State) : Act → Prop
  | .other => s.main = .idle
  | a => Prompt cfg s a

end Spec.SystemClock
