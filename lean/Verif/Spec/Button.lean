set_option autoImplicit false

/-! What a debounced button is. -/

namespace Spec.Button

/-- The state of a button after a history of samples (the newest first): it starts with `first` and changes
when four consecutive samples agree. -/
def debounced (first : Bool) : List Bool → Bool
  | [] => first
  | s :: history => if history.take 3 = [s, s, s] then s else debounced first history

/-- The updates at which a button that is held repeats: the `delay`-th and every `period`-th after that. -/
def repeats (delay period n : Nat) : Prop := ∃ k, n = delay + k * period

end Spec.Button
