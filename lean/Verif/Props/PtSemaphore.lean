import Verif.Model.PtSemaphore
import Mathlib.Tactic.Common
/-
C16: the protothread semaphore.
-/
set_option autoImplicit false
namespace Props.PtSemaphore
open Modm.PtSemaphore

/-- histories of a semaphore with `initial` permits: the counter, the number of successful acquires and the number of releases so far,
and whether more than 65535 permits were ever outstanding -/
inductive Reach (initial : Nat) : Nat → Nat → Nat → Bool → Prop
  | init : Reach initial (create initial) 0 0 false
  | acquire (c a r : Nat) (o : Bool) : Reach initial c a r o → (acquire c).1 = true → Reach initial (acquire c).2 (a + 1) r o
  | refused (c a r : Nat) (o : Bool) : Reach initial c a r o → (acquire c).1 = false → Reach initial (acquire c).2 a r o
  | release (c a r : Nat) (o : Bool) : Reach initial c a r o → Reach initial (release c) a (r + 1) (o || decide (65535 < initial + (r + 1) - a))

theorem reach_inv {initial c a r : Nat} {o : Bool} (hi : initial < 65536) (h : Reach initial c a r o) :
    c < 65536 ∧ a + c ≤ initial + r ∧ (o = false → a + c = initial + r) := by
  induction h with
  | init => simp only [create]; omega
  | acquire c a r o _ hs ih =>
    simp only [acquire] at hs ⊢
    split at hs
    · rename_i hc; rw [if_pos hc]; simp only; refine ⟨by omega, by omega, fun ho => ?_⟩
      have := ih.2.2 ho; omega
    · cases hs
  | refused c a r o _ hs ih =>
    simp only [acquire] at hs ⊢
    split at hs
    · cases hs
    · rename_i hc; rw [if_neg hc]; exact ih
  | release c a r o _ ih =>
    simp only [release]
    refine ⟨by omega, by omega, fun ho => ?_⟩
    simp only [Bool.or_eq_false_iff, decide_eq_false_iff_not] at ho
    have := ih.2.2 ho.1
    omega

/-- C16: never more permits are held than there are: in every history, successful acquires never exceed the initial count plus the
releases -/
theorem C16_never_over_grants {initial c a r : Nat} {o : Bool} (hi : initial < 65536) (h : Reach initial c a r o) : a ≤ initial + r := by
  have := reach_inv hi h
  omega

/-- C16 (while at most 65535 permits are outstanding): acquire fails exactly when no permit is available -/
theorem C16_fails_only_when_empty_partial {initial c a r : Nat} (hi : initial < 65536) (h : Reach initial c a r false) :
    (acquire c).1 = false ↔ a = initial + r := by
  have := (reach_inv hi h).2.2 rfl
  simp only [acquire]
  split
  · simp; omega
  · simp; omega

/-- C16 is false beyond: the release that makes 65536 permits available loses all of them -/
theorem C16_release_wraps_counterexample : ∃ c o, Reach 65535 c 0 1 o ∧ (acquire c).1 = false :=
  ⟨_, _, .release _ _ _ _ .init, by decide⟩

example : Reach 1 1 1 1 false :=
  .release 0 1 0 false (.refused 0 1 0 false (.acquire 1 0 0 false .init rfl) rfl)

end Props.PtSemaphore
