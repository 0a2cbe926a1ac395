import Verif.Model.SCurve
import Mathlib.Tactic.Linarith
import Mathlib.Tactic.NormNum
import Mathlib.Tactic.FieldSimp
import Mathlib.Algebra.Order.Ring.Abs

set_option autoImplicit false

namespace Props.SCurve
open Model.SCurve

/-! ### Specification -/

/-- The part of a speed in the direction of the error. -/
def towards (error speed : ℚ) : ℚ := if error < 0 then -speed else speed

/-- The size of the output, in the direction of the error. -/
theorem update_some (sqrt : ℚ → ℚ) (s t : St) (error speed : ℚ) (h : update sqrt s error speed = some t) :
    ∃ extra, s.additionalDistanceToStop = some extra ∧ t.parameter = s.parameter ∧ t.additionalDistanceToStop = some extra ∧
      t.targetReached = decide (|error| ≤ s.parameter.targetArea) ∧
      towards error t.output = max (min (min (towards error speed + s.parameter.increment)
        (if |error| + extra ≤ s.parameter.targetArea then (|error| + extra) * s.parameter.kp
          else sqrt ((|error| + extra) * s.parameter.decreaseFactor * 2))) s.parameter.speedMaximum) s.parameter.speedMinimum := by
  have ae : (if error < 0 then -error else error) = |error| := by
    split
    · rename_i n; rw [abs_of_neg n]
    · rename_i n; rw [abs_of_nonneg (not_lt.mp n)]
  have mn : ∀ a b : ℚ, (if a < b then a else b) = min a b := by
    intro a b
    split
    · rename_i l; rw [min_eq_left (le_of_lt l)]
    · rename_i l; rw [min_eq_right (not_lt.mp l)]
  have mx : ∀ a b : ℚ, (if a < b then b else a) = max a b := by
    intro a b
    split
    · rename_i l; rw [max_eq_right (le_of_lt l)]
    · rename_i l; rw [max_eq_left (not_lt.mp l)]
  cases hx : s.additionalDistanceToStop with
  | none => simp only [update, hx] at h; exact absurd h (by simp)
  | some extra =>
    simp only [update, hx, ae, mn, mx] at h
    injection h with h
    subst h
    refine ⟨extra, rfl, rfl, by simp only [hx], rfl, ?_⟩
    simp only [towards]
    by_cases n : error < 0
    · simp [n]
    · simp [n]

/-- The settings make sense. -/
structure Sane (p : Parameter) : Prop where
  low : 0 ≤ p.speedMinimum
  high : p.speedMinimum ≤ p.speedMaximum

/-- C343: for all errors, speeds and sensible settings: the output is in the direction of the error, its size is
between `speedMinimum` and `speedMaximum`, and the opposite error and speed give the opposite output. -/
theorem C343_limits (sqrt : ℚ → ℚ) (s t : St) (error speed : ℚ) (hp : Sane s.parameter) (h : update sqrt s error speed = some t) :
    s.parameter.speedMinimum ≤ |t.output| ∧ |t.output| ≤ s.parameter.speedMaximum ∧
    (0 < error → 0 ≤ t.output) ∧ (error < 0 → t.output ≤ 0) ∧
    (error ≠ 0 → ∃ t', update sqrt s (-error) (-speed) = some t' ∧ t'.output = -t.output ∧ t'.targetReached = t.targetReached) := by
  obtain ⟨extra, hx, _, _, hr, ho⟩ := update_some sqrt s t error speed h
  have lo : s.parameter.speedMinimum ≤ towards error t.output := by rw [ho]; exact le_max_right _ _
  have hi : towards error t.output ≤ s.parameter.speedMaximum := by
    rw [ho]; exact max_le (min_le_right _ _) hp.high
  have nn : 0 ≤ towards error t.output := le_trans hp.low lo
  have ab : |t.output| = towards error t.output := by
    unfold towards at nn ⊢
    split at nn
    · rename_i n; rw [if_pos n, abs_of_nonpos (by linarith)]
    · rename_i n; rw [if_neg n, abs_of_nonneg nn]
  refine ⟨by rw [ab]; exact lo, by rw [ab]; exact hi, ?_, ?_, ?_⟩
  · intro p; unfold towards at nn; rw [if_neg (by linarith)] at nn; exact nn
  · intro p; unfold towards at nn; rw [if_pos p] at nn; linarith
  · intro ne
    cases h2 : update sqrt s (-error) (-speed) with
    | none => simp [update, hx] at h2
    | some t' =>
      obtain ⟨extra', hx', _, _, hr', ho'⟩ := update_some sqrt s t' (-error) (-speed) h2
      rw [hx] at hx'
      injection hx' with ex
      subst ex
      refine ⟨t', rfl, ?_, by rw [hr, hr', abs_neg]⟩
      rw [abs_neg] at ho'
      have sp : towards (-error) (-speed) = towards error speed := by
        unfold towards
        rcases lt_or_gt_of_ne ne with n | n
        · have m : ¬ (-error < 0) := by linarith
          rw [if_pos n, if_neg m]
        · have m : ¬ (error < 0) := by linarith
          have m' : -error < 0 := by linarith
          rw [if_neg m, if_pos m', neg_neg]
      rw [sp, ← ho] at ho'
      unfold towards at ho'
      rcases lt_or_gt_of_ne ne with n | n
      · have m : ¬ (-error < 0) := by linarith
        rw [if_pos n, if_neg m] at ho'; exact ho'
      · have m : ¬ (error < 0) := by linarith
        have m' : -error < 0 := by linarith
        rw [if_neg m, if_pos m'] at ho'; linarith

/-- Settings for the cases: no extra distance. -/
def gentle : St := setParameter (construct ⟨0, 0, 0, 0, 0, 0, 0⟩) ⟨1, 2, 8, 3, 50, 1, 0⟩

/-- A square root of the squares used below. -/
def root (x : ℚ) : ℚ := if x = 1600 then 40 else if x = 64 then 8 else 0

/-- Case: accelerating towards a far target on the negative side. -/
example : Sane gentle.parameter ∧ (update root gentle (-100) (-10)).map (·.output) = some (-12) := by
  refine ⟨⟨?_, ?_⟩, ?_⟩ <;> decide +kernel

/-- C344: for all errors, speeds and settings: the speed grows by at most `increment`; outside of the target area it
is at most the speed from which one can brake with `decreaseFactor` to the target speed at the target (unless the
minimum is larger); inside it is at most `kp` times the distance.  The target is reached exactly if the distance is
at most `targetArea`. -/
theorem C344_ramps (sqrt : ℚ → ℚ) (hsq : ∀ x, 0 ≤ x → 0 ≤ sqrt x ∧ sqrt x * sqrt x ≤ x) (s t : St) (error speed extra : ℚ)
    (hp : Sane s.parameter) (hd : 0 ≤ s.parameter.decreaseFactor) (he : s.additionalDistanceToStop = some extra) (h0 : 0 ≤ extra)
    (h : update sqrt s error speed = some t) :
    |t.output| ≤ max (towards error speed + s.parameter.increment) s.parameter.speedMinimum ∧
    (s.parameter.targetArea < |error| + extra → s.parameter.speedMinimum < |t.output| →
      t.output * t.output ≤ 2 * s.parameter.decreaseFactor * (|error| + extra)) ∧
    (|error| + extra ≤ s.parameter.targetArea → |t.output| ≤ max ((|error| + extra) * s.parameter.kp) s.parameter.speedMinimum) ∧
    (t.targetReached = true ↔ |error| ≤ s.parameter.targetArea) := by
  obtain ⟨extra', hx, _, _, hr, ho⟩ := update_some sqrt s t error speed h
  rw [he] at hx
  injection hx with ex
  subst ex
  have lo : s.parameter.speedMinimum ≤ towards error t.output := by rw [ho]; exact le_max_right _ _
  have nn : 0 ≤ towards error t.output := le_trans hp.low lo
  have ab : |t.output| = towards error t.output := by
    unfold towards at nn ⊢
    split at nn
    · rename_i n; rw [if_pos n, abs_of_nonpos (by linarith)]
    · rename_i n; rw [if_neg n, abs_of_nonneg nn]
  refine ⟨?_, ?_, ?_, by rw [hr]; simp⟩
  · rw [ab, ho]
    exact max_le_max (le_trans (min_le_left _ _) (min_le_left _ _)) (le_refl _)
  · intro far big
    rw [ab] at big
    rw [ho] at big
    have b2 := (lt_max_iff.mp big).resolve_right (lt_irrefl _)
    have le : |t.output| ≤ sqrt ((|error| + extra) * s.parameter.decreaseFactor * 2) := by
      rw [ab, ho, max_eq_left (le_of_lt b2), if_neg (not_le.mpr far)]
      exact le_trans (min_le_left _ _) (min_le_right _ _)
    have pos : 0 ≤ (|error| + extra) * s.parameter.decreaseFactor * 2 :=
      mul_nonneg (mul_nonneg (add_nonneg (abs_nonneg _) h0) hd) (by norm_num)
    obtain ⟨q0, q1⟩ := hsq _ pos
    have sq : t.output * t.output = |t.output| * |t.output| := (abs_mul_abs_self _).symm
    rw [sq]
    have := mul_le_mul le le (abs_nonneg _) q0
    linarith
  · intro near
    rw [ab, ho, if_pos near]
    exact max_le_max (le_trans (min_le_left _ _) (min_le_right _ _)) (le_refl _)

/-- Case: braking at a distance of 4, the speed was 30. -/
example : (update root gentle 4 30).map (fun t => (t.output, t.targetReached)) = some (8, false) ∧
    (update root gentle (1 / 2) 8).map (fun t => (t.output, t.targetReached)) = some (3 / 2, true) := by decide +kernel

/-- C345: after `setParameter()` or `setSpeedTarget()`, and all further changes of the limits, an update has a result, and
the distance added is the one in which the speed falls from `speedTarget` to zero. -/
theorem C345_target_partial (sqrt : ℚ → ℚ) (s : St) (p : Parameter) (v lo hi error speed : ℚ) (hp : p.decreaseFactor ≠ 0) :
    let a := setSpeedMinimum (setSpeedMaximum (setParameter s p) hi) lo
    let b := setSpeedTarget (setParameter s p) v
    (∃ d, a.additionalDistanceToStop = some d ∧ 2 * p.decreaseFactor * d = p.speedTarget * p.speedTarget ∧
      (update sqrt a error speed).isSome = true) ∧
    (∃ d, b.additionalDistanceToStop = some d ∧ 2 * p.decreaseFactor * d = v * v ∧ b.parameter.speedTarget = v ∧
      (update sqrt b error speed).isSome = true) := by
  have key : ∀ w : ℚ, 2 * p.decreaseFactor * (w * w / p.decreaseFactor / 2) = w * w := by
    intro w; field_simp
  refine ⟨⟨p.speedTarget * p.speedTarget / p.decreaseFactor / 2, ?_, key _, ?_⟩, ⟨v * v / p.decreaseFactor / 2, ?_, key _, rfl, ?_⟩⟩ <;>
    simp [setSpeedMinimum, setSpeedMaximum, setSpeedTarget, setParameter, distance, hp, update]

/-- Case: passing the target with a speed of 8. -/
example : (update root (setSpeedTarget gentle 8) 96 39).map (·.output) = some 40 := by decide +kernel

/-- C345 (refuted): the constructor takes the parameters but does not compute the distance: all updates read a member that
was never written, until `setParameter()` or `setSpeedTarget()` is called. -/
theorem C345_constructor_counterexample (sqrt : ℚ → ℚ) (p : Parameter) (error speed : ℚ) :
    update sqrt (construct p) error speed = none := rfl

end Props.SCurve
