import Verif.Model.Location
import Mathlib.Tactic.Ring
import Mathlib.Tactic.Abel
import Mathlib.Tactic.Linarith
import Mathlib.Tactic.NormNum
import Mathlib.Tactic.LinearCombination

set_option autoImplicit false

namespace Props.Location
open Model.Location

section Angle
variable {A : Type} [AddCommGroup A] [LinearOrder A]

/-- The specification: two angles are the same direction. -/
def Same (pi a b : A) : Prop := ∃ k : ℤ, b = a + k • (pi + pi)

/-- The specification: an angle is in the range of the class. -/
def Normal (pi a : A) : Prop := -pi ≤ a ∧ a ≤ pi

theorem Same.refl (pi a : A) : Same pi a a := ⟨0, by simp⟩

theorem Same.trans {pi a b c : A} (h : Same pi a b) (g : Same pi b c) : Same pi a c := by
  obtain ⟨k, rfl⟩ := h; obtain ⟨l, rfl⟩ := g
  exact ⟨k + l, by rw [add_zsmul]; abel⟩

theorem Same.symm {pi a b : A} (h : Same pi a b) : Same pi b a := by
  obtain ⟨k, rfl⟩ := h
  exact ⟨-k, by rw [neg_zsmul]; abel⟩

theorem Same.add {pi a b c d : A} (h : Same pi a b) (g : Same pi c d) : Same pi (a + c) (b + d) := by
  obtain ⟨k, rfl⟩ := h; obtain ⟨l, rfl⟩ := g
  exact ⟨k + l, by rw [add_zsmul]; abel⟩

variable [IsOrderedAddMonoid A]

theorem down_spec (pi : A) (hp : 0 < pi) (n : Nat) : ∀ a : A, 0 ≤ a → a ≤ pi + n • (pi + pi) →
    ∃ r, (∀ m, n ≤ m → down pi id m a = some r) ∧ Normal pi r ∧ Same pi a r := by
  induction n with
  | zero =>
    intro a h0 h
    have h' : a ≤ pi := by simpa using h
    refine ⟨a, ?_, ⟨?_, h'⟩, Same.refl pi a⟩
    · intro m _
      cases m <;> simp [down, not_lt.mpr h']
    · exact le_trans (by simpa using hp.le) h0
  | succ n ih =>
    intro a h0 h
    by_cases c : pi < a
    · have e : a - (pi + pi) ≤ pi + n • (pi + pi) := by
        rw [sub_le_iff_le_add]; rw [succ_nsmul] at h
        rw [add_assoc]; exact h
      by_cases z : 0 ≤ a - (pi + pi)
      · obtain ⟨r, hr, hn, hs⟩ := ih (a - (pi + pi)) z e
        refine ⟨r, ?_, hn, ?_⟩
        · intro m hm
          cases m with
          | zero => omega
          | succ m => simp only [down, c, if_true, id]; exact hr m (by omega)
        · exact Same.trans ⟨-1, by rw [neg_one_zsmul]; abel⟩ hs
      · refine ⟨a - (pi + pi), ?_, ⟨?_, ?_⟩, ⟨-1, by rw [neg_one_zsmul]; abel⟩⟩
        · intro m hm
          have z' : ¬ pi < a - (pi + pi) := fun g => z (le_of_lt (lt_trans hp g))
          cases m with
          | zero => omega
          | succ m =>
            simp only [down, c, if_true, id]
            cases m <;> simp only [down, z', if_false]
        · rw [le_sub_iff_add_le]; have : -pi + (pi + pi) = pi := by abel
          rw [this]; exact c.le
        · exact le_trans (not_le.mp z).le hp.le
    · refine ⟨a, ?_, ⟨le_trans (by simpa using hp.le) h0, not_lt.mp c⟩, Same.refl pi a⟩
      intro m _
      cases m <;> simp [down, c]

theorem up_eq (pi : A) (n : Nat) : ∀ a : A, up pi id n a = (down pi id n (-a)).map (- ·) := by
  induction n with
  | zero =>
    intro a; simp only [up, down]
    have : a < -pi ↔ pi < -a := lt_neg
    by_cases c : pi < -a <;> simp [this, c]
  | succ n ih =>
    intro a; simp only [up, down, id]
    have : a < -pi ↔ pi < -a := lt_neg
    by_cases c : pi < -a
    · simp only [this, c, if_true]; rw [ih]
      have : -(a + (pi + pi)) = -a - (pi + pi) := by abel
      rw [this]
    · simp [this, c]

/-- All angles with enough rounds. -/
theorem normalize_spec [Archimedean A] (pi : A) (hp : 0 < pi) (a : A) :
    ∃ n r, (∀ m, n ≤ m → normalize pi id m a = some r) ∧ Normal pi r ∧ Same pi a r := by
  by_cases h : 0 ≤ a
  · obtain ⟨n, hn⟩ := Archimedean.arch a (y := pi + pi) (add_pos hp hp)
    obtain ⟨r, hr, h1, h2⟩ := down_spec pi hp n a h (le_trans hn (by simpa using hp.le))
    exact ⟨n, r, fun m hm => by simp only [normalize, h, if_true]; exact hr m hm, h1, h2⟩
  · obtain ⟨n, hn⟩ := Archimedean.arch (-a) (y := pi + pi) (add_pos hp hp)
    have h0 : 0 ≤ -a := by simpa using (not_le.mp h).le
    obtain ⟨r, hr, h1, k, h2⟩ := down_spec pi hp n (-a) h0 (le_trans hn (by simpa using hp.le))
    refine ⟨n, -r, fun m hm => ?_, ⟨by simpa using h1.2, by simpa using neg_le_neg h1.1⟩, -k, ?_⟩
    · simp only [normalize, h, if_false]; rw [up_eq, hr m hm]; rfl
    · rw [h2, neg_zsmul]; abel

/-- C324: for all angles, in exact arithmetic, the loop ends, the result is in `[-π, π]` and is the same
direction; an angle that already is in the range is returned as it is. -/
theorem C324_normalize_partial [Archimedean A] (pi : A) (hp : 0 < pi) (a : A) :
    (∃ n r, (∀ m, n ≤ m → normalize pi id m a = some r) ∧ Normal pi r ∧ Same pi a r) ∧
    (Normal pi a → ∀ m, normalize pi id m a = some a) := by
  refine ⟨normalize_spec pi hp a, ?_⟩
  intro h m
  unfold normalize
  split
  · cases m <;> simp [down, not_lt.mpr h.2]
  · cases m <;> simp [up, not_lt.mpr h.1]

/-- Case: five half turns, with `π` as 2. -/
example : normalize (2 : ℚ) id 3 11 = some (-1) := by decide +kernel
example : normalize (2 : ℚ) id 3 (-11) = some 1 := by decide +kernel

theorem stuck (pi a : ℚ) (h : pi < a) (e : rnd32 (a - (pi + pi)) = a) (n : Nat) : down pi rnd32 n a = none := by
  induction n with
  | zero => simp [down, h]
  | succ n ih => simp only [down, h, if_true, e, ih]

/-- C324 (refuted for floats): from 2²⁸ on, subtracting 2π does not change the float: the loop never
ends. -/
theorem C324_endless_counterexample : ∀ n, normalize piFloat rnd32 n (2 ^ 28) = none := by
  intro n
  have h : piFloat < 2 ^ 28 := by decide +kernel
  have e : rnd32 (2 ^ 28 - (piFloat + piFloat)) = 2 ^ 28 := by decide +kernel
  have z : (0 : ℚ) ≤ 2 ^ 28 := by decide +kernel
  simp only [normalize, z, if_true]
  exact stuck _ _ h e n

/-- C325: the reverse of an angle in the range is in the range, is the opposite direction and, but for
the angle zero, is the angle of the equivalent expression of the documentation; a perpendicular angle is
in the range for all angles and a quarter of a turn away in the direction asked for. -/
theorem C325_reverse_partial [Archimedean A] (half : A) (hp : 0 < half) (a : A) :
    (Normal (half + half) a → Normal (half + half) (reverse (half + half) id a)) ∧
    Same (half + half) (a + (half + half)) (reverse (half + half) id a) ∧
    (Normal (half + half) a → a ≠ 0 → ∀ m, 1 ≤ m →
      normalize (half + half) id m (a + (half + half)) = some (reverse (half + half) id a)) ∧
    (∀ cw, ∃ n r, (∀ m, n ≤ m → perpendicular half id m a cw = some r) ∧ Normal (half + half) r ∧
      Same (half + half) (if cw then a - half else a + half) r) := by
  have hpi : 0 < half + half := add_pos hp hp
  generalize hq : half + half = pi at *
  refine ⟨?_, ?_, ?_, ?_⟩
  · intro h; unfold reverse Normal; simp only [id]
    split
    · rename_i c
      exact ⟨by rw [le_sub_iff_add_le]; simpa using c, by rw [sub_le_iff_le_add]; exact le_trans h.2 (by simpa using hpi.le)⟩
    · rename_i c
      refine ⟨le_trans h.1 (by simpa using hpi.le), by simpa using (not_le.mp c).le⟩
  · unfold reverse; simp only [id]
    split
    · exact ⟨-1, by rw [neg_one_zsmul]; abel⟩
    · exact Same.refl _ _
  · intro h ne m hm
    unfold reverse normalize
    by_cases c : 0 ≤ a
    · have c' : 0 < a := lt_of_le_of_ne c (Ne.symm ne)
      have p : 0 ≤ a + pi := add_nonneg c hpi.le
      have q : pi < a + pi := by simpa using c'
      have e : a + pi - (pi + pi) = a - pi := by abel
      have r : ¬ pi < a - pi := by
        rw [not_lt, sub_le_iff_le_add]; exact le_trans h.2 (by simpa using hpi.le)
      simp only [c, p, if_true, id]
      cases m with
      | zero => omega
      | succ m =>
        simp only [down, q, if_true, id, e]
        cases m <;> simp only [down, r, if_false]
    · have p : 0 ≤ a + pi := by have := h.1; rwa [neg_le_iff_add_nonneg] at this
      have q : ¬ pi < a + pi := by simpa using (not_le.mp c).le
      simp only [c, p, if_true, if_false, id]
      cases m <;> simp only [down, q, if_false]
  · intro cw
    cases cw
    · obtain ⟨n, r, h⟩ := normalize_spec pi hpi (a + half)
      refine ⟨n, r, ?_⟩
      simpa [perpendicular, hq] using h
    · obtain ⟨n, r, h⟩ := normalize_spec pi hpi (a - half)
      refine ⟨n, r, ?_⟩
      simpa [perpendicular, hq] using h

example : Normal (2 : ℚ) 1 ∧ reverse (2 : ℚ) id 1 = -1 ∧ reverse (2 : ℚ) id (-1) = 1 := by
  refine ⟨⟨by norm_num, by norm_num⟩, by decide +kernel, by decide +kernel⟩

/-- C325 (refuted): for zero, `reverse()` gives `-π` and the expression of the documentation `π`; for
angles outside of the range the result is not normalised at all. -/
theorem C325_equivalent_counterexample :
    reverse piFloat id 0 = -piFloat ∧ normalize piFloat id 1 (0 + piFloat) = some piFloat ∧ piFloat ≠ -piFloat ∧
    reverse piFloat id (3 * piFloat) = 2 * piFloat ∧ normalize piFloat id 2 (3 * piFloat + piFloat) = some 0 ∧
    ¬ Normal piFloat (2 * piFloat) := by
  refine ⟨by decide +kernel, by decide +kernel, by decide +kernel, by decide +kernel, by decide +kernel, ?_⟩
  unfold Normal; decide +kernel

end Angle

section Loc
variable {A K : Type} [AddCommGroup A] [LinearOrder A] [IsOrderedAddMonoid A] [Archimedean A] [CommRing K]

/-- The specification of cosine and sine: the addition theorems and the period. -/
structure Trig (cos sin : A → K) (pi : A) : Prop where
  cosAdd : ∀ a b, cos (a + b) = cos a * cos b - sin a * sin b
  sinAdd : ∀ a b, sin (a + b) = sin a * cos b + cos a * sin b
  cosTurn : ∀ a (k : ℤ), cos (a + k • (pi + pi)) = cos a
  sinTurn : ∀ a (k : ℤ), sin (a + k • (pi + pi)) = sin a

/-- C326: movements compose: first `d` and then `e` ends at the same place and in the same direction as
the one movement that is `d` moved by `e`; all orientations are normalised; moving along a vector ends
where `translated()` says it is. -/
theorem C326_moves (cos sin : A → K) (pi : A) (hp : 0 < pi) (t : Trig cos sin pi) (l d e : Loc A K) :
    (∃ n, ∀ m, n ≤ m → ∃ ld lde de r,
      move cos sin pi m l d = some ld ∧ move cos sin pi m ld e = some lde ∧
      move cos sin pi m d e = some de ∧ move cos sin pi m l de = some r ∧
      lde.x = r.x ∧ lde.y = r.y ∧ Same pi lde.phi r.phi ∧ Normal pi lde.phi ∧ Normal pi r.phi ∧
      (ld.x, ld.y) = translated cos sin l d.x d.y) ∧
    (((moveVector cos sin l d.x d.y).x, (moveVector cos sin l d.x d.y).y) = translated cos sin l d.x d.y ∧
      (moveVector cos sin l d.x d.y).phi = l.phi) ∧
    (∀ m s phi, moveStraight cos sin pi m l s phi = move cos sin pi m l ⟨s, 0, phi⟩) := by
  refine ⟨?_, ⟨?_, rfl⟩, ?_⟩
  · obtain ⟨n1, p1, h1, b1, k1, c1⟩ := normalize_spec pi hp (l.phi + d.phi)
    obtain ⟨n2, p2, h2, b2, c2⟩ := normalize_spec pi hp (p1 + e.phi)
    obtain ⟨n3, p3, h3, b3, c3⟩ := normalize_spec pi hp (d.phi + e.phi)
    obtain ⟨n4, p4, h4, b4, c4⟩ := normalize_spec pi hp (l.phi + p3)
    refine ⟨n1 + n2 + n3 + n4, fun m hm => ?_⟩
    refine ⟨_, _, _, _, by simp only [move, h1 m (by omega), Option.map]; rfl,
      by simp only [move, h2 m (by omega), Option.map]; rfl,
      by simp only [move, h3 m (by omega), Option.map]; rfl,
      by simp only [move, h4 m (by omega), Option.map]; rfl, ?_, ?_, ?_, b2, b4, ?_⟩
    · simp only [rotate]
      rw [c1, t.cosTurn, t.sinTurn, t.cosAdd, t.sinAdd]; ring
    · simp only [rotate]
      rw [c1, t.cosTurn, t.sinTurn, t.cosAdd, t.sinAdd]; ring
    · have x : Same pi (p1 + e.phi) (l.phi + d.phi + e.phi) :=
        Same.add (Same.symm ⟨k1, c1⟩) (Same.refl pi _)
      have y : Same pi (l.phi + (d.phi + e.phi)) (l.phi + p3) := Same.add (Same.refl pi _) c3
      rw [← add_assoc] at y
      exact Same.trans (Same.trans (Same.trans (Same.symm c2) x) y) c4
    · simp only [translated]; rw [add_comm l.x, add_comm l.y]
  · simp only [moveVector, translated]; rw [add_comm l.x, add_comm l.y]
  · intro m s phi
    simp only [moveStraight, move, rotate]
    congr 1; funext p; congr 1 <;> ring

end Loc

/-- Quarter turns: cosine and sine of whole angles with `π` as 2. -/
def cos4 (n : ℤ) : ℤ := if n % 4 = 0 then 1 else if n % 4 = 2 then -1 else 0
def sin4 (n : ℤ) : ℤ := if n % 4 = 1 then 1 else if n % 4 = 3 then -1 else 0

/-- Case: the hypotheses of C326 hold for quarter turns. -/
theorem trig4 : Trig cos4 sin4 (2 : ℤ) := by
  have m : ∀ a : ℤ, a % 4 = 0 ∨ a % 4 = 1 ∨ a % 4 = 2 ∨ a % 4 = 3 := fun a => by omega
  have turn : ∀ a k : ℤ, (a + k • (2 + 2 : ℤ)) % 4 = a % 4 := fun a k => by simp only [smul_eq_mul]; omega
  constructor
  · intro a b
    rcases m a with h | h | h | h <;> rcases m b with g | g | g | g <;>
      simp [cos4, sin4, Int.add_emod a b, h, g]
  · intro a b
    rcases m a with h | h | h | h <;> rcases m b with g | g | g | g <;>
      simp [cos4, sin4, Int.add_emod a b, h, g]
  · intro a k; unfold cos4; rw [turn]
  · intro a k; unfold sin4; rw [turn]

example : move cos4 sin4 2 3 ⟨5, 5, 1⟩ ⟨3, 1, 3⟩ = some ⟨4, 8, 0⟩ := by decide +kernel

/-- C327: unless the orientations differ by exactly the smallest difference, `!=` is the opposite of
`==`; a location equals itself and both operators are symmetric. -/
theorem C327_compare_partial (a b : Loc ℚ ℚ) :
    (|a.phi - b.phi| ≠ epsilon → neLoc a b = !eqLoc a b) ∧ eqLoc a a = true ∧ neLoc a a = false ∧
    eqLoc a b = eqLoc b a ∧ neLoc a b = neLoc b a ∧
    (eqLoc a b = true → a.x = b.x ∧ a.y = b.y ∧ |a.phi - b.phi| < epsilon) := by
  have e0 : (0 : ℚ) < epsilon := by unfold epsilon; norm_num
  have hs : (a.x = b.x ∧ a.y = b.y) ↔ (b.x = a.x ∧ b.y = a.y) :=
    ⟨fun h => ⟨h.1.symm, h.2.symm⟩, fun h => ⟨h.1.symm, h.2.symm⟩⟩
  refine ⟨?_, ?_, ?_, ?_, ?_, ?_⟩
  · intro h
    unfold neLoc eqLoc
    by_cases p : a.x = b.x ∧ a.y = b.y
    · rcases lt_or_gt_of_ne h with g | g
      · simp [p, g, le_of_lt g]
      · simp [p, g, le_of_lt g]
    · simp [p]
  · simp [eqLoc, e0]
  · simp [neLoc, le_of_lt e0]
  · unfold eqLoc; rw [abs_sub_comm, decide_eq_decide.mpr hs]
  · unfold neLoc; rw [abs_sub_comm, decide_eq_decide.mpr hs]
  · intro h; simpa [eqLoc, and_assoc] using h

example : neLoc ⟨1, 2, 0⟩ ⟨1, 2, 1⟩ = true ∧ eqLoc ⟨1, 2, 0⟩ ⟨1, 2, 1⟩ = false := by decide +kernel

/-- C327 (refuted): the two floats 1 and 1 + 2⁻²³ as orientation: the locations are neither equal nor
unequal.  And two locations that only differ by a full turn of the orientation (`π` and `-π`, both
results of `normalize()`) are not equal. -/
theorem C327_neither_counterexample :
    (eqLoc ⟨0, 0, 1⟩ ⟨0, 0, 1 + epsilon⟩ = false ∧ neLoc ⟨0, 0, 1⟩ ⟨0, 0, 1 + epsilon⟩ = false) ∧
    (normalize piFloat id 0 piFloat = some piFloat ∧ normalize piFloat id 0 (-piFloat) = some (-piFloat) ∧
     Same piFloat piFloat (-piFloat) ∧ eqLoc ⟨0, 0, piFloat⟩ ⟨0, 0, -piFloat⟩ = false) := by
  refine ⟨by decide +kernel, by decide +kernel, by decide +kernel, ⟨-1, ?_⟩, by decide +kernel⟩
  rw [neg_one_zsmul]; abel

end Props.Location
