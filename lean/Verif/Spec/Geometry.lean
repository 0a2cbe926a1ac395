import Mathlib.Data.Real.Basic
import Mathlib.Analysis.Convex.Hull
import Mathlib.Data.Prod.Lex

set_option autoImplicit false

/-!
# Specification of plane geometry

The figures are sets of points of the real plane; nothing here refers to the code.
-/

namespace Modm.Spec.Geometry

/-- A point of the plane. -/
abbrev Pt := ℝ × ℝ

/-- The point `a + t * (b - a)`. -/
def towards (a b : Pt) (t : ℝ) : Pt := (a.1 + t * (b.1 - a.1), a.2 + t * (b.2 - a.2))

/-- The closed line segment from `a` to `b`. -/
def closedSegment (a b : Pt) : Set Pt := {p | ∃ t, 0 ≤ t ∧ t ≤ 1 ∧ p = towards a b t}

/-- The line through `a` in direction `d`. -/
def line (a d : Pt) : Set Pt := {p | ∃ t : ℝ, p = (a.1 + t * d.1, a.2 + t * d.2)}

/-- The ray from `a` in direction `d`. -/
def ray (a d : Pt) : Set Pt := {p | ∃ t : ℝ, 0 ≤ t ∧ p = (a.1 + t * d.1, a.2 + t * d.2)}

/-- The circle around `c` with radius `r`. -/
def circle (c : Pt) (r : ℝ) : Set Pt := {p | (p.1 - c.1) ^ 2 + (p.2 - c.2) ^ 2 = r ^ 2}

/-- Twice the area of the triangle `a b p`: positive if `p` is left of the way from `a` to `b`,
negative if it is right of it and zero if it is on the line. -/
def side (a b p : Pt) : ℝ := (b.1 - a.1) * (p.2 - a.2) - (b.2 - a.2) * (p.1 - a.1)

/-- The outline of a closed polygon. -/
def outline (ps : List Pt) : Set Pt :=
  {p | ∃ i a b, ps[i]? = some a ∧ ps[(i + 1) % ps.length]? = some b ∧ p ∈ closedSegment a b}

/-- The area of a convex polygon. -/
def area (ps : List Pt) : Set Pt := convexHull ℝ {p | p ∈ ps}

/-- The polygon runs around its area, counter-clockwise (`σ = 1`) or clockwise
(`σ = -1`): seen along each edge, all other vertices are strictly on the same side.  In particular
there are three vertices at least, and no three of them are on a line. -/
def convexPolygon (σ : ℝ) (ps : List Pt) : Prop :=
  3 ≤ ps.length ∧
  ∀ i k a b c, ps[i]? = some a → ps[(i + 1) % ps.length]? = some b → ps[k]? = some c →
    k ≠ i → k ≠ (i + 1) % ps.length → 0 < σ * side a b c

end Modm.Spec.Geometry
