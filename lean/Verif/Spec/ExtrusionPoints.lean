import Verif.Model.ExtrusionPoints
import Verif.Spec.BrushTipExtrusion

/-!
# Specification of the extrusion points of tip shapes (C68)
-/

set_option autoImplicit false

namespace Verif.RealGeom.Spec

open Verif.RealGeom

/-- The corners of a convex polygon in clockwise order: no corner is to the left of the way between two earlier ones. -/
def Clockwise (ps : List ℂ) : Prop :=
  ∀ (i j k : ℕ) (a b c : ℂ), i < j → j < k → ps[i]? = some a → ps[j]? = some b → ps[k]? = some c → ¬LeftOf a b c

/-- A point of a set on its boundary: all of the set is on one side of a line through the point. -/
def OnBoundary (R : Set ℂ) (p : ℂ) : Prop := p ∈ R ∧ ∃ θ, ∀ z ∈ R, along θ z ≤ along θ p

/-- The polygon outlines a convex set up to `h`: its corners are on the boundary, it goes around clockwise and no point of the set is
further than `h` from it. -/
structure Outlines (R : Set ℂ) (h : ℝ) (ps : List ℂ) : Prop where
  boundary : ∀ p ∈ ps, OnBoundary R p
  clockwise : Clockwise ps
  near : ∀ z ∈ R, ∃ w ∈ convexHull ℝ {p | p ∈ ps}, ‖z - w‖ ≤ h

/-- `p` is to the left of the line through `center` in the direction `v`, or on it. -/
def NotRight (v center p : ℂ) : Prop := 0 ≤ v.re * (p.im - center.im) - v.im * (p.re - center.re)

/-- `p` is to the right of the line through `center` in the direction `v`, or on it. -/
def NotLeft (v center p : ℂ) : Prop := v.re * (p.im - center.im) - v.im * (p.re - center.re) ≤ 0

/-- The circles are not so large, in terms of the chord height, that the number of points of an arc is limited. -/
def NotHuge (h : ℝ) (cs : List Circle) : Prop := ∀ c ∈ cs, c.radius ≤ 200000000 * h

/-- The smallest angle, in radians, that the code does not take for 0. -/
noncomputable def collinear : ℝ := 1 / 100000

/-- At each circle of a shape that is not a point, the way around through the centers turns by at least that angle. -/
def Sharp (cs : List Circle) : Prop :=
  ∀ i c d e, Follows cs i c d → Follows cs ((i + 1) % cs.length) d e → c.center ≠ d.center → 0 < d.radius →
    collinear ≤ |Complex.arg ((e.center - d.center) / (d.center - c.center))|

/-- The direction `v` differs by at least that angle from those of the ways between circles that follow each other, and from their
opposites, unless the circles are points. -/
def Across (cs : List Circle) (v : ℂ) : Prop :=
  ∀ i c d, Follows cs i c d → c.center ≠ d.center → 0 < c.radius →
    collinear ≤ |Complex.arg ((d.center - c.center) / v)| ∧ collinear ≤ |Complex.arg ((c.center - d.center) / v)|

/-- Two circles neither of which is in the other, or so nearly that one of the arcs between their tangents turns by less than that angle. -/
def Beside (c d : Circle) : Prop :=
  c.center ≠ d.center ∧ |c.radius - d.radius| ≤ Real.cos (collinear / 2) * ‖d.center - c.center‖

/-- The points are those of a circle at the angles from `a` to `a + d` in equal steps, and no chord between two is higher than `h`. -/
def FollowsArc (c : Circle) (a d h : ℝ) (ps : List ℂ) : Prop :=
  ∃ n : ℕ, 1 ≤ n ∧ ps = ((List.range (n + 1)).map fun i : ℕ => c.getPoint (a + i * (d / n))) ∧
    ∀ i < n, chordHeight c (a + i * (d / n)) (a + (i + 1) * (d / n)) ≤ h

/-- A point that the segments from `p` to `q` and from `p'` to `q'` have in common, or `q` and `p'` if there is none. -/
def Crossing (p q p' q' : ℂ) (ps : List ℂ) : Prop :=
  (∃ z, OnSegment p q z ∧ OnSegment p' q' z ∧ ps = [z]) ∨ ((∀ z, ¬(OnSegment p q z ∧ OnSegment p' q' z)) ∧ ps = [q, p'])

end Verif.RealGeom.Spec
