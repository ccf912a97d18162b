import Verif.Model.EasingTable
import Mathlib.Data.Real.Basic

/-!
# What the look-up table of a cubic Bezier easing function is to be

The curve of an easing function goes from (0, 0) to (1, 1), with two control points in between.
-/

set_option autoImplicit false

namespace Verif.EasingSpec

/-- A coordinate of the curve at the parameter `t`, from that of the control points. -/
def bez {K : Type} [Field K] (t a b : K) : K := 3 * (1 - t) ^ 2 * t * a + 3 * (1 - t) * t ^ 2 * b + t ^ 3

/-- The curve goes through (x, y). -/
def OnCurve (c : Easing.CubicBezier) (x y : ℝ) : Prop :=
  ∃ t : ℝ, 0 ≤ t ∧ t ≤ 1 ∧ x = bez t c.x1.toRat c.x2.toRat ∧ y = bez t c.y1.toRat c.y2.toRat

/-- The greatest step in y from a control point to the next. -/
def rise (c : Easing.CubicBezier) : ℚ := max |c.y1.toRat| (max |c.y2.toRat - c.y1.toRat| |1 - c.y2.toRat|)

/-- How far the table may be from the curve: the rise, divided by 13, and an error for rounding. (1/13 is the distance of the
table entries in x.) -/
def tolerance (c : Easing.CubicBezier) : ℚ := rise c / 13 + (1 + |c.y1.toRat| + |c.y2.toRat|) / 2 ^ 15

end Verif.EasingSpec
