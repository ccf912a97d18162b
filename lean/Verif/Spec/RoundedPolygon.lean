import Verif.Model.RoundedPolygon
import Verif.Spec.Circle
import Mathlib.Analysis.Convex.Hull
import Mathlib.Analysis.Complex.Basic

/-!
# Specification of rounded polygons (C66)
-/

set_option autoImplicit false

namespace Verif.RealGeom.Spec

open Verif.RealGeom

/-- `c` and, after it, `d`, are next to each other in the list, or are the last and the first. -/
def Follows (cs : List Circle) (i : ℕ) (c d : Circle) : Prop := cs[i]? = some c ∧ cs[(i + 1) % cs.length]? = some d

/-- `angle` is the direction of the right-side exterior tangent from `c` to `d`: that of the outward normal of the line which has both
circles on its left, when one travels from `c` to `d`. -/
def RightTangent (c d : Circle) (angle : ℝ) : Prop := ExteriorTangent c d angle ∧ ToTheRight (d.center - c.center) angle

/-- The tangents that connect the circles turn counter-clockwise, once around: the boundary follows the circle at `i` from the angle
`θ i` to the angle `θ (i + 1)`, where it leaves on the tangent to the next one. This is when a rounded polygon is convex. -/
structure TurnsOnce (cs : List Circle) (θ : ℕ → ℝ) : Prop where
  mono : ∀ i < cs.length, θ i ≤ θ (i + 1)
  once : θ cs.length = θ 0 + 2 * Real.pi
  tangent : ∀ i c d, Follows cs i c d → RightTangent c d (θ (i + 1))

/-- The boundary: the arcs and the segments that connect them. -/
def boundary (cs : List Circle) (θ : ℕ → ℝ) : Set ℂ :=
  {z | ∃ i c d, Follows cs i c d ∧ ((∃ φ, θ i ≤ φ ∧ φ ≤ θ (i + 1) ∧ z = c.getPoint φ) ∨
    OnSegment (c.getPoint (θ (i + 1))) (d.getPoint (θ (i + 1))) z)}

/-- The points of a convex rounded polygon. -/
def polygonRegion (cs : List Circle) (θ : ℕ → ℝ) : Set ℂ := convexHull ℝ (boundary cs θ)

end Verif.RealGeom.Spec
