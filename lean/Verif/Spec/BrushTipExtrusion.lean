import Verif.Model.BrushTipExtrusion
import Verif.Spec.BrushTipShape
import Verif.Spec.RoundedPolygon

/-!
# Specification of the tangents between two tip shapes (C67)
-/

set_option autoImplicit false

namespace Verif.RealGeom.Spec

open Verif.RealGeom

/-- `run` are the circles of a shape from the index `i` on to the index `j`, counter-clockwise. -/
def Run (cs : List Circle) (i j : ℕ) (run : List Circle) : Prop :=
  ∃ k < cs.length, i < cs.length ∧ j = (i + k) % cs.length ∧ run.length = k + 1 ∧ ∀ p ≤ k, run[p]? = cs[(i + p) % cs.length]?

/-- The circles of the joined shape of two shapes: those of the first from the left tangent counter-clockwise to the right one, that is
those at its rear, then those of the second from the right tangent to the left one. -/
def Joined (first second : TipShape) (indices : TipShape.TangentIndices) (joined : List Circle) : Prop :=
  ∃ a b, Run first.circles indices.left.1 indices.right.1 a ∧ Run second.circles indices.right.2 indices.left.2 b ∧ joined = a ++ b

/-- Circles that are larger by `x`. -/
noncomputable def enlarged (x : ℝ) (cs : List Circle) : List Circle := cs.map fun c => ⟨c.center, c.radius + x⟩

/-- `x` is a millionth of the greatest coordinate, without its sign, of the points of two shapes. -/
def Margin (first second : TipShape) (x : ℝ) : Prop :=
  (∀ p ∈ region first ∪ region second, |p.re| ≤ 1000000 * x ∧ |p.im| ≤ 1000000 * x) ∧
  ∃ p ∈ region first ∪ region second, |p.re| = 1000000 * x ∨ |p.im| = 1000000 * x

/-- A rounded polygon covers two shapes. -/
def Covers (cs : List Circle) (θ : ℕ → ℝ) (first second : TipShape) : Prop :=
  region first ⊆ polygonRegion cs θ ∧ region second ⊆ polygonRegion cs θ

/-- The same tip at another position. -/
def Moved (s s' : TipState) : Prop := ∃ p, s' = { s with position := p }

/-- The points of circles: the convex hull of their discs. -/
def hull (cs : List Circle) : Set ℂ := convexHull ℝ {p | ∃ c ∈ cs, InDisc c p}

/-- There are at least two circles, and all are on one line in the direction `v`. -/
def InLine (cs : List Circle) (v : ℂ) : Prop :=
  2 ≤ cs.length ∧ ∀ c ∈ cs, ∀ d ∈ cs, v.re * (d.center.im - c.center.im) = v.im * (d.center.re - c.center.re)

end Verif.RealGeom.Spec
