import Verif.Model.Circle

/-!
# Specification of directions of vectors (C58) and of circles (C57)
-/

set_option autoImplicit false

namespace Verif.RealGeom.Spec

open Verif.RealGeom

/-- The same angle, up to full turns. -/
def SameAngle (a b : ℝ) : Prop := ∃ k : ℤ, a = b + k * (2 * Real.pi)

/-- The interval (-π, π]. -/
def Normal (a : ℝ) : Prop := -Real.pi < a ∧ a ≤ Real.pi

/-- A point belongs to the disc of a circle. -/
def InDisc (c : Circle) (p : ℂ) : Prop := ‖p - c.center‖ ≤ c.radius

/-- The chord height of the arc from the angle `a` to the angle `b`: the distance between the middle of the arc and the middle of its
chord. -/
noncomputable def chordHeight (c : Circle) (a b : ℝ) : ℝ := ‖c.getPoint ((a + b) / 2) - (c.getPoint a + c.getPoint b) / 2‖

/-- `n` steps are enough for an arc: none of them is more than a full turn and the chord height of each is at most `h`. -/
def Enough (c : Circle) (start arc h : ℝ) (n : ℕ) : Prop :=
  1 ≤ n ∧ |arc| / n ≤ 2 * Real.pi ∧ ∀ i < n, chordHeight c (start + i * (arc / n)) (start + (i + 1) * (arc / n)) ≤ h

/-- A point of the segment from `p` to `q`. -/
def OnSegment (p q z : ℂ) : Prop := ∃ t : ℝ, 0 ≤ t ∧ t ≤ 1 ∧ z = p + t * (q - p)

/-- The coordinate of a point in the direction of an angle. -/
noncomputable def along (angle : ℝ) (p : ℂ) : ℝ := Real.cos angle * p.re + Real.sin angle * p.im

/-- The line orthogonal to the direction `angle` through the point at `angle` of the first circle touches both circles at this angle,
and both are on the same side of it: it is an exterior tangent. -/
def ExteriorTangent (c d : Circle) (angle : ℝ) : Prop :=
  ∃ k, along angle (c.getPoint angle) = k ∧ along angle (d.getPoint angle) = k ∧
    (∀ p, InDisc c p → along angle p ≤ k) ∧ (∀ p, InDisc d p → along angle p ≤ k)

/-- The direction `angle` points to the left when one travels along `v`. -/
def ToTheLeft (v : ℂ) (angle : ℝ) : Prop := 0 < v.re * Real.sin angle - v.im * Real.cos angle

/-- ... to the right. -/
def ToTheRight (v : ℂ) (angle : ℝ) : Prop := v.re * Real.sin angle - v.im * Real.cos angle < 0

end Verif.RealGeom.Spec
