import Verif.Model.Antialias
import Verif.Spec.DerivativeCalculator

/-!
# Specification of the anti-aliasing of the shaders

Only the data of the model are used: points, matrices, edges and colours.
-/

set_option autoImplicit false

namespace Verif.Antialias.Spec

open Geo

/-- A vector as it is on the canvas. -/
def onCanvas (m : Mat2) (v : Pt ℝ) : Pt ℝ := ⟨m.m00 * v.x + m.m10 * v.y, m.m01 * v.x + m.m11 * v.y⟩

/-- A point of the line through the end of the vector `v` at right angles to it. -/
def across (v : Pt ℝ) (t : ℝ) : Pt ℝ := ⟨v.x - t * v.y, v.y + t * v.x⟩

/-- Half of the perceived width of an edge: from 0.5 pixels, for strokes of up to half a pixel, to 0.707107 for those of at least one. -/
noncomputable def halfEdge (width : ℝ) : ℝ := if width ≤ 1 / 2 then 0.5 else if 1 ≤ width then 0.707107 else 0.5 + (2 * width - 1) * 0.207107

/-- 0 for a vertex on the edge and 1 for others, by the labels. -/
noncomputable def edgesOf (sideLabel forwardLabel : ℝ) : Edges :=
  ⟨if sideLabel < 0 then 0 else 1, if 0 < sideLabel then 0 else 1, if forwardLabel < 0 then 0 else 1, if 0 < forwardLabel then 0 else 1⟩

/-- The vector `d` times `t` to the outside of a side: against it on the left or front, along it on the right or back, none inside. -/
noncomputable def outward (label t : ℝ) (d : Pt ℝ) : Pt ℝ :=
  if label < 0 then ⟨-(t * d.x), -(t * d.y)⟩ else if 0 < label then ⟨t * d.x, t * d.y⟩ else ⟨0, 0⟩

/-- The product of the parts of two vectors in the same direction. -/
def inner (v w : Pt ℝ) : ℝ := v.x * w.x + v.y * w.y

/-- Numbers between those of two vertices, linearly. -/
def Edges.between (x : ℝ) (a b : Edges) : Edges :=
  ⟨(1 - x) * a.left + x * b.left, (1 - x) * a.right + x * b.right, (1 - x) * a.front + x * b.front, (1 - x) * a.back + x * b.back⟩

/-- Varyings between those of two vertices, linearly. -/
def between (x : ℝ) (a b : Varyings) : Varyings :=
  ⟨(1 - x) * a.side + x * b.side, (1 - x) * a.forward + x * b.forward, Edges.between x a.toEdge b.toEdge, Edges.between x a.outset b.outset⟩

/-- Two vertices on the left and on the right edge of a stroke, `width` pixels wide, that are not at its front or back, with outsets of
`p` and `q` pixels. -/
def Across (width p q : ℝ) (a b : Varyings) : Prop :=
  a.side = width ∧ b.side = width ∧ a.toEdge = ⟨0, 1, 1, 1⟩ ∧ b.toEdge = ⟨1, 0, 1, 1⟩ ∧
    a.outset.left = p ∧ a.outset.right = 0 ∧ b.outset.left = 0 ∧ b.outset.right = q

/-- Numbers at a place of a rectangle, linearly from those of three corners. -/
def Edges.within (x y : ℝ) (a b c : Edges) : Edges :=
  ⟨a.left + x * (b.left - a.left) + y * (c.left - a.left), a.right + x * (b.right - a.right) + y * (c.right - a.right),
    a.front + x * (b.front - a.front) + y * (c.front - a.front), a.back + x * (b.back - a.back) + y * (c.back - a.back)⟩

/-- Varyings at a place of a rectangle, linearly from those of three corners. -/
def within (x y : ℝ) (a b c : Varyings) : Varyings :=
  ⟨a.side + x * (b.side - a.side) + y * (c.side - a.side), a.forward + x * (b.forward - a.forward) + y * (c.forward - a.forward),
    Edges.within x y a.toEdge b.toEdge c.toEdge, Edges.within x y a.outset b.outset c.outset⟩

/-- Three corners of a rectangle, left in front, right in front and left at the back, with outsets of `p`, `q`, `r` and `s` pixels to the
left, right, front and back. -/
def Rectangle (width height p q r s : ℝ) (a b c : Varyings) : Prop :=
  a = ⟨width, height, ⟨0, 1, 0, 1⟩, ⟨p, 0, r, 0⟩⟩ ∧ b = ⟨width, height, ⟨1, 0, 0, 1⟩, ⟨0, q, r, 0⟩⟩ ∧ c = ⟨width, height, ⟨0, 1, 1, 0⟩, ⟨p, 0, 0, s⟩⟩

/-- A ramp from 0 at 0 to 1 at `w`. -/
noncomputable def ramp (w d : ℝ) : ℝ := if d ≤ 0 then 0 else if w ≤ d then 1 else d / w

end Verif.Antialias.Spec
