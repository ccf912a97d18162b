import Verif.Model.Geometry

/-!
# The points of a shape

From the documentation of the types: a segment is the set of points between its ends, a triangle the set
of convex combinations of its corners, a rectangle the set of points between its bounds, and a quad the
set of points `c + α u + β v` with `α` and `β` between -1 and 1 (quad.h:30-46).
-/

set_option autoImplicit false

namespace Verif.Geo.Spec

open Verif.Geo

variable {K : Type} [Field K] [LinearOrder K]

/-- `p` is a point of the segment. -/
def OnSegment (p : Pt K) (s : Segment K) : Prop :=
  ∃ t, 0 ≤ t ∧ t ≤ 1 ∧ p.x = s.start.x + t * (s.stop.x - s.start.x) ∧
    p.y = s.start.y + t * (s.stop.y - s.start.y)

/-- `p` is a point of the triangle. -/
def InTriangle (p : Pt K) (t : Triangle K) : Prop :=
  ∃ a b c, 0 ≤ a ∧ 0 ≤ b ∧ 0 ≤ c ∧ a + b + c = 1 ∧
    p.x = a * t.p0.x + b * t.p1.x + c * t.p2.x ∧ p.y = a * t.p0.y + b * t.p1.y + c * t.p2.y

/-- `p` is a point of the rectangle. -/
def InRect (p : Pt K) (r : Rect K) : Prop :=
  r.xMin ≤ p.x ∧ p.x ≤ r.xMax ∧ r.yMin ≤ p.y ∧ p.y ≤ r.yMax

/-- `p` is a point of the quad. -/
def InQuad (p : Pt K) (q : Quad K) : Prop :=
  ∃ α β, -1 ≤ α ∧ α ≤ 1 ∧ -1 ≤ β ∧ β ≤ 1 ∧
    p.x = q.center.x + α * (q.width * q.cos / 2)
      + β * (q.height * (q.shear * q.cos - q.sin) / 2) ∧
    p.y = q.center.y + α * (q.width * q.sin / 2)
      + β * (q.height * (q.shear * q.sin + q.cos) / 2)

/-- `p` is a point of the shape. -/
def In (p : Pt K) : Shape K → Prop
  | .point q => p = q
  | .segment s => OnSegment p s
  | .triangle t => InTriangle p t
  | .rect r => InRect p r
  | .quad q => InQuad p q

/-- What the classes guarantee: a rectangle is not inverted; the width of a quad is not negative and its
rotation is an angle. -/
def Proper : Shape K → Prop
  | .rect r => r.xMin ≤ r.xMax ∧ r.yMin ≤ r.yMax
  | .quad q => 0 ≤ q.width ∧ q.cos * q.cos + q.sin * q.sin = 1
  | _ => True

end Verif.Geo.Spec
