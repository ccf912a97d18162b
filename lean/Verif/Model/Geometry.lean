import Mathlib.Algebra.Order.Field.Basic

/-!
# Model of points, segments, triangles, rectangles, quads and `Intersects`

From `ink/geometry/{vec,point,segment,triangle,rect,quad,intersects}.{h,cc}` and
`ink/geometry/internal/intersects_internal.cc`, in exact arithmetic: coordinates are elements of an
ordered field `K` instead of binary32 numbers, so rounding, overflow, infinities and NaN are not
modelled here. A rotation is modelled by its cosine and sine, so half a turn negates both and
normalising the angle has no effect. The cached semi-axes of `Quad` are modelled in
`Verif.Model.AffineTransform`.
-/

set_option autoImplicit false

namespace Verif.Geo

variable {K : Type} [Field K] [LinearOrder K]

/-- point.h:24-30 `Point` and vec.h:29-31 `Vec` -/
@[ext] structure Pt (K : Type) where
  x : K
  y : K
  deriving DecidableEq, Repr

namespace Pt

/-- point.h:78-80 `operator-`, also vec.h `operator-` and `Point - Vec` (point.h:88-90). -/
def sub (a b : Pt K) : Pt K := ⟨a.x - b.x, a.y - b.y⟩

/-- point.h:82-87 `operator+` -/
def add (a b : Pt K) : Pt K := ⟨a.x + b.x, a.y + b.y⟩

/-- vec.h `operator*` -/
def smul (k : K) (a : Pt K) : Pt K := ⟨k * a.x, k * a.y⟩

/-- vec.h:75-77 `Vec::DotProduct` -/
def dot (a b : Pt K) : K := a.x * b.x + a.y * b.y

/-- vec.h:88-90 `Vec::Determinant` -/
def det (a b : Pt K) : K := a.x * b.y - a.y * b.x

end Pt

/-- segment.h:27-29 `Segment` -/
structure Segment (K : Type) where
  start : Pt K
  stop : Pt K
  deriving DecidableEq, Repr

namespace Segment

/-- segment.h:35 `Vector` -/
def vector (s : Segment K) : Pt K := s.stop.sub s.start

/-- segment.cc:27-31 `Lerp` -/
def lerp (s : Segment K) (ratio : K) : Pt K :=
  ⟨s.start.x * (1 - ratio) + s.stop.x * ratio, s.start.y * (1 - ratio) + s.stop.y * ratio⟩

/-- segment.cc:33-45 `Project` -/
def project (s : Segment K) (p : Pt K) : Option K :=
  if s.start = s.stop then none
  else
    let m := s.vector.dot s.vector
    if m ≤ 0 then none else some ((p.sub s.start).dot s.vector / m)

end Segment

/-- triangle.h:27-30 `Triangle` -/
structure Triangle (K : Type) where
  p0 : Pt K
  p1 : Pt K
  p2 : Pt K
  deriving DecidableEq, Repr

namespace Triangle

/-- triangle.h:36 `SignedArea` -/
def signedArea (t : Triangle K) : K := (t.p1.sub t.p0).det (t.p2.sub t.p1) / 2

/-- triangle.cc:53-71: the projections of the third corner and of the test point, on the first edge that
is not a point. -/
def projections (t : Triangle K) (p : Pt K) : Option K × Option K :=
  let a : Option K × Option K :=
    if t.p0 ≠ t.p1 then
      (Segment.project ⟨t.p0, t.p1⟩ t.p2, Segment.project ⟨t.p0, t.p1⟩ p) else (none, none)
  if (a.1.isNone || a.2.isNone) && decide (t.p1 ≠ t.p2) then
    (Segment.project ⟨t.p1, t.p2⟩ t.p0, Segment.project ⟨t.p1, t.p2⟩ p)
  else a

/-- triangle.cc:29-83 `Contains` -/
def contains (t : Triangle K) (p : Pt K) : Bool :=
  let d0 := (p.sub t.p0).det (t.p1.sub t.p0)
  let d1 := (p.sub t.p1).det (t.p2.sub t.p1)
  if d0 * d1 < 0 then false
  else if d0 = 0 ∧ d1 = 0 then
    match t.projections p with
    | (some third, some test) => decide (min 0 third ≤ test) && decide (test ≤ max 1 third)
    | _ => decide (p = t.p0)
  else
    let d2 := (p.sub t.p2).det (t.p0.sub t.p2)
    decide (d1 * d2 ≥ 0) && decide (d0 * d2 ≥ 0)

/-- triangle.cc:85-96 `GetEdge`, for indices 0, 1, 2. -/
def edges (t : Triangle K) : List (Segment K) := [⟨t.p0, t.p1⟩, ⟨t.p1, t.p2⟩, ⟨t.p2, t.p0⟩]

/-- The test for point-like triangles in intersects_internal.cc:97 etc. -/
def isPoint (t : Triangle K) : Bool := decide (t.p0 = t.p1) && decide (t.p0 = t.p2)

end Triangle

/-- rect.h:235-239 `Rect` -/
structure Rect (K : Type) where
  xMin : K
  yMin : K
  xMax : K
  yMax : K
  deriving DecidableEq, Repr

namespace Rect

/-- rect.h:53-56 `FromTwoPoints` -/
def fromTwoPoints (a b : Pt K) : Rect K := ⟨min a.x b.x, min a.y b.y, max a.x b.x, max a.y b.y⟩

/-- rect.h:258 `Width` -/
def width (r : Rect K) : K := r.xMax - r.xMin

/-- rect.h:267 `Height` -/
def height (r : Rect K) : K := r.yMax - r.yMin

/-- rect.cc:27-35 `Center` -/
def center (r : Rect K) : Pt K := ⟨1 / 2 * r.xMin + 1 / 2 * r.xMax, 1 / 2 * r.yMin + 1 / 2 * r.yMax⟩

/-- rect.cc:37-50 `GetEdge`, for indices 0, 1, 2, 3. -/
def edges (r : Rect K) : List (Segment K) :=
  [⟨⟨r.xMin, r.yMin⟩, ⟨r.xMax, r.yMin⟩⟩, ⟨⟨r.xMax, r.yMin⟩, ⟨r.xMax, r.yMax⟩⟩,
   ⟨⟨r.xMax, r.yMax⟩, ⟨r.xMin, r.yMax⟩⟩, ⟨⟨r.xMin, r.yMax⟩, ⟨r.xMin, r.yMin⟩⟩]

/-- rect.h:120-123 `Contains` -/
def contains (r : Rect K) (p : Pt K) : Bool :=
  decide (r.xMin ≤ p.x) && decide (r.xMax ≥ p.x) && decide (r.yMin ≤ p.y) && decide (r.yMax ≥ p.y)

/-- rect.h:274-279 `Join(Point)` -/
def joinPoint (r : Rect K) (p : Pt K) : Rect K :=
  ⟨min r.xMin p.x, min r.yMin p.y, max r.xMax p.x, max r.yMax p.y⟩

/-- The test for point-like rectangles in intersects_internal.cc:116 etc. -/
def isPoint (r : Rect K) : Bool := decide (r.width = 0) && decide (r.height = 0)

end Rect

/-- quad.h:208-213 `Quad`, without the cache. The rotation is given by its cosine and sine. -/
structure Quad (K : Type) where
  center : Pt K
  width : K
  height : K
  cos : K
  sin : K
  shear : K
  deriving DecidableEq, Repr

namespace Quad

/-- quad.cc:31-39, the computation in `SemiAxes`. -/
def semiAxes (q : Quad K) : Pt K × Pt K :=
  (⟨1 / 2 * q.width * q.cos, 1 / 2 * q.width * q.sin⟩,
   ⟨1 / 2 * q.height * (q.shear * q.cos - q.sin), 1 / 2 * q.height * (q.shear * q.sin + q.cos)⟩)

/-- quad.cc:45-51 `Corners` -/
def corners (q : Quad K) : Pt K × Pt K × Pt K × Pt K :=
  let u := q.semiAxes.1
  let v := q.semiAxes.2
  ((q.center.sub u).sub v, (q.center.add u).sub v, (q.center.add u).add v, (q.center.sub u).add v)

/-- quad.cc:53-67 `GetEdge`, for indices 0, 1, 2, 3. -/
def edges (q : Quad K) : List (Segment K) :=
  let c := q.corners
  [⟨c.1, c.2.1⟩, ⟨c.2.1, c.2.2.1⟩, ⟨c.2.2.1, c.2.2.2⟩, ⟨c.2.2.2, c.1⟩]

/-- quad.cc:70-77 `UnitAxes` -/
def unitAxes (q : Quad K) : Pt K × Pt K :=
  (⟨q.cos, q.sin⟩, ⟨q.shear * q.cos - q.sin, q.shear * q.sin + q.cos⟩)

/-- quad.cc:100-107 `Contains` -/
def contains (q : Quad K) (p : Pt K) : Bool :=
  let u := q.unitAxes.1
  let d := p.sub q.center
  let uCross := u.det d
  if |uCross| > 1 / 2 * |q.height| then false
  else decide (|u.dot d - q.shear * uCross| ≤ 1 / 2 * q.width)

/-- The test for point-like quads in intersects_internal.cc:136 etc. -/
def isPoint (q : Quad K) : Bool := decide (q.width = 0) && decide (q.height = 0)

end Quad

/-! ## `IntersectsInternal` -/

/-- intersects_internal.cc:31-41, point and segment -/
def intersectsPS (a : Pt K) (b : Segment K) : Bool :=
  if b.start = b.stop then decide (a = b.start)
  else if (a.sub b.start).det (b.stop.sub b.start) ≠ 0 then false
  else match b.project a with
    | none => false
    | some t => decide (t ≥ 0) && decide (t ≤ 1)

/-- intersects_internal.cc:49-92, segment and segment. `b.Length() == 0` (line 68) is modelled by the
square of the length. -/
def intersectsSS (a b : Segment K) : Bool :=
  if a.start = b.start ∨ a.start = b.stop ∨ a.stop = b.start ∨ a.stop = b.stop then true
  else if a.start = a.stop then intersectsPS a.start b
  else if b.start = b.stop then intersectsPS b.start a
  else
    let va := a.vector
    let vb := b.vector
    if va.det vb = 0 then
      if va.det (b.start.sub a.start) = 0 then
        if vb.dot vb = 0 then intersectsPS b.start a
        else match b.project a.start, b.project a.stop with
          | some t1, some t2 =>
            (decide (t1 ≥ 0) || decide (t2 ≥ 0)) && (decide (t1 ≤ 1) || decide (t2 ≤ 1))
          | _, _ => false
      else false
    else
      let v1 := va.det (b.start.sub a.start)
      let v2 := va.det (b.stop.sub a.start)
      let v3 := vb.det (a.start.sub b.start)
      let v4 := vb.det (a.stop.sub b.start)
      decide (v1 * v2 ≤ 0) && decide (v3 * v4 ≤ 0)

/-- The loops over pairs of edges, e.g. intersects_internal.cc:171-175. -/
def anyEdges (as bs : List (Segment K)) : Bool := as.any fun a => bs.any fun b => intersectsSS a b

/-- intersects_internal.cc:93-111, segment and triangle -/
def intersectsST (a : Segment K) (b : Triangle K) : Bool :=
  if a.start = a.stop then b.contains a.start
  else if b.isPoint then intersectsPS b.p0 a
  else if b.contains a.start then true
  else anyEdges [a] b.edges

/-- intersects_internal.cc:112-131, segment and rect -/
def intersectsSR (a : Segment K) (b : Rect K) : Bool :=
  if a.start = a.stop then b.contains a.start
  else if b.isPoint then intersectsPS b.center a
  else if b.contains a.start then true
  else anyEdges [a] b.edges

/-- intersects_internal.cc:132-151, segment and quad -/
def intersectsSQ (a : Segment K) (b : Quad K) : Bool :=
  if a.start = a.stop then b.contains a.start
  else if b.isPoint then intersectsPS b.center a
  else if b.contains a.start then true
  else anyEdges [a] b.edges

/-- intersects_internal.cc:159-179, triangle and triangle -/
def intersectsTT (a b : Triangle K) : Bool :=
  if a.isPoint then b.contains a.p0
  else if b.isPoint then a.contains b.p0
  else if b.contains a.p0 || a.contains b.p0 then true
  else anyEdges a.edges b.edges

/-- intersects_internal.cc:180-201, triangle and rect -/
def intersectsTR (a : Triangle K) (b : Rect K) : Bool :=
  if a.isPoint then b.contains a.p0
  else if b.isPoint then a.contains b.center
  else if b.contains a.p0 || a.contains b.center then true
  else anyEdges a.edges b.edges

/-- intersects_internal.cc:203-224, triangle and quad -/
def intersectsTQ (a : Triangle K) (b : Quad K) : Bool :=
  if a.isPoint then b.contains a.p0
  else if b.isPoint then a.contains b.center
  else if b.contains a.p0 || a.contains b.center then true
  else anyEdges a.edges b.edges

/-- intersects_internal.cc:235-244, rect and rect -/
def intersectsRR (a b : Rect K) : Bool :=
  if a.xMin > b.xMax ∨ b.xMin > a.xMax then false
  else if a.yMin > b.yMax ∨ b.yMin > a.yMax then false
  else true

/-- intersects_internal.cc:245-267, rect and quad -/
def intersectsRQ (a : Rect K) (b : Quad K) : Bool :=
  if a.isPoint then b.contains a.center
  else if b.isPoint then a.contains b.center
  else if b.contains a.center || a.contains b.center then true
  else anyEdges a.edges b.edges

/-- intersects_internal.cc:281-303, quad and quad -/
def intersectsQQ (a b : Quad K) : Bool :=
  if a.isPoint then b.contains a.center
  else if b.isPoint then a.contains b.center
  else if b.contains a.center || a.contains b.center then true
  else anyEdges a.edges b.edges

/-- The types that `Intersects` takes, without `PartitionedMesh`. -/
inductive Shape (K : Type) where
  | point (p : Pt K)
  | segment (s : Segment K)
  | triangle (t : Triangle K)
  | rect (r : Rect K)
  | quad (q : Quad K)
  deriving DecidableEq, Repr

/-- intersects.h:30-73, 99-188 `Intersects`: the overloads. -/
def intersects : Shape K → Shape K → Bool
  | .point a, .point b => decide (a = b)
  | .point a, .segment b => intersectsPS a b
  | .point a, .triangle b => b.contains a
  | .point a, .rect b => b.contains a
  | .point a, .quad b => b.contains a
  | .segment a, .point b => intersectsPS b a
  | .segment a, .segment b => intersectsSS a b
  | .segment a, .triangle b => intersectsST a b
  | .segment a, .rect b => intersectsSR a b
  | .segment a, .quad b => intersectsSQ a b
  | .triangle a, .point b => a.contains b
  | .triangle a, .segment b => intersectsST b a
  | .triangle a, .triangle b => intersectsTT a b
  | .triangle a, .rect b => intersectsTR a b
  | .triangle a, .quad b => intersectsTQ a b
  | .rect a, .point b => a.contains b
  | .rect a, .segment b => intersectsSR b a
  | .rect a, .triangle b => intersectsTR b a
  | .rect a, .rect b => intersectsRR a b
  | .rect a, .quad b => intersectsRQ a b
  | .quad a, .point b => a.contains b
  | .quad a, .segment b => intersectsSQ b a
  | .quad a, .triangle b => intersectsTQ b a
  | .quad a, .rect b => intersectsRQ b a
  | .quad a, .quad b => intersectsQQ a b

end Verif.Geo
