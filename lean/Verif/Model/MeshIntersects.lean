import Verif.Model.AffineTransform

/-!
# Model of `Intersects` and of the spatial queries of shapes, with transforms

From `ink/geometry/intersects.cc`, `ink/geometry/partitioned_mesh.cc:289-450` and `CalculateCollapsedSegment` of
`ink/geometry/internal/algorithms.cc`, in exact arithmetic like `Verif.Model.Geometry`. `none` is undefined behaviour (the
bounds of a shape without vertices) or a result which is no number. Simplifications:

* A mesh is its list of vertices and its list of triangles, each given by its corners.
* The search tree is modelled by what it is for: it finds the triangles whose bounding box meets that of the query
  (C15, C47). The order in which they are visited is not modelled, and neither is that a visitor may stop early.
* `Vec::Magnitude` is the argument `mag`, as in `Verif.Model.AffineTransform`.
-/

set_option autoImplicit false

namespace Verif.Geo

variable {K : Type} [Field K] [LinearOrder K]

/-- mesh.h `Mesh`: the positions of the vertices, and the triangles. -/
structure MeshK (K : Type) where
  vertices : List (Pt K)
  triangles : List (Triangle K)

/-- partitioned_mesh.h:365-370 `Meshes` of a `PartitionedMesh`; a default shape has none. -/
abbrev ShapeK (K : Type) := List (MeshK K)

namespace ShapeK

/-- The triangles of the shape, in order of mesh index, then triangle index. -/
def triangles (M : ShapeK K) : List (Triangle K) := M.flatMap MeshK.triangles

/-- envelope.h:123-129 `Envelope::Add(Point)` -/
def addPoint (e : Option (Rect K)) (p : Pt K) : Option (Rect K) :=
  match e with
  | none => some ⟨p.x, p.y, p.x, p.y⟩
  | some r => some (r.joinPoint p)

/-- partitioned_mesh.cc:289-296 `Bounds`: the bounds of the bounds of the meshes, here of all vertices. -/
def bounds (M : ShapeK K) : Option (Rect K) := (M.flatMap MeshK.vertices).foldl addPoint none

end ShapeK

/-- envelope.h:84-104, 123-170 `*Envelope(object).AsRect()` -/
def boxOf : Shape K → Rect K
  | .point p => ⟨p.x, p.y, p.x, p.y⟩
  | .segment s => Rect.fromTwoPoints s.start s.stop
  | .triangle t => (Rect.fromTwoPoints t.p0 t.p1).joinPoint t.p2
  | .rect r => r
  | .quad q => ((Rect.fromTwoPoints q.corners.1 q.corners.2.1).joinPoint q.corners.2.2.1).joinPoint q.corners.2.2.2

/-- affine_transform.cc:54-102 `Apply`: the overloads. -/
def Affine.applyShape (mag : Pt K → K) (T : Affine K) : Shape K → Shape K
  | .point p => .point (T.apply p)
  | .segment s => .segment (T.applySegment s)
  | .triangle t => .triangle (T.applyTriangle t)
  | .rect r => .quad (T.applyRect mag r)
  | .quad q => .quad (T.applyQuad mag q)

/-- algorithms.cc:259, 267 `std::min(min_value, *projection)`; `none` is infinity. -/
def lower (m : Option K) (x : K) : Option K :=
  match m with
  | none => some x
  | some m => some (min m x)

/-- algorithms.cc:260, 268 `std::max(max_value, *projection)`; `none` is minus infinity. -/
def upper (m : Option K) (x : K) : Option K :=
  match m with
  | none => some x
  | some m => some (max m x)

/-- algorithms.cc:265 the corners of a triangle. -/
def Triangle.corners (t : Triangle K) : List (Pt K) := [t.p0, t.p1, t.p2]

/-- algorithms.cc:236-279 `CalculateCollapsedSegment`. Without triangles the bounds are infinite, and interpolating gives
NaN. -/
def collapsedSegment (M : ShapeK K) (r : Rect K) (T : Affine K) : Option (Segment K) :=
  let d := T.applySegment ⟨⟨r.xMin, r.yMin⟩, ⟨r.xMax, r.yMax⟩⟩
  if d.vector.dot d.vector = 0 then some d
  else
    let ps := (M.triangles.flatMap Triangle.corners).filterMap fun p => d.project (T.apply p)
    match ps.foldl lower none, ps.foldl upper none with
    | some lo, some hi => some ⟨d.lerp lo, d.lerp hi⟩
    | _, _ => none

namespace ShapeK

/-- partitioned_mesh.cc:302-375 `VisitIntersectedTriangles` of a point, segment, triangle, rectangle or quad: the triangles
which are visited. -/
def visit (mag : Pt K → K) (M : ShapeK K) (q : Shape K) (T : Affine K) : List (Triangle K) :=
  let q' := T.applyShape mag q
  M.triangles.filter fun t => intersectsRR (boxOf q') (boxOf (.triangle t)) && intersects q' (.triangle t)

/-- partitioned_mesh.cc:382-450 `VisitIntersectedTriangles` of a shape. -/
def visitShape (mag : Pt K → K) (M Q : ShapeK K) (T : Affine K) : Option (List (Triangle K)) :=
  if M.isEmpty then some []
  else if Q.isEmpty then some []
  else Q.bounds.bind fun r =>
    match T.inverse with
    | some inv => some (M.triangles.filter fun t =>
        intersectsRR (boxOf (.quad (T.applyRect mag r))) (boxOf (.triangle t)) &&
          !(Q.visit mag (.triangle t) inv).isEmpty)
    | none => (collapsedSegment Q r T).map fun s => M.visit mag (.segment s) Affine.identity

/-- intersects.cc:34-66 `IntersectsPartitionedMesh`, the overloads of `Intersects` for a shape and another object. -/
def intersects (mag : Pt K → K) (M : ShapeK K) (T : Affine K) (b : Shape K) : Option Bool :=
  if M.isEmpty then some false
  else
    match T.inverse with
    | some inv => some (!(M.visit mag (inv.applyShape mag b) Affine.identity).isEmpty)
    | none => M.bounds.bind fun r => (collapsedSegment M r T).map fun s => Geo.intersects (.segment s) b

/-- intersects.cc:96-112 `TryOneWayPartitionedMeshToPartitionedMeshIntersects` -/
def tryOneWay (mag : Pt K → K) (L : ShapeK K) (TL : Affine K) (R : ShapeK K) (TR : Affine K) : Option (Option Bool) :=
  match TR.inverse with
  | none => some none
  | some inv => (R.visitShape mag L (inv.mul TL)).map fun l => some (!l.isEmpty)

/-- intersects.cc:116-144 `Intersects` of two shapes. -/
def intersectsShape (mag : Pt K → K) (A : ShapeK K) (TA : Affine K) (B : ShapeK K) (TB : Affine K) : Option Bool :=
  if A.isEmpty || B.isEmpty then some false
  else
    (tryOneWay mag A TA B TB).bind fun first =>
      match first with
      | some result => some result
      | none =>
        (tryOneWay mag B TB A TA).bind fun second =>
          match second with
          | some result => some result
          | none =>
            A.bounds.bind fun ra => (collapsedSegment A ra TA).bind fun sa =>
              B.bounds.bind fun rb => (collapsedSegment B rb TB).map fun sb =>
                Geo.intersects (.segment sa) (.segment sb)

end ShapeK

end Verif.Geo
