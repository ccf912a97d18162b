import Verif.Model.SpatialQuery
import Verif.Spec.StaticRTree
import Verif.Props.Rect

/-!
# Specification for C17 and C47

After `ink/geometry/partitioned_mesh.h:229-345`.
-/

set_option autoImplicit false

namespace Verif.PMeshSpec

open Verif.Mesh Verif.PMesh F32

/-- `p` names a triangle of the shape, with corners `t`. -/
def IsTriangle (s : PartitionedMesh) (p : TriangleIndexPair) (t : TriangleF) : Prop :=
  ∃ m, s.meshes[p.meshIndex]? = some m ∧ p.triangleIndex < m.triangleCount ∧ meshTriangle m p.triangleIndex = some t

/-- No coordinate of a corner is NaN. -/
def NoNaN (t : TriangleF) : Prop := PointF.Valid t.1 ∧ PointF.Valid t.2.1 ∧ PointF.Valid t.2.2

/-- The shapes for which the claims are made: as built by `FromMeshGroups` (at most 65535 meshes, none of them without
triangles), with fewer than 65536 triangles per mesh, which can be read. The default shape has no meshes; other shapes
must have one. -/
structure Searchable (s : PartitionedMesh) : Prop where
  filled : s = none ∨ s.meshes ≠ []
  count : s.meshes.length ≤ 65535
  nonempty : ∀ m ∈ s.meshes, m.triangleCount ≠ 0
  few : ∀ m ∈ s.meshes, m.triangleCount < 65536
  readable : ∀ m ∈ s.meshes, ∀ i < m.triangleCount, ∃ t, meshTriangle m i = some t ∧ NoNaN t

/-- A point in the bounding box of a triangle. -/
def InBox (t : TriangleF) (p : PointF) : Prop :=
  ∀ s : RectF, s.contains t.1 = true → s.contains t.2.1 = true → s.contains t.2.2 = true → s.contains p = true

/-- The bounding box of a triangle and a rectangle have a point in common. -/
def BoxesMeet (t : TriangleF) (r : RectF) : Prop := ∃ p, InBox t p ∧ r.contains p = true

/-- The bounding box of the query is `r`, and the intersection test ends for each triangle of the shape. -/
structure QueryFor (s : PartitionedMesh) (q : Query) (r : RectF) : Prop where
  box : Envelope.add none q.object = some r
  valid : r.Valid
  total : ∀ p t, IsTriangle s p t → (q.hits t).isSome = true

/-- The triangles for which the intersection test succeeds and whose bounding box meets that of the query, each once, in
some order. -/
def Found (s : PartitionedMesh) (q : Query) (r : RectF) (order : List TriangleIndexPair) : Prop :=
  order.Nodup ∧ ∀ p, p ∈ order ↔ ∃ t, IsTriangle s p t ∧ q.hits t = some true ∧ BoxesMeet t r

/-- The same for a query by a shape: some triangle of the other shape, taken back to the space of that shape, meets it. -/
def MeetsShape (query : PartitionedMesh) (q : Query) : Prop :=
  ∃ p t r, IsTriangle query p t ∧ Envelope.add none q.object = some r ∧ q.hits t = some true ∧ BoxesMeet t r

/-- The sum, in `float`, from left to right. -/
def floatSum (l : List F32) : F32 := l.foldl add zero

/-- `as` are the absolute areas of the named triangles of the shape. -/
def AreasOf (s : PartitionedMesh) (ps : List TriangleIndexPair) (as : List F32) : Prop :=
  List.Forall₂ (fun p a => ∃ t, IsTriangle s p t ∧ a = fabs (Flip.signedArea t.1 t.2.1 t.2.2)) ps as

/-- Every triangle of the shape, each once. -/
def AllTriangles (s : PartitionedMesh) (ps : List TriangleIndexPair) : Prop :=
  ps.Nodup ∧ ∀ p, p ∈ ps ↔ ∃ t, IsTriangle s p t

end Verif.PMeshSpec
