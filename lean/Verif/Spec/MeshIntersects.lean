import Verif.Model.MeshIntersects
import Verif.Spec.Geometry
import Mathlib.Logic.Relation

/-!
# Specification for C52

A shape is the union of its triangles. After `ink/geometry/intersects.h:28-34`: two objects intersect if there is any point
that is contained in both objects, once the transforms are applied.
-/

set_option autoImplicit false

namespace Verif.Geo.Spec

open Verif.Geo

variable {K : Type} [Field K] [LinearOrder K]

/-- `p` is a point of the shape. -/
def InMeshes (p : Pt K) (M : ShapeK K) : Prop := ∃ m ∈ M, ∃ t ∈ m.triangles, InTriangle p t

/-- What `PartitionedMesh::FromMeshGroups` guarantees: no mesh is without triangles, and the corners of the triangles are
vertices of the mesh. -/
def Built (M : ShapeK K) : Prop :=
  ∀ m ∈ M, m.triangles ≠ [] ∧ ∀ t ∈ m.triangles, t.p0 ∈ m.vertices ∧ t.p1 ∈ m.vertices ∧ t.p2 ∈ m.vertices

/-- The smallest rectangle which contains all vertices. -/
def BoundingBox (M : ShapeK K) (r : Rect K) : Prop :=
  (∀ m ∈ M, ∀ v ∈ m.vertices, InRect v r) ∧
  ∀ s : Rect K, (∀ m ∈ M, ∀ v ∈ m.vertices, InRect v s) → ∀ p, InRect p r → InRect p s

/-- The transform does not map the diagonal of the bounding box to a point, unless it maps the shape to that point, too. -/
def DiagonalKept (M : ShapeK K) (T : Affine K) : Prop :=
  ∀ r, BoundingBox M r → T.apply ⟨r.xMin, r.yMin⟩ = T.apply ⟨r.xMax, r.yMax⟩ →
    ∀ p, InMeshes p M → T.apply p = T.apply ⟨r.xMin, r.yMin⟩

/-- A triangle of the shape. -/
def IsTri (M : ShapeK K) (t : Triangle K) : Prop := ∃ m ∈ M, t ∈ m.triangles

/-- The shape is in one piece: one gets from each triangle to each other by triangles which have points in common. -/
def Connected (M : ShapeK K) : Prop :=
  ∀ t u, IsTri M t → IsTri M u →
    Relation.ReflTransGen (fun a b => IsTri M b ∧ ∃ p, InTriangle p a ∧ InTriangle p b) t u

/-- A point between two points of the transformed shape. -/
def Between (M : ShapeK K) (T : Affine K) (x : Pt K) : Prop :=
  ∃ p q, InMeshes p M ∧ InMeshes q M ∧ OnSegment x ⟨T.apply p, T.apply q⟩

end Verif.Geo.Spec
