import Verif.Model.PartitionedMesh
import Verif.Model.StaticRTree
import Verif.Model.FlipCorrection

/-!
# Model of the spatial queries of `PartitionedMesh`

From `ink/geometry/partitioned_mesh.cc:289-628` and `ink/geometry/mesh.h:173-182`. `none` is a failed check or undefined
behaviour. Simplifications:

* Applying an `AffineTransform` and `IntersectsInternal` are parameters: a `Query` has the transformed query and the
  function which tells whether it intersects a triangle, a `ShapeTransform` has the results of `Inverse`, `Apply` and
  `CalculateCollapsedSegment`. (Transforms and intersection tests are modelled in exact arithmetic in
  `Verif.Model.AffineTransform` and `Verif.Model.Geometry`.)
* The caches of the index and of the total area, with their lock, are not modelled: they hold what computing it again
  would give, as the data is immutable.
* A visitor is a function of its own state and of the triangle; the flag tells whether to go on (`kContinue`).
-/

set_option autoImplicit false

namespace Verif.PMesh

open Verif.Mesh F32

/-- mesh.h:173-182 `Mesh::Bounds` -/
def meshBounds (m : Mesh) : Option Envelope :=
  (m.attributeBoundsOf m.format.positionIndex).bind fun b =>
    match b with
    | none => some none
    | some (lo, hi) =>
      (lo[0]?).bind fun x0 => (lo[1]?).bind fun y0 => (hi[0]?).bind fun x1 => (hi[1]?).map fun y1 =>
        Envelope.addAll none [.point ⟨x0, y0⟩, .point ⟨x1, y1⟩]

/-- partitioned_mesh.cc:289-296 `Bounds` -/
def PartitionedMesh.bounds (s : PartitionedMesh) : Option Envelope :=
  match s with
  | none => some none
  | some d => (d.meshes.mapM meshBounds).map fun es => Envelope.addAll none (es.map EnvObj.envelope)

/-- partitioned_mesh.h:77-82 `TriangleIndexPair`: two `uint16_t`s. -/
structure TriangleIndexPair where
  meshIndex : Nat
  triangleIndex : Nat
  deriving DecidableEq

/-- triangle.h `Triangle` -/
abbrev TriangleF := PointF × PointF × PointF

/-- mesh.cc:199-204 `GetTriangle`, as points. -/
def meshTriangle (m : Mesh) (i : Nat) : Option TriangleF :=
  (m.getTriangle i).map fun t => (⟨t.1.1, t.1.2⟩, ⟨t.2.1.1, t.2.1.2⟩, ⟨t.2.2.1, t.2.2.2⟩)

/-- `meshes[index.mesh_index].GetTriangle(index.triangle_index)` -/
def triangleAt (ms : List Mesh) (i : TriangleIndexPair) : Option TriangleF :=
  (ms[i.meshIndex]?).bind fun m => meshTriangle m i.triangleIndex

/-- partitioned_mesh.cc:594-599, the increment of the generator. -/
def nextIndex (ms : List Mesh) (cur : TriangleIndexPair) : Option TriangleIndexPair :=
  let t := u16 (cur.triangleIndex + 1)
  (ms[cur.meshIndex]?).map fun m =>
    if m.triangleCount ≤ t then ⟨u16 (cur.meshIndex + 1), 0⟩ else ⟨cur.meshIndex, t⟩

/-- static_rtree.h:310-319 the loop which calls the generator of partitioned_mesh.cc:590-601. -/
def generate (ms : List Mesh) : Nat → TriangleIndexPair → Option (List TriangleIndexPair)
  | 0, _ => some []
  | n + 1, cur => (nextIndex ms cur).bind fun next => (generate ms n next).map fun l => cur :: l

/-- `*Envelope(triangle).AsRect()` -/
def triangleBounds (t : TriangleF) : RectF := (RectF.fromTwoPoints t.1 t.2.1).join t.2.2

/-- partitioned_mesh.cc:604-607 `bounds_func`. The construction of the tree calls it for each element, so an element
which is no triangle is dealt with in `spatialIndex`. -/
def boundsFunc (ms : List Mesh) (i : TriangleIndexPair) : RectF :=
  match triangleAt ms i with
  | none => RectF.dflt
  | some t => triangleBounds t

/-- static_rtree.h:58 `kBranchingFactor`, the default of the template. -/
def branchingFactor : Nat := 16

/-- partitioned_mesh.cc:580-581 `n_tris` -/
def triangleTotal (ms : List Mesh) : Nat := ms.foldl (fun n m => u32 (n + m.triangleCount)) 0

/-- partitioned_mesh.cc:569-612 `Data::SpatialIndex` -/
def Data.spatialIndex (S : RTree.Sorts) (d : Data) : Option (RTree.Tree TriangleIndexPair) :=
  if d.meshes.isEmpty then none
  else (generate d.meshes (triangleTotal d.meshes) ⟨0, 0⟩).bind fun es =>
    if es.all fun i => (triangleAt d.meshes i).isSome then
      RTree.initTree S branchingFactor es (boundsFunc d.meshes)
    else none

/-- A query which has been transformed to the space of the shape: the object, and `IntersectsInternal` of it and a
triangle, `none` if that fails. -/
structure Query where
  object : EnvObj
  hits : TriangleF → Option Bool

/-- partitioned_mesh.cc:313-321 `visitor_wrapper`; the state is `none` after a failure. -/
def visitorWrapper {σ : Type} (ms : List Mesh) (hits : TriangleF → Option Bool)
    (visitor : σ → TriangleIndexPair → σ × Bool) (st : Option σ) (i : TriangleIndexPair) : Option σ × Bool :=
  match st with
  | none => (none, false)
  | some st =>
    match (triangleAt ms i).bind hits with
    | none => (none, false)
    | some false => (some st, true)
    | some true => (some (visitor st i).1, (visitor st i).2)

/-- partitioned_mesh.cc:302-375 `VisitIntersectedTriangles` of a point, segment, triangle, rectangle or quad: the state of
the visitor at the end. -/
def PartitionedMesh.visitTriangles {σ : Type} (S : RTree.Sorts) (s : PartitionedMesh) (q : Query)
    (visitor : σ → TriangleIndexPair → σ × Bool) (st : σ) : Option σ :=
  match s with
  | none => some st
  | some d =>
    (d.spatialIndex S).bind fun tree => (Envelope.add none q.object).bind fun r =>
      (RTree.visit tree r (visitorWrapper d.meshes q.hits visitor) (some st)).join

/-- The transform of a query which is a shape: `query_to_this`, of which `invertible` tells whether it has an inverse;
`quad` is `query_to_target.Apply` of a rectangle, `back` makes a triangle, with `target_to_query`, a query of the other
shape, and `collapsed` is the segment of `CalculateCollapsedSegment`, as a query. -/
structure ShapeTransform where
  invertible : Bool
  quad : RectF → EnvObj
  back : TriangleF → Query
  collapsed : List Mesh → RectF → Query

/-- partitioned_mesh.cc:402-410 does the shape intersect a triangle? -/
def PartitionedMesh.meets (S : RTree.Sorts) (s : PartitionedMesh) (q : Query) : Option Bool :=
  s.visitTriangles S q (fun _ _ => (true, false)) false

/-- partitioned_mesh.cc:382-450 `VisitIntersectedTriangles` of a shape. -/
def PartitionedMesh.visitShape {σ : Type} (S : RTree.Sorts) (s : PartitionedMesh) (query : PartitionedMesh)
    (A : ShapeTransform) (visitor : σ → TriangleIndexPair → σ × Bool) (st : σ) : Option σ :=
  match s with
  | none => some st
  | some _ =>
    if query.meshes.isEmpty then some st
    else query.bounds.bind fun b => b.bind fun r =>
      if A.invertible then
        s.visitTriangles S ⟨A.quad r, fun t => query.meets S (A.back t)⟩ visitor st
      else s.visitTriangles S (A.collapsed query.meshes r) visitor st

/-- `std::abs(t.SignedArea())` -/
def absoluteArea (t : TriangleF) : F32 := fabs (Flip.signedArea t.1 t.2.1 t.2.2)

/-- partitioned_mesh.cc:621-623, one mesh. -/
def addAreas (m : Mesh) : Nat → Nat → F32 → Option F32
  | _, 0, acc => some acc
  | i, n + 1, acc => (meshTriangle m i).bind fun t => addAreas m (i + 1) n (add acc (absoluteArea t))

/-- partitioned_mesh.cc:614-628 `Data::TotalAbsoluteArea` -/
def Data.totalAbsoluteArea (d : Data) : Option F32 :=
  if d.meshes.isEmpty then none
  else d.meshes.foldlM (fun acc m => addAreas m 0 m.triangleCount acc) zero

/-- partitioned_mesh.cc:465-467, 520-522 the area of a visited triangle. A triangle which is visited exists: it has been
read for the index. -/
def areaAt (ms : List Mesh) (i : TriangleIndexPair) : F32 :=
  match triangleAt ms i with
  | none => nan
  | some t => absoluteArea t

/-- partitioned_mesh.cc:457-472 `ComputeCoverage`; `visit` is `target.VisitIntersectedTriangles` of the query. -/
def computeCoverage (d : Data)
    (visit : (F32 → TriangleIndexPair → F32 × Bool) → F32 → Option F32) : Option F32 :=
  d.totalAbsoluteArea.bind fun total =>
    (visit (fun covered i => (add covered (areaAt d.meshes i), true)) zero).map fun covered => div covered total

/-- partitioned_mesh.cc:476-502 `Coverage` of a triangle, rectangle or quad. -/
def PartitionedMesh.coverage (S : RTree.Sorts) (s : PartitionedMesh) (q : Query) : Option F32 :=
  match s with
  | none => some zero
  | some d => computeCoverage d fun v st => s.visitTriangles S q v st

/-- partitioned_mesh.cc:497-502 `Coverage` of a shape. -/
def PartitionedMesh.coverageShape (S : RTree.Sorts) (s query : PartitionedMesh) (A : ShapeTransform) : Option F32 :=
  match s with
  | none => some zero
  | some d => computeCoverage d fun v st => s.visitShape S query A v st

/-- partitioned_mesh.cc:509-529 `CoverageIsGreaterThanHelper`. The `float` it returns is converted to `bool`. -/
def coverageIsGreaterThanHelper (d : Data)
    (visit : (F32 → TriangleIndexPair → F32 × Bool) → F32 → Option F32) (threshold : F32) : Option Bool :=
  d.totalAbsoluteArea.bind fun total =>
    let areaThreshold := mul threshold total
    (visit (fun covered i =>
      let covered := add covered (areaAt d.meshes i)
      (covered, !gt covered areaThreshold)) zero).map fun covered => gt covered areaThreshold

/-- partitioned_mesh.cc:533-567 `CoverageIsGreaterThan` of a triangle, rectangle or quad. -/
def PartitionedMesh.coverageIsGreaterThan (S : RTree.Sorts) (s : PartitionedMesh) (q : Query) (threshold : F32) :
    Option Bool :=
  match s with
  | none => some false
  | some d => coverageIsGreaterThanHelper d (fun v st => s.visitTriangles S q v st) threshold

/-- partitioned_mesh.cc:560-567 `CoverageIsGreaterThan` of a shape. -/
def PartitionedMesh.coverageShapeIsGreaterThan (S : RTree.Sorts) (s query : PartitionedMesh) (A : ShapeTransform)
    (threshold : F32) : Option Bool :=
  match s with
  | none => some false
  | some d => coverageIsGreaterThanHelper d (fun v st => s.visitShape S query A v st) threshold

end Verif.PMesh
