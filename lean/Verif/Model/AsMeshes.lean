import Mathlib.Data.List.Dedup
import Verif.Model.Mesh
import Verif.Model.FlipCorrection

/-!
# Model of `MutableMesh::AsMeshes`

From `ink/geometry/mutable_mesh.cc:147-208, 690-781` and
`CopyAndPackPartitionVertices` of `ink/geometry/internal/mesh_packing.cc:951-1028`. `none` is a failed
check or undefined behaviour, `some none` an error status (the message is not modelled), `some (some x)`
is success. The `flat_hash_set` of omitted attributes is a list; its size is the number of different
elements.
-/

set_option autoImplicit false

namespace Verif.Mesh

open Verif

/-- `omit_set.size()` -/
def omitSize (om : List AttrId) : Nat := om.dedup.length

/-- mutable_mesh.cc:709-722, the check of one vertex: no kept attribute has a value that is not finite. -/
def vertexFinite (m : MutableMesh) (om : List AttrId) (v : Nat) : Option Bool :=
  m.format.attributes.zipIdx.allM fun aj =>
    if om.contains aj.1.id then some true
    else (m.floatVertexAttribute v aj.2).map fun value => value.all F32.isFinite

/-- mutable_mesh.cc:707-723, the loop over the vertices. -/
def allFinite (m : MutableMesh) (om : List AttrId) : Option Bool :=
  (List.range m.vertexCount).allM (vertexFinite m om)

/-- mutable_mesh.cc:166-177, the loop over the vertices for one attribute. -/
def boundsLoop (m : MutableMesh) (j : Nat) :
    List Nat → List F32 × List F32 → Option (List F32 × List F32)
  | [], b => some b
  | v :: vs, b => do
    let value ← m.floatVertexAttribute v j
    boundsLoop m j vs (List.zipWith F32.smin value b.1, List.zipWith F32.smax value b.2)

/-- mutable_mesh.cc:158-179, the loop over the attributes. -/
def partitionBoundsLoop (m : MutableMesh) (vertices : List Nat) (om : List AttrId) :
    List (Attribute × Nat) → Option (List (List F32 × List F32))
  | [] => some []
  | (a, j) :: rest =>
    if om.contains a.id then partitionBoundsLoop m vertices om rest
    else do
      let n ← componentCount a.type
      let b ← boundsLoop m j vertices (List.replicate n (F32.inf false), List.replicate n (F32.inf true))
      let bs ← partitionBoundsLoop m vertices om rest
      some (b :: bs)

/-- mutable_mesh.cc:149-181 `ComputeAttributeBoundsForPartition` -/
def partitionBounds (m : MutableMesh) (om : List AttrId) (p : PartitionInfo) :
    Option (List (List F32 × List F32)) :=
  if m.format.attributes.length > omitSize om then
    partitionBoundsLoop m p.vertices om m.format.attributes.zipIdx
  else none

/-- mutable_mesh.cc:186-192, the lambda `join_attr_bounds`. -/
def joinAttrBounds (current toAdd : List F32 × List F32) : List F32 × List F32 :=
  (List.zipWith F32.smin current.1 toAdd.1, List.zipWith F32.smax current.2 toAdd.2)

/-- mutable_mesh.cc:183-208 `ComputeTotalAttributeBounds` -/
def totalBounds : List (List (List F32 × List F32)) → Option (List (List F32 × List F32))
  | [] => none
  | b :: bs => some (bs.foldl (List.zipWith joinAttrBounds) b)

/-- mesh_packing.cc:984-991, the offsets of the kept attributes in a packed vertex, and its size. -/
def keptOffsets (om : List AttrId) : Nat → List Attribute → List Nat × Nat
  | stride, [] => ([], stride)
  | stride, a :: as =>
    if om.contains a.id then keptOffsets om stride as
    else
      let r := keptOffsets om (stride + a.packedWidth) as
      (stride :: r.1, r.2)

/-- mesh_packing.cc:995-1007, the lambda `get_unpacked_attribute_value`. -/
def unpackedValue (m : MutableMesh) (moved : Nat → Option PointF) (v j : Nat) : Option (List F32) :=
  if j = m.format.positionIndex then
    match moved v with
    | some p => some [p.x, p.y]
    | none => MutableMesh.readUnpackedFloatAttribute v j m.vertexData m.format
  else MutableMesh.readUnpackedFloatAttribute v j m.vertexData m.format

/-- mesh_packing.cc:1016-1028, the loop over the attributes, for the vertex `v` of the original mesh which
is written at `base`. -/
def copyAttrs (m : MutableMesh) (om : List AttrId) (moved : Nat → Option PointF) (v base : Nat) :
    List (Attribute × Nat) → List (List Coding) → List Nat → List Nat → Option (List Nat)
  | [], _, _, d => some d
  | (a, j) :: rest, css, offs, d =>
    if om.contains a.id then copyAttrs m om moved v base rest css offs d
    else
      match css, offs with
      | cs :: css, off :: offs => do
        let value ← unpackedValue m moved v j
        let bs ← packAttribute a.type cs value
        let d ← writeBytes (base + off) bs d
        copyAttrs m om moved v base rest css offs d
      | _, _ => none

/-- mesh_packing.cc:1011-1028, the loop over the vertices; `i` is the number in the partition. -/
def copyVertices (m : MutableMesh) (om : List AttrId) (moved : Nat → Option PointF)
    (css : List (List Coding)) (offs : List Nat) (stride : Nat) :
    Nat → List Nat → List Nat → Option (List Nat)
  | _, [], d => some d
  | i, v :: vs, d => do
    let d ← copyAttrs m om moved v (i * stride) m.format.attributes.zipIdx css offs d
    copyVertices m om moved css offs stride (i + 1) vs d

/-- mesh_packing.cc:951-1031 `CopyAndPackPartitionVertices` -/
def copyAndPack (m : MutableMesh) (vertices : List Nat) (om : List AttrId)
    (css : List (List Coding)) (moved : Nat → Option PointF) : Option (List Nat) :=
  if m.vertexData.isEmpty || vertices.isEmpty || m.vertexData.length % m.format.unpackedStride ≠ 0 ||
      decide (m.format.attributes.length ≤ omitSize om) ||
      css.length ≠ m.format.attributes.length - omitSize om then none
  else
    let r := keptOffsets om 0 m.format.attributes
    copyVertices m om moved css r.1 r.2 0 vertices (List.replicate (vertices.length * r.2) 0)

/-- mutable_mesh.cc:766-771, the loop that writes the triangles. -/
def writeTriList : Nat → List Tri → List Nat → Option (List Nat)
  | _, [], d => some d
  | i, t :: ts, d => do
    let d ← writeTri i kBytesPerIndex t d
    writeTriList (i + 1) ts d

/-- The position of a vertex of the mutable mesh; zero if there is no such vertex, which is not used. -/
def MutableMesh.pointAt (m : MutableMesh) (v : Nat) : PointF :=
  match m.vertexPosition v with
  | some (x, y) => ⟨x, y⟩
  | none => ⟨F32.zero, F32.zero⟩

/-- mutable_mesh.cc:597-686 `GetCorrectedPackedVertexPositions`, called with the parameters `cs`. -/
def correctedPositions (m : MutableMesh) (cs : List Coding) : Option (Nat → Option PointF) := do
  let a ← m.format.attributes[m.format.positionIndex]?
  let bits ← packedBits a.type
  let tris ← readTris m.indexStride m.indexData m.triangleCount
  let cx ← cs[0]?
  let cy ← cs[1]?
  Flip.corrected tris m.pointAt cx cy bits

/-- mutable_mesh.cc:752-778, one mesh. -/
def packPartition (m : MutableMesh) (om : List AttrId) (f : MeshFormat) (css : List (List Coding))
    (moved : Nat → Option PointF) (p : PartitionInfo) (b : List (List F32 × List F32)) :
    Option Mesh := do
  let vd ← copyAndPack m p.vertices om css moved
  let id ← writeTriList 0 p.triangles (List.replicate (3 * p.triangles.length * kBytesPerIndex) 0)
  some (Mesh.ofData f css (some b) vd id)

/-- mutable_mesh.cc:729-778, the part of `AsMeshes` after the checks; `f` is the new format. -/
def asMeshesRest (m : MutableMesh) (params : List (Option (List Coding))) (om : List AttrId)
    (f : MeshFormat) : Option (Option (List Mesh)) := do
  let ps ← partitionTriangles m.indexData m.format.indexFormat 65536
  let bs ← ps.mapM (partitionBounds m om)
  let total ← totalBounds bs
  match ← computeCodingParamsArray f.attributes total params with
  | none => some none
  | some css =>
    let cs ← css[f.positionIndex]?
    let moved ← correctedPositions m cs
    let ms ← (ps.zip bs).mapM fun pb => packPartition m om f css moved pb.1 pb.2
    some (some ms)

/-- mutable_mesh.cc:690-781 `AsMeshes` -/
def asMeshes (m : MutableMesh) (params : List (Option (List Coding))) (om : List AttrId) :
    Option (Option (List Mesh)) :=
  if m.triangleCount = 0 then some (some [])
  else
    m.validateTriangles.bind fun valid =>
      if !valid then some none
      else
        match withoutAttributes m.format om with
        | none => some none
        | some f =>
          (allFinite m om).bind fun finite =>
            if !finite then some none
            else asMeshesRest m params om f

end Verif.Mesh
