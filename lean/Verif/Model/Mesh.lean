import Verif.Model.MutableMesh

/-!
# Model of `Mesh`

From `ink/geometry/mesh.{h,cc}`, `ComputeCodingParamsArray` of `ink/geometry/internal/mesh_packing.cc`
and `MutableMesh::FromMesh`. As elsewhere `none` is a failed check or undefined behaviour; for the
functions that return a `StatusOr`, `some none` is an error status (the message is not modelled) and
`some (some x)` is success. A `Mesh` is immutable, so the shared pointer is not modelled.
-/

set_option autoImplicit false
set_option linter.dupNamespace false

namespace Verif.Mesh

open Verif

/-- mesh.h:222-230 `Mesh::Data` -/
structure Mesh where
  format : MeshFormat
  unpackingParams : List (List Coding)
  attributeBounds : Option (List (List F32 × List F32)) := none
  vertexData : List Nat := []
  indexData : List Nat := []
  vertexCount : Nat := 0
  triangleCount : Nat := 0
  deriving DecidableEq

/-- mesh.h:238 `kBytesPerIndex` -/
def kBytesPerIndex : Nat := 2

/-- The spans of each attribute: `span_idx` in the loops mesh.cc:52-66 and mesh.cc:216-224 advances by
the number of components of each attribute. -/
def spanGroups : List Attribute → List (List F32) → Option (List (List (List F32)))
  | [], _ => some []
  | a :: as, spans => do
    let n ← componentCount a.type
    let r ← spanGroups as (spans.drop n)
    some (spans.take n :: r)

/-- `absl::c_minmax_element`, dereferenced: the first smallest and the last largest element. -/
def minmaxElement : List F32 → Option (F32 × F32)
  | [] => none
  | x :: xs => some (xs.foldl (fun m y => if F32.lt y m then y else m) x,
      xs.foldl (fun m y => if F32.lt y m then m else y) x)

/-- mesh.cc:40-68 `ComputeAttributeBounds`, when there are vertices. -/
def computeAttributeBounds (groups : List (List (List F32))) :
    Option (List (List F32 × List F32)) :=
  groups.mapM fun g => (g.mapM minmaxElement).map fun mm => (mm.map Prod.fst, mm.map Prod.snd)

/-- mesh.cc:70-82 `MakeCodingParamsArrayForEmptyMesh` -/
def emptyMeshParams (attrs : List Attribute) : Option (List (List Coding)) :=
  attrs.mapM fun a => (componentCount a.type).map fun n => List.replicate n ⟨F32.zero, F32.ofInt 1⟩

/-- mesh_format.h `IsUnpackedType` -/
def isUnpackedType (t : AttrType) : Bool := decide (packedBits t = some none)

/-- mesh_packing.cc:904-928, the checks of one custom coding parameter. -/
def customOk (t : AttrType) (p : Option (List Coding)) (b : List F32 × List F32) : Bool :=
  match p with
  | none => true
  | some cs =>
    if isUnpackedType t then false
    else if !isValidCodingParams t cs then false
    else if !valuesRepresentable t cs b.1 || !valuesRepresentable t cs b.2 then false
    else true

/-- mesh_packing.cc:903-929, the loop over the custom parameters. -/
def customLoop : List Attribute → List (Option (List Coding)) → List (List F32 × List F32) → Bool
  | a :: as, p :: ps, b :: bs => if customOk a.type p b then customLoop as ps bs else false
  | _, _, _ => true

/-- mesh_packing.cc:936-944: a custom parameter is used as it is, otherwise one is computed. -/
def paramsOrCompute (t : AttrType) (p : Option (List Coding)) (b : List F32 × List F32) :
    Option (Option (List Coding)) :=
  match p with
  | some cs => some (some cs)
  | none => computeCodingParams t b.1 b.2

/-- mesh_packing.cc:933-946, the loop that fills the array. Without custom parameters each entry is
`none`. -/
def codingArrayLoop : List Attribute → List (Option (List Coding)) → List (List F32 × List F32) →
    Option (Option (List (List Coding)))
  | [], _, _ => some (some [])
  | a :: as, p :: ps, b :: bs => (paramsOrCompute a.type p b).bind fun c =>
    match c with
    | none => some none
    | some c => (codingArrayLoop as ps bs).map fun r => r.map (c :: ·)
  | _, _, _ => none

/-- mesh_packing.cc:885-949 `ComputeCodingParamsArray` -/
def computeCodingParamsArray (attrs : List Attribute) (bounds : List (List F32 × List F32))
    (custom : List (Option (List Coding))) : Option (Option (List (List Coding))) :=
  if bounds.length ≠ attrs.length then some none
  else if custom.isEmpty then codingArrayLoop attrs (List.replicate attrs.length none) bounds
  else if custom.length ≠ attrs.length then some none
  else if !customLoop attrs custom bounds then some none
  else codingArrayLoop attrs custom bounds

/-- mesh.cc:217-230, one vertex of `PackVertexByteData`: `v` is the number of the vertex. -/
def packVertexAttrs (off v : Nat) : List Attribute → List (List Coding) → List (List (List F32)) →
    List Nat → Option (List Nat)
  | [], _, _, d => some d
  | a :: as, cs :: css, g :: gs, d => do
    let value ← g.mapM (·[v]?)
    let bs ← packAttribute a.type cs value
    let d ← writeBytes (off + a.packedOffset) bs d
    packVertexAttrs off v as css gs d
  | _, _, _, _ => none

/-- mesh.cc:214-231, the loop over the vertices, starting with vertex `v`. -/
def packVertices (f : MeshFormat) (css : List (List Coding)) (gs : List (List (List F32))) :
    Nat → Nat → List Nat → Option (List Nat)
  | _, 0, d => some d
  | v, k + 1, d => do
    let d ← packVertexAttrs (v * f.packedStride) v f.attributes css gs d
    packVertices f css gs (v + 1) k d

/-- mesh.cc:206-234 `PackVertexByteData`, for `n` vertices. -/
def packVertexByteData (f : MeshFormat) (n : Nat) (gs : List (List (List F32)))
    (css : List (List Coding)) : Option (List Nat) :=
  packVertices f css gs 0 n (List.replicate (n * f.packedStride) 0)

/-- mesh.cc:158-161, the loop that writes the triangles. -/
def writeTris : Nat → List Nat → List Nat → Option (List Nat)
  | i, a :: b :: c :: rest, d => do
    let d ← writeTri i kBytesPerIndex (a, b, c) d
    writeTris (i + 1) rest d
  | _, _, d => some d

namespace Mesh

/-- mesh.h:257-273 `CreateMeshData` -/
def ofData (f : MeshFormat) (params : List (List Coding))
    (bounds : Option (List (List F32 × List F32))) (vd id : List Nat) : Mesh :=
  { format := f, unpackingParams := params, attributeBounds := bounds, vertexData := vd,
    indexData := id, vertexCount := u32 (vd.length / f.packedStride),
    triangleCount := u32 (id.length / (3 * kBytesPerIndex)) }

/-- mesh.cc:152-165, the end of `Create`. -/
def finish (f : MeshFormat) (n : Nat) (gs : List (List (List F32))) (tris : List Nat)
    (bounds : Option (List (List F32 × List F32))) (params : List (List Coding)) :
    Option (Option Mesh) := do
  let vd ← packVertexByteData f n gs params
  let id ← writeTris 0 tris (List.replicate (kBytesPerIndex * tris.length) 0)
  some (some (ofData f params bounds vd id))

/-- mesh.cc:86-166 `Create` -/
def create (f : MeshFormat) (spans : List (List F32)) (tris : List Nat)
    (params : List (Option (List Coding))) : Option (Option Mesh) := do
  let cs ← f.attributes.mapM fun a => componentCount a.type
  if cs.sum ≠ spans.length then some none
  else do
    let first ← spans[0]?
    let n := first.length
    if n > 65536 then some none
    else if !(spans.drop 1).all (fun s => s.length = n) then some none
    else if !spans.all (fun s => s.all F32.isFinite) then some none
    else if tris.length % 3 ≠ 0 then some none
    else if !tris.all (fun i => i < n) then some none
    else do
      let gs ← spanGroups f.attributes spans
      if first.isEmpty then do
        let params ← emptyMeshParams f.attributes
        finish f n gs tris none params
      else do
        let bounds ← computeAttributeBounds gs
        match ← computeCodingParamsArray f.attributes bounds params with
        | none => some none
        | some params => finish f n gs tris (some bounds) params

/-- mesh.cc:188-197 `PackedVertexAttribute` -/
def packedVertexAttribute (m : Mesh) (i j : Nat) : Option (List Nat) := do
  let a ← m.format.attributes[j]?
  readBytes (i * m.format.packedStride + a.packedOffset) a.packedWidth m.vertexData

/-- mesh.cc:168-177 `FloatVertexAttribute` -/
def floatVertexAttribute (m : Mesh) (i j : Nat) : Option (List F32) := do
  let bs ← m.packedVertexAttribute i j
  let a ← m.format.attributes[j]?
  let cs ← m.unpackingParams[j]?
  unpackAttribute a.type cs bs

/-- mesh.cc:179-186 `PackedIntegersForFloatVertexAttribute` -/
def packedIntegers (m : Mesh) (i j : Nat) : Option (List Nat) := do
  let bs ← m.packedVertexAttribute i j
  let a ← m.format.attributes[j]?
  unpackIntegers a.type bs

/-- mesh.h:123-127 `VertexPosition` -/
def vertexPosition (m : Mesh) (i : Nat) : Option (F32 × F32) := do
  let v ← m.floatVertexAttribute i m.format.positionIndex
  let x ← v[0]?
  let y ← v[1]?
  some (x, y)

/-- mesh.h:161-164 `TriangleIndices` -/
def triangleIndices (m : Mesh) (i : Nat) : Option Tri := readTri i kBytesPerIndex m.indexData

/-- mesh.cc:199-204 `GetTriangle` -/
def getTriangle (m : Mesh) (i : Nat) : Option ((F32 × F32) × (F32 × F32) × (F32 × F32)) := do
  let t ← m.triangleIndices i
  let a ← m.vertexPosition t.1
  let b ← m.vertexPosition t.2.1
  let c ← m.vertexPosition t.2.2
  some (a, b, c)

/-- mesh.h:187-192 `AttributeBounds` -/
def attributeBoundsOf (m : Mesh) (j : Nat) : Option (Option (List F32 × List F32)) :=
  if j < m.format.attributes.length then
    match m.attributeBounds with
    | none => some none
    | some b => (b[j]?).map some
  else none

end Mesh

/-- mutable_mesh.cc:68-74, the inner loop of `FromMesh` for vertex `i`. -/
def fromMeshAttrs (mesh : Mesh) (i : Nat) : Nat → Nat → MutableMesh → Option MutableMesh
  | _, 0, m => some m
  | j, k + 1, m => do
    let v ← mesh.floatVertexAttribute i j
    let m ← m.setFloatVertexAttribute i j v
    fromMeshAttrs mesh i (j + 1) k m

/-- mutable_mesh.cc:68-74, the outer loop of `FromMesh`. -/
def fromMeshVertices (mesh : Mesh) : Nat → Nat → MutableMesh → Option MutableMesh
  | _, 0, m => some m
  | i, k + 1, m => do
    let m ← fromMeshAttrs mesh i 0 mesh.format.attributes.length m
    fromMeshVertices mesh (i + 1) k m

/-- mutable_mesh.cc:82-84, the loop of `FromMesh` that copies the triangles. -/
def fromMeshTriangles (mesh : Mesh) : Nat → Nat → MutableMesh → Option MutableMesh
  | _, 0, m => some m
  | i, k + 1, m => do
    let t ← mesh.triangleIndices i
    let m ← m.setTriangleIndices i t
    fromMeshTriangles mesh (i + 1) k m

/-- mutable_mesh.cc:64-88 `FromMesh` -/
def MutableMesh.fromMesh (mesh : Mesh) : Option MutableMesh := do
  let m ← MutableMesh.new mesh.format
  let m := m.resize mesh.vertexCount mesh.triangleCount
  let m ← fromMeshVertices mesh 0 mesh.vertexCount m
  if mesh.format.indexFormat = .unpacked16 then do
    let bs ← readBytes 0 (3 * kBytesPerIndex * mesh.triangleCount) mesh.indexData
    let d ← writeBytes 0 bs m.indexData
    some { m with indexData := d }
  else fromMeshTriangles mesh 0 mesh.triangleCount m

end Verif.Mesh
