import Verif.Model.MeshPacking

/-!
# Model of `MutableMesh`

From `ink/geometry/mutable_mesh.{h,cc}`. The vertex and index data are byte arrays, as in the code.
`none` is an access outside a byte array or a failed check. `AsMeshes` and `FromMesh` are in
`Model/Mesh.lean`.
-/

set_option autoImplicit false

namespace Verif.Mesh

open Verif

/-- Arithmetic of `uint32_t`. -/
@[irreducible] def u32 (n : Nat) : Nat := n % 4294967296

/-- `std::vector<std::byte>::resize` -/
def resizeBytes (n : Nat) (d : List Nat) : List Nat :=
  d.take n ++ List.replicate (n - d.length) 0

/-- `memcpy` of `len` bytes out of an array, starting at `off`. -/
def readBytes (off len : Nat) (d : List Nat) : Option (List Nat) :=
  if off + len ≤ d.length then some ((d.drop off).take len) else none

/-- `memcpy` of `bs` into an array, starting at `off`. -/
def writeBytes (off : Nat) (bs d : List Nat) : Option (List Nat) :=
  if off + bs.length ≤ d.length then some (d.take off ++ bs ++ d.drop (off + bs.length)) else none

/-- mutable_mesh.h:320-324, the data members. -/
structure MutableMesh where
  format : MeshFormat
  vertexData : List Nat := []
  indexData : List Nat := []
  vertexCount : Nat := 0
  triangleCount : Nat := 0
  deriving DecidableEq

namespace MutableMesh

/-- mutable_mesh.h:302 `VertexStride` -/
def vertexStride (m : MutableMesh) : Nat := m.format.unpackedStride

/-- mutable_mesh.h:310 `IndexStride` -/
def indexStride (m : MutableMesh) : Nat := m.format.indexStride

/-- mutable_mesh.h:73-78 `Clear` -/
def clear (m : MutableMesh) : MutableMesh :=
  { m with vertexData := [], indexData := [], vertexCount := 0, triangleCount := 0 }

/-- mutable_mesh.h:82-88 `Reset` -/
def reset (m : MutableMesh) (f : MeshFormat) : Option MutableMesh :=
  if f.indexStride = 2 ∨ f.indexStride = 4 then some { m.clear with format := f } else none

/-- mutable_mesh.h:50-54, the constructor. -/
def new (f : MeshFormat) : Option MutableMesh := reset { format := f } f

/-- mutable_mesh.cc:55-62 `Clone` -/
def clone (m : MutableMesh) : MutableMesh :=
  { format := m.format, vertexData := m.vertexData, indexData := m.indexData,
    vertexCount := m.vertexCount, triangleCount := m.triangleCount }

/-- mutable_mesh.h:122-130 `SetVertexPosition` -/
def setVertexPosition (m : MutableMesh) (i : Nat) (x y : F32) : Option MutableMesh := do
  let a ← m.format.attributes[m.format.positionIndex]?
  let d ← writeBytes (i * m.vertexStride + a.unpackedOffset) (bytesOfFloat x ++ bytesOfFloat y)
    m.vertexData
  some { m with vertexData := d }

/-- mutable_mesh.h:107-118 `VertexPosition` -/
def vertexPosition (m : MutableMesh) (i : Nat) : Option (F32 × F32) := do
  let a ← m.format.attributes[m.format.positionIndex]?
  let bs ← readBytes (i * m.vertexStride + a.unpackedOffset) 8 m.vertexData
  let x ← floatOfBytes (bs.take 4)
  let y ← floatOfBytes (bs.drop 4)
  some (x, y)

/-- mutable_mesh.h:99-103 `AppendVertex` -/
def appendVertex (m : MutableMesh) (x y : F32) : Option MutableMesh :=
  let m := { m with
    vertexData := resizeBytes (m.vertexData.length + m.vertexStride) m.vertexData
    vertexCount := u32 (m.vertexCount + 1) }
  m.setVertexPosition (u32 (m.vertexCount + 4294967295)) x y

/-- mesh_packing.cc:743-785 `ReadUnpackedFloatAttributeFromByteArray`; the four groups of types are
those of `ComponentCount`. -/
def readUnpackedFloatAttribute (i j : Nat) (data : List Nat) (f : MeshFormat) :
    Option (List F32) := do
  let a ← f.attributes[j]?
  let n ← componentCount a.type
  let bs ← readBytes (i * f.unpackedStride + a.unpackedOffset) (4 * n) data
  floatsOfBytes n bs

/-- mutable_mesh.h:142-146 `FloatVertexAttribute` -/
def floatVertexAttribute (m : MutableMesh) (i j : Nat) : Option (List F32) :=
  readUnpackedFloatAttribute i j m.vertexData m.format

/-- mutable_mesh.cc:90-124 `SetFloatVertexAttribute`; the four groups of types are those of
`ComponentCount`. The storage of a `SmallArray` always has four floats; those beyond its size are zero
in the model, and are only read when the value has the wrong size. -/
def setFloatVertexAttribute (m : MutableMesh) (i j : Nat) (v : List F32) : Option MutableMesh := do
  let a ← m.format.attributes[j]?
  let n ← componentCount a.type
  let d ← writeBytes (i * m.vertexStride + a.unpackedOffset)
    (((v ++ List.replicate 4 F32.zero).take n).flatMap bytesOfFloat) m.vertexData
  some { m with vertexData := d }

/-- mutable_mesh.h:178-181 `TriangleIndices` -/
def triangleIndices (m : MutableMesh) (i : Nat) : Option Tri := readTri i m.indexStride m.indexData

/-- mutable_mesh.h:190-197 `SetTriangleIndices` -/
def setTriangleIndices (m : MutableMesh) (i : Nat) (t : Tri) : Option MutableMesh := do
  let d ← writeTri i m.indexStride t m.indexData
  some { m with indexData := d }

/-- mutable_mesh.h:170-174 `AppendTriangleIndices` -/
def appendTriangleIndices (m : MutableMesh) (t : Tri) : Option MutableMesh :=
  let m := { m with
    indexData := resizeBytes (m.indexData.length + 3 * m.indexStride) m.indexData
    triangleCount := u32 (m.triangleCount + 1) }
  m.setTriangleIndices (u32 (m.triangleCount + 4294967295)) t

/-- mutable_mesh.h:205-213 `InsertTriangleIndices`; inserting past the end of a vector is undefined. -/
def insertTriangleIndices (m : MutableMesh) (i : Nat) (t : Tri) : Option MutableMesh :=
  let p := 3 * m.indexStride * i
  if p ≤ m.indexData.length then
    let m := { m with
      indexData := m.indexData.take p ++ List.replicate (3 * m.indexStride) 0 ++ m.indexData.drop p
      triangleCount := u32 (m.triangleCount + 1) }
    m.setTriangleIndices i t
  else none

/-- mutable_mesh.h:229-234 `Resize` -/
def resize (m : MutableMesh) (nv nt : Nat) : MutableMesh :=
  { m with
    vertexData := resizeBytes (nv * m.vertexStride) m.vertexData
    indexData := resizeBytes (nt * 3 * m.indexStride) m.indexData
    vertexCount := nv, triangleCount := nt }

/-- mutable_mesh.cc:129-143, the loop of `ValidateTriangles`; `true` is `OkStatus`. -/
def validateFrom (m : MutableMesh) : Nat → Nat → Option Bool
  | _, 0 => some true
  | i, k + 1 => do
    let t ← m.triangleIndices i
    let n := m.vertexCount
    if t.1 ≥ n || t.2.1 ≥ n || t.2.2 ≥ n then some false
    else if t.1 = t.2.1 || t.1 = t.2.2 || t.2.1 = t.2.2 then some false
    else validateFrom m (i + 1) k

/-- mutable_mesh.cc:126-145 `ValidateTriangles` -/
def validateTriangles (m : MutableMesh) : Option Bool := m.validateFrom 0 m.triangleCount

/-- mutable_mesh.h:248-250, 313-318 `GetTriangle` -/
def getTriangle (m : MutableMesh) (i : Nat) :
    Option ((F32 × F32) × (F32 × F32) × (F32 × F32)) := do
  let t ← m.triangleIndices i
  let a ← m.vertexPosition t.1
  let b ← m.vertexPosition t.2.1
  let c ← m.vertexPosition t.2.2
  some (a, b, c)

end MutableMesh

/-! ## Programs -/

/-- The calls that change a `MutableMesh`. -/
inductive MeshOp
  | appendVertex (x y : F32)
  | setVertexPosition (i : Nat) (x y : F32)
  | setFloatVertexAttribute (i j : Nat) (v : List F32)
  | appendTriangleIndices (t : Tri)
  | setTriangleIndices (i : Nat) (t : Tri)
  | insertTriangleIndices (i : Nat) (t : Tri)
  | resize (nv nt : Nat)
  | clear
  | reset (attrs : List (AttrType × AttrId)) (ixf : IndexFormat)

/-- One call. `Reset` is given a format made with `MeshFormat::Create`. -/
def MutableMesh.step (m : MutableMesh) : MeshOp → Option MutableMesh
  | .appendVertex x y => m.appendVertex x y
  | .setVertexPosition i x y => m.setVertexPosition i x y
  | .setFloatVertexAttribute i j v => m.setFloatVertexAttribute i j v
  | .appendTriangleIndices t => m.appendTriangleIndices t
  | .setTriangleIndices i t => m.setTriangleIndices i t
  | .insertTriangleIndices i t => m.insertTriangleIndices i t
  | .resize nv nt => some (m.resize nv nt)
  | .clear => some m.clear
  | .reset attrs ixf => (create attrs ixf).bind m.reset

/-- A sequence of calls. -/
def MutableMesh.run (m : MutableMesh) : List MeshOp → Option MutableMesh
  | [] => some m
  | op :: ops => (m.step op).bind (·.run ops)

end Verif.Mesh
