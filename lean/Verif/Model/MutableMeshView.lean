import Verif.Model.MutableMesh
import Verif.Model.StrokeVertex
import Verif.Model.Rect

/-!
# Model of `MutableMeshView` and of stroke vertices in a `MutableMesh`

From `ink/strokes/internal/brush_tip_extruder/mutable_mesh_view.{h,cc}`, `extruded_vertex.h` and
`ink/strokes/internal/stroke_vertex.{h,cc}`. `none` is a failed check, an access outside an array or the exception of
`std::get`. Debug checks are not modelled. A view has the contents of the mesh or vectors it refers to: nothing else changes
them while it is in use.
-/

set_option autoImplicit false

namespace Verif.View

open Verif Verif.Mesh

/-- stroke_vertex.h:110-136 `NonPositionAttributes`; labels by their encoded value. A `Vec` is a point. -/
structure Attributes where
  opacity : F32 := F32.zero
  hue : F32 := F32.zero
  saturation : F32 := F32.zero
  luminosity : F32 := F32.zero
  sideDerivative : PointF := ⟨F32.zero, F32.zero⟩
  sideLabel : Vertex.Label := Vertex.interiorLabel
  forwardDerivative : PointF := ⟨F32.zero, F32.zero⟩
  forwardLabel : Vertex.Label := Vertex.interiorLabel
  surfaceUv : PointF := ⟨F32.zero, F32.zero⟩
  deriving DecidableEq

/-- stroke_vertex.h:36-217 `StrokeVertex` -/
structure StrokeVertex where
  position : PointF
  attributes : Attributes
  deriving DecidableEq

/-- stroke_vertex.cc:188-225 the arguments of `MeshFormat::Create` in `MakeValidatedFullFormat`. -/
def fullAttrs : List (AttrType × AttrId) :=
  [(.f2In3Bytes, 0), (.f1In1Byte, 2), (.f3In4Bytes, 1), (.f2In3Bytes, 4), (.f1In1Byte, 5), (.f2In3Bytes, 6), (.f1In1Byte, 7),
   (.f2In4Bytes, 8)]

/-- stroke_vertex.cc:229-235 `FullMeshFormat` -/
def fullFormat : Option MeshFormat := create fullAttrs .unpacked32

/-- The memory of a `StrokeVertex` as floats. -/
def strokeVertexOfFloats : List F32 → Option StrokeVertex
  | [px, py, o, h, s, l, sx, sy, sl, fx, fy, fl, u, v] =>
    some ⟨⟨px, py⟩, ⟨o, h, s, l, ⟨sx, sy⟩, ⟨sl⟩, ⟨fx, fy⟩, ⟨fl⟩, ⟨u, v⟩⟩⟩
  | _ => none

/-- stroke_vertex.cc:272-280 `GetFromMesh`; `sizeof(StrokeVertex)` is 56. -/
def getFromMesh (m : MutableMesh) (i : Nat) : Option StrokeVertex := do
  let bs ← readBytes (i * 56) 56 m.vertexData
  let fs ← floatsOfBytes 14 bs
  strokeVertexOfFloats fs

/-- stroke_vertex.cc:306-334 `SetNonPositionAttributes`; the indices of the attributes are those of
`kFullFormatAttributeIndices` (stroke_vertex.h:159-168). -/
def setNonPositionAttributes (m : MutableMesh) (i : Nat) (a : Attributes) : Option MutableMesh := do
  let m ← m.setFloatVertexAttribute i 1 [Vertex.storedShift a.opacity]
  let m ← m.setFloatVertexAttribute i 2 [Vertex.storedShift a.hue, Vertex.storedShift a.saturation,
    Vertex.storedShift a.luminosity]
  let m ← m.setFloatVertexAttribute i 3 [a.sideDerivative.x, a.sideDerivative.y]
  let m ← m.setFloatVertexAttribute i 4 [a.sideLabel.encoded]
  let m ← m.setFloatVertexAttribute i 5 [a.forwardDerivative.x, a.forwardDerivative.y]
  let m ← m.setFloatVertexAttribute i 6 [a.forwardLabel.encoded]
  m.setFloatVertexAttribute i 7 [a.surfaceUv.x, a.surfaceUv.y]

/-- stroke_vertex.cc:339-345 `AppendToMesh` -/
def appendToMesh (m : MutableMesh) (v : StrokeVertex) : Option MutableMesh := do
  let m ← m.appendVertex v.position.x v.position.y
  setNonPositionAttributes m (u32 (m.vertexCount + 4294967295)) v.attributes

/-- stroke_vertex.cc:347-353 `SetInMesh` -/
def setInMesh (m : MutableMesh) (i : Nat) (v : StrokeVertex) : Option MutableMesh := do
  let m ← m.setVertexPosition i v.position.x v.position.y
  setNonPositionAttributes m i v.attributes

/-- legacy_vertex.h:23-31 `LegacyVertex` -/
structure LegacyVertex where
  position : PointF := ⟨F32.zero, F32.zero⟩
  r : F32 := F32.zero
  g : F32 := F32.zero
  b : F32 := F32.zero
  a : F32 := F32.zero
  textureCoords : PointF := ⟨F32.zero, F32.zero⟩
  secondaryTextureCoords : PointF := ⟨F32.zero, F32.zero⟩
  deriving DecidableEq

/-- extruded_vertex.h:29-43 `ExtrudedVertex` -/
structure ExtrudedVertex where
  position : PointF := ⟨F32.zero, F32.zero⟩
  attributes : Attributes := {}
  r : F32 := F32.zero
  g : F32 := F32.zero
  b : F32 := F32.zero
  a : F32 := F32.zero
  textureCoords : PointF := ⟨F32.zero, F32.zero⟩
  secondaryTextureCoords : PointF := ⟨F32.zero, F32.zero⟩
  deriving DecidableEq

/-- extruded_vertex.h:78-85 `FromLegacy` -/
def ExtrudedVertex.fromLegacy (v : LegacyVertex) : ExtrudedVertex :=
  { position := v.position, r := v.r, g := v.g, b := v.b, a := v.a, textureCoords := v.textureCoords,
    secondaryTextureCoords := v.secondaryTextureCoords }

/-- extruded_vertex.h:87-92 `ToLegacy` -/
def ExtrudedVertex.toLegacy (v : ExtrudedVertex) : LegacyVertex :=
  { position := v.position, r := v.r, g := v.g, b := v.b, a := v.a, textureCoords := v.textureCoords,
    secondaryTextureCoords := v.secondaryTextureCoords }

/-- mutable_mesh_view.h:174-179 `data_`: what it refers to. -/
inductive Data where
  | none
  | legacy (vertices : List LegacyVertex) (indices : List Nat)
  | mesh (m : MutableMesh)

/-- mutable_mesh_view.h:179-181, the data members. -/
structure View where
  data : Data := .none
  firstMutatedTriangle : Nat := 0
  firstMutatedVertex : Nat := 0

/-- `std::vector::resize` -/
def resizeVec {α : Type} (n : Nat) (d : α) (l : List α) : List α := l.take n ++ List.replicate (n - l.length) d

/-- Three elements of an array, from `k` on. -/
def three (l : List Nat) (k : Nat) : Option Tri := do
  let a ← l[k]?
  let b ← l[k + 1]?
  let c ← l[k + 2]?
  some (a, b, c)

namespace View

/-- mutable_mesh_view.cc:50-58 `VertexCount` -/
def vertexCount (v : View) : Option Nat :=
  match v.data with
  | .none => none
  | .legacy vs _ => some (u32 vs.length)
  | .mesh m => some m.vertexCount

/-- mutable_mesh_view.cc:60-69 `TriangleCount` -/
def triangleCount (v : View) : Option Nat :=
  match v.data with
  | .none => none
  | .legacy _ is => some (u32 (is.length / 3))
  | .mesh m => some m.triangleCount

/-- mutable_mesh_view.cc:280-283 `ResetMutationTracking` -/
def resetMutationTracking (v : View) : Option View := do
  let n ← v.vertexCount
  let k ← v.triangleCount
  some { v with firstMutatedVertex := n, firstMutatedTriangle := k }

/-- mutable_mesh_view.cc:37-41 the constructor from a mesh -/
def ofMesh (m : MutableMesh) : Option View := do
  let f ← fullFormat
  if isUnpackedEquivalent m.format f then resetMutationTracking { data := .mesh m } else none

/-- mutable_mesh_view.cc:43-48 the constructor from vectors -/
def ofVectors (vs : List LegacyVertex) (is : List Nat) : Option View := resetMutationTracking { data := .legacy vs is }

/-- `ABSL_CHECK_LT(index, VertexCount())` -/
def checkVertex (v : View) (i : Nat) : Option Unit := do
  let n ← v.vertexCount
  if i < n then some () else none

/-- `ABSL_CHECK_LT(triangle, TriangleCount())` -/
def checkTriangle (v : View) (i : Nat) : Option Unit := do
  let n ← v.triangleCount
  if i < n then some () else none

/-- mutable_mesh_view.cc:71-77 `GetPosition` -/
def getPosition (v : View) (i : Nat) : Option PointF := do
  v.checkVertex i
  match v.data with
  | .none => none
  | .legacy vs _ => vs[i]?.map (·.position)
  | .mesh m => (m.vertexPosition i).map fun p => ⟨p.1, p.2⟩

/-- mutable_mesh_view.cc:79-89 `GetVertex` -/
def getVertex (v : View) (i : Nat) : Option ExtrudedVertex := do
  v.checkVertex i
  match v.data with
  | .none => none
  | .legacy vs _ => vs[i]?.map ExtrudedVertex.fromLegacy
  | .mesh m => (getFromMesh m i).map fun w => { position := w.position, attributes := w.attributes }

/-- mutable_mesh_view.cc:91-98 `GetSideDerivative` -/
def getSideDerivative (v : View) (i : Nat) : Option PointF := do
  v.checkVertex i
  match v.data with
  | .mesh m => (getFromMesh m i).map (·.attributes.sideDerivative)
  | _ => some ⟨F32.zero, F32.zero⟩

/-- mutable_mesh_view.cc:100-107 `GetForwardDerivative` -/
def getForwardDerivative (v : View) (i : Nat) : Option PointF := do
  v.checkVertex i
  match v.data with
  | .mesh m => (getFromMesh m i).map (·.attributes.forwardDerivative)
  | _ => some ⟨F32.zero, F32.zero⟩

/-- mutable_mesh_view.cc:109-116 `GetSideLabel` -/
def getSideLabel (v : View) (i : Nat) : Option Vertex.Label := do
  v.checkVertex i
  match v.data with
  | .mesh m => (getFromMesh m i).map (·.attributes.sideLabel)
  | _ => some Vertex.interiorLabel

/-- mutable_mesh_view.cc:118-125 `GetForwardLabel` -/
def getForwardLabel (v : View) (i : Nat) : Option Vertex.Label := do
  v.checkVertex i
  match v.data with
  | .mesh m => (getFromMesh m i).map (·.attributes.forwardLabel)
  | _ => some Vertex.interiorLabel

/-- mutable_mesh_view.cc:139-148 `GetTriangleIndices`; `3 * triangle` is computed in `uint32_t`. -/
def getTriangleIndices (v : View) (t : Nat) : Option Tri := do
  v.checkTriangle t
  match v.data with
  | .none => none
  | .legacy _ is => three is (u32 (3 * t))
  | .mesh m => m.triangleIndices t

/-- mutable_mesh_view.cc:127-137 `GetTriangle` -/
def getTriangle (v : View) (t : Nat) : Option (PointF × PointF × PointF) := do
  v.checkTriangle t
  match v.data with
  | .none => none
  | .legacy _ _ =>
    let i ← v.getTriangleIndices t
    let a ← v.getPosition i.1
    let b ← v.getPosition i.2.1
    let c ← v.getPosition i.2.2
    some (a, b, c)
  | .mesh m => (m.getTriangle t).map fun p => (⟨p.1.1, p.1.2⟩, ⟨p.2.1.1, p.2.1.2⟩, ⟨p.2.2.1, p.2.2.2⟩)

/-- `std::array::operator[]` -/
def component (t : Tri) : Nat → Option Nat
  | 0 => some t.1
  | 1 => some t.2.1
  | 2 => some t.2.2
  | _ => none

/-- mutable_mesh_view.cc:150-160 `GetVertexIndex` -/
def getVertexIndex (v : View) (t k : Nat) : Option Nat := do
  v.checkTriangle t
  if k < 3 then
    match v.data with
    | .none => none
    | .legacy _ is => is[u32 (3 * t + k)]?
    | .mesh m => (m.triangleIndices t).bind fun i => component i k
  else none

/-- mutable_mesh_view.cc:162-172 `AppendVertex` -/
def appendVertex (v : View) (w : ExtrudedVertex) : Option View :=
  match v.data with
  | .none => none
  | .legacy vs is => some { v with data := .legacy (vs ++ [w.toLegacy]) is }
  | .mesh m => (appendToMesh m ⟨w.position, w.attributes⟩).map fun m => { v with data := .mesh m }

/-- mutable_mesh_view.cc:174-183 `AppendTriangleIndices` -/
def appendTriangleIndices (v : View) (t : Tri) : Option View :=
  match v.data with
  | .none => none
  | .legacy vs is => some { v with data := .legacy vs (is ++ [t.1, t.2.1, t.2.2]) }
  | .mesh m => (m.appendTriangleIndices t).map fun m => { v with data := .mesh m }

/-- The last line of the setters of vertices. -/
def touchVertex (v : View) (i : Nat) (d : Data) : View :=
  { v with data := d, firstMutatedVertex := min v.firstMutatedVertex i }

/-- The last line of the setters of triangles. -/
def touchTriangle (v : View) (i : Nat) (d : Data) : View :=
  { v with data := d, firstMutatedTriangle := min v.firstMutatedTriangle i }

/-- mutable_mesh_view.cc:185-196 `SetVertex` -/
def setVertex (v : View) (i : Nat) (w : ExtrudedVertex) : Option View := do
  v.checkVertex i
  match v.data with
  | .none => none
  | .legacy vs is => some (v.touchVertex i (.legacy (vs.set i w.toLegacy) is))
  | .mesh m => (setInMesh m i ⟨w.position, w.attributes⟩).map fun m => v.touchVertex i (.mesh m)

/-- mutable_mesh_view.cc:198-205 `SetSideDerivative`, stroke_vertex.cc:355-362 -/
def setSideDerivative (v : View) (i : Nat) (d : PointF) : Option View := do
  v.checkVertex i
  match v.data with
  | .none => none
  | .legacy _ _ => some v
  | .mesh m => (m.setFloatVertexAttribute i 3 [d.x, d.y]).map fun m => v.touchVertex i (.mesh m)

/-- mutable_mesh_view.cc:207-214 `SetForwardDerivative`, stroke_vertex.cc:364-371 -/
def setForwardDerivative (v : View) (i : Nat) (d : PointF) : Option View := do
  v.checkVertex i
  match v.data with
  | .none => none
  | .legacy _ _ => some v
  | .mesh m => (m.setFloatVertexAttribute i 5 [d.x, d.y]).map fun m => v.touchVertex i (.mesh m)

/-- mutable_mesh_view.cc:216-224 `SetSideLabel`, stroke_vertex.cc:373-380 -/
def setSideLabel (v : View) (i : Nat) (l : Vertex.Label) : Option View := do
  v.checkVertex i
  match v.data with
  | .none => none
  | .legacy _ _ => some v
  | .mesh m => (m.setFloatVertexAttribute i 4 [l.encoded]).map fun m => v.touchVertex i (.mesh m)

/-- mutable_mesh_view.cc:226-234 `SetForwardLabel`, stroke_vertex.cc:382-389 -/
def setForwardLabel (v : View) (i : Nat) (l : Vertex.Label) : Option View := do
  v.checkVertex i
  match v.data with
  | .none => none
  | .legacy _ _ => some v
  | .mesh m => (m.setFloatVertexAttribute i 6 [l.encoded]).map fun m => v.touchVertex i (.mesh m)

/-- mutable_mesh_view.cc:236-248 `SetTriangleIndices` -/
def setTriangleIndices (v : View) (i : Nat) (t : Tri) : Option View := do
  v.checkTriangle i
  match v.data with
  | .none => none
  | .legacy vs is =>
    let k := u32 (3 * i)
    if k + 3 ≤ is.length then
      some (v.touchTriangle i (.legacy vs (is.take k ++ [t.1, t.2.1, t.2.2] ++ is.drop (k + 3))))
    else none
  | .mesh m => (m.setTriangleIndices i t).map fun m => v.touchTriangle i (.mesh m)

/-- mutable_mesh_view.cc:250-261 `InsertTriangleIndices` -/
def insertTriangleIndices (v : View) (i : Nat) (t : Tri) : Option View := do
  let n ← v.triangleCount
  if i ≤ n then
    match v.data with
    | .none => none
    | .legacy vs is =>
      let k := u32 (3 * i)
      if k ≤ is.length then some (v.touchTriangle i (.legacy vs (is.take k ++ [t.1, t.2.1, t.2.2] ++ is.drop k)))
      else none
    | .mesh m => (m.insertTriangleIndices i t).map fun m => v.touchTriangle i (.mesh m)
  else none

/-- mutable_mesh_view.cc:263-275 `Resize` -/
def resize (v : View) (nv nt : Nat) : Option View :=
  match v.data with
  | .none => none
  | .legacy vs is =>
    some { data := .legacy (resizeVec nv {} vs) (resizeVec (u32 (3 * nt)) 0 is),
           firstMutatedVertex := min v.firstMutatedVertex nv, firstMutatedTriangle := min v.firstMutatedTriangle nt }
  | .mesh m =>
    some { data := .mesh (m.resize nv nt),
           firstMutatedVertex := min v.firstMutatedVertex nv, firstMutatedTriangle := min v.firstMutatedTriangle nt }

end View

/-- The calls that change a view. -/
inductive Op where
  | appendVertex (w : ExtrudedVertex)
  | appendTriangleIndices (t : Tri)
  | setVertex (i : Nat) (w : ExtrudedVertex)
  | setSideDerivative (i : Nat) (d : PointF)
  | setForwardDerivative (i : Nat) (d : PointF)
  | setSideLabel (i : Nat) (l : Vertex.Label)
  | setForwardLabel (i : Nat) (l : Vertex.Label)
  | setTriangleIndices (i : Nat) (t : Tri)
  | insertTriangleIndices (i : Nat) (t : Tri)
  | resize (nv nt : Nat)
  | resetMutationTracking

/-- One call. -/
def View.step (v : View) : Op → Option View
  | .appendVertex w => v.appendVertex w
  | .appendTriangleIndices t => v.appendTriangleIndices t
  | .setVertex i w => v.setVertex i w
  | .setSideDerivative i d => v.setSideDerivative i d
  | .setForwardDerivative i d => v.setForwardDerivative i d
  | .setSideLabel i l => v.setSideLabel i l
  | .setForwardLabel i l => v.setForwardLabel i l
  | .setTriangleIndices i t => v.setTriangleIndices i t
  | .insertTriangleIndices i t => v.insertTriangleIndices i t
  | .resize nv nt => v.resize nv nt
  | .resetMutationTracking => v.resetMutationTracking

/-- A history of calls. -/
def View.run (v : View) : List Op → Option View
  | [] => some v
  | op :: ops => (v.step op).bind (·.run ops)

end Verif.View
