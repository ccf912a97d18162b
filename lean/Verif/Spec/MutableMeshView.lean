import Verif.Model.MutableMeshView
import Verif.Spec.MutableMesh

/-!
# Specification for C37: lists of vertices and triangles which remember what was changed

After the documentation in `ink/strokes/internal/brush_tip_extruder/mutable_mesh_view.h`. Each vertex and triangle has a mark
which says whether it is new or was updated since the last reset. `none` means that the caller broke a documented condition
or that there are too many elements.
-/

set_option autoImplicit false

namespace Verif.View.Spec

open Verif Verif.Mesh

/-- What a view refers to: vectors of legacy vertices, or a mesh with indices of 2 or 4 bytes. -/
inductive Kind where
  | legacy
  | mesh (ixf : IndexFormat)

structure State where
  kind : Kind
  vertices : List (ExtrudedVertex × Bool) := []
  triangles : List (Tri × Bool) := []

/-- The values a vertex keeps: in legacy vectors only those of a legacy vertex; in a mesh the position and the other
attributes, with the shifts of colours clamped to [-1, 1]. All else is zero. -/
def kept : Kind → ExtrudedVertex → ExtrudedVertex
  | .legacy, v => { v with attributes := {} }
  | .mesh _, v =>
    { position := v.position
      attributes := { v.attributes with
        opacity := F32.clamp v.attributes.opacity (F32.ofInt (-1)) (F32.ofInt 1)
        hue := F32.clamp v.attributes.hue (F32.ofInt (-1)) (F32.ofInt 1)
        saturation := F32.clamp v.attributes.saturation (F32.ofInt (-1)) (F32.ofInt 1)
        luminosity := F32.clamp v.attributes.luminosity (F32.ofInt (-1)) (F32.ofInt 1) } }

/-- The limit for the number of triangles: `uint32_t`, for three times their number in legacy vectors. -/
def maxTriangles : Kind → Nat
  | .legacy => 1431655766
  | .mesh _ => 4294967296

/-- Indices are `uint32_t`, or 16 bits if the mesh has such indices. -/
def indexLimit : Kind → Nat
  | .mesh .unpacked16 => 65536
  | _ => 4294967296

def Fits (k : Kind) (t : Tri) : Prop := t.1 < indexLimit k ∧ t.2.1 < indexLimit k ∧ t.2.2 < indexLimit k

instance (k : Kind) (t : Tri) : Decidable (Fits k t) := by unfold Fits; infer_instance

/-- Updates attributes of a vertex; legacy vertices have none. -/
def State.update (s : State) (i : Nat) (f : Attributes → Attributes) : Option State :=
  if i < s.vertices.length then
    match s.kind with
    | .legacy => some s
    | .mesh _ => some { s with vertices := s.vertices.modify i fun v => ({ v.1 with attributes := f v.1.attributes }, true) }
  else none

/-- The first `n` elements, filled up with marked zeros. -/
def pad {α : Type} (n : Nat) (zero : α) (l : List (α × Bool)) : List (α × Bool) :=
  l.take n ++ List.replicate (n - l.length) (zero, true)

def State.step (s : State) : Op → Option State
  | .appendVertex w =>
    if s.vertices.length + 1 < 4294967296 then some { s with vertices := s.vertices ++ [(kept s.kind w, true)] } else none
  | .appendTriangleIndices t =>
    if s.triangles.length + 1 < maxTriangles s.kind ∧ Fits s.kind t then
      some { s with triangles := s.triangles ++ [(t, true)] } else none
  | .setVertex i w =>
    if i < s.vertices.length then some { s with vertices := s.vertices.set i (kept s.kind w, true) } else none
  | .setSideDerivative i d => s.update i fun a => { a with sideDerivative := d }
  | .setForwardDerivative i d => s.update i fun a => { a with forwardDerivative := d }
  | .setSideLabel i l => s.update i fun a => { a with sideLabel := l }
  | .setForwardLabel i l => s.update i fun a => { a with forwardLabel := l }
  | .setTriangleIndices i t =>
    if i < s.triangles.length ∧ Fits s.kind t then some { s with triangles := s.triangles.set i (t, true) } else none
  | .insertTriangleIndices i t =>
    if i ≤ s.triangles.length ∧ s.triangles.length + 1 < maxTriangles s.kind ∧ Fits s.kind t then
      some { s with triangles := s.triangles.take i ++ (t, true) :: s.triangles.drop i } else none
  | .resize nv nt =>
    if nv < 4294967296 ∧ nt < maxTriangles s.kind then
      some { s with vertices := pad nv {} s.vertices, triangles := pad nt (0, 0, 0) s.triangles } else none
  | .resetMutationTracking =>
    some { s with vertices := s.vertices.map fun v => (v.1, false), triangles := s.triangles.map fun t => (t.1, false) }

def State.run (s : State) : List Op → Option State
  | [] => some s
  | op :: ops => (s.step op).bind (·.run ops)

/-- The index of the first marked element, or the number of elements if there is none. -/
def firstMarked {α : Type} (l : List (α × Bool)) : Nat := l.findIdx (·.2)

/-- What all queries of a view have to return. -/
structure Shows (v : View) (s : State) : Prop where
  vertexCount : v.vertexCount = some s.vertices.length
  triangleCount : v.triangleCount = some s.triangles.length
  position : ∀ i : Nat, v.getPosition i = s.vertices[i]?.map (·.1.position)
  vertex : ∀ i : Nat, v.getVertex i = s.vertices[i]?.map (·.1)
  sideDerivative : ∀ i : Nat, v.getSideDerivative i = s.vertices[i]?.map (·.1.attributes.sideDerivative)
  forwardDerivative : ∀ i : Nat, v.getForwardDerivative i = s.vertices[i]?.map (·.1.attributes.forwardDerivative)
  sideLabel : ∀ i : Nat, v.getSideLabel i = s.vertices[i]?.map (·.1.attributes.sideLabel)
  forwardLabel : ∀ i : Nat, v.getForwardLabel i = s.vertices[i]?.map (·.1.attributes.forwardLabel)
  indices : ∀ t : Nat, v.getTriangleIndices t = s.triangles[t]?.map (·.1)
  index : ∀ t : Nat, v.getVertexIndex t 0 = s.triangles[t]?.map (·.1.1) ∧
    v.getVertexIndex t 1 = s.triangles[t]?.map (·.1.2.1) ∧ v.getVertexIndex t 2 = s.triangles[t]?.map (·.1.2.2)
  triangle : ∀ t : Nat, v.getTriangle t = s.triangles[t]?.bind fun i => do
    let a ← s.vertices[i.1.1]?
    let b ← s.vertices[i.1.2.1]?
    let c ← s.vertices[i.1.2.2]?
    some (a.1.position, b.1.position, c.1.position)
  firstVertex : v.firstMutatedVertex = firstMarked s.vertices
  firstTriangle : v.firstMutatedTriangle = firstMarked s.triangles

/-- A vertex of a mesh with the attributes of a stroke, from its list of values. -/
def vertexOf : Mesh.Spec.Vertex → ExtrudedVertex
  | [[px, py], [o], [h, s, l], [sx, sy], [sl], [fx, fy], [fl], [u, v]] =>
    { position := ⟨px, py⟩, attributes := ⟨o, h, s, l, ⟨sx, sy⟩, ⟨sl⟩, ⟨fx, fy⟩, ⟨fl⟩, ⟨u, v⟩⟩ }
  | _ => {}

/-- What a new view of a mesh shows. -/
def ofMesh (s : Mesh.Spec.MeshState) : State :=
  { kind := .mesh s.ixf, vertices := s.vertices.map fun v => (vertexOf v, false),
    triangles := s.triangles.map fun t => (t, false) }

/-- What a new view of vectors shows. -/
def ofVectors (vs : List LegacyVertex) (ts : List Tri) : State :=
  { kind := .legacy, vertices := vs.map fun v => (ExtrudedVertex.fromLegacy v, false), triangles := ts.map fun t => (t, false) }

/-- `v` is a new view which shows `s`: of a mesh with any history, or of vectors. -/
inductive New : View → State → Prop
  | mesh {attrs : List (AttrType × AttrId)} {ixf : IndexFormat} {f : MeshFormat} {ops : List MeshOp} {ms : Mesh.Spec.MeshState}
      {m : MutableMesh} {v : View} (hf : create attrs ixf = some f)
      (hs : Mesh.Spec.MeshState.run { attrs := attrs, ixf := ixf } ops = some ms)
      (hm : (MutableMesh.new f).bind (·.run ops) = some m) (hv : View.ofMesh m = some v) : New v (ofMesh ms)
  | vectors {vs : List LegacyVertex} {ts : List Tri} {v : View} (h : vs.length < 4294967296) (ht : ts.length < maxTriangles .legacy)
      (hv : View.ofVectors vs (ts.flatMap fun t => [t.1, t.2.1, t.2.2]) = some v) : New v (ofVectors vs ts)

end Verif.View.Spec
