import Verif.F32.Basic
import Verif.Spec.MeshFormat
import Verif.Model.MutableMesh

/-!
# What a `MutableMesh` is: a list of vertices and a list of triangles

A vertex is a list with one value per attribute, a value is a list of floats. Nothing here mentions
bytes, offsets or strides. `none` means that the caller broke a documented condition.
-/

set_option autoImplicit false

namespace Verif.Mesh.Spec

open Verif Verif.Mesh

abbrev Vertex := List (List F32)

structure MeshState where
  attrs : List (AttrType × AttrId)
  ixf : IndexFormat
  vertices : List Vertex := []
  triangles : List (Nat × Nat × Nat) := []

/-- Every attribute zero. -/
def zeroVertex (attrs : List (AttrType × AttrId)) : Vertex :=
  attrs.map fun a => List.replicate (components a.1) F32.zero

/-- The vertex with its position replaced: the position is the attribute with ID `kPosition` (0). -/
def withPosition (attrs : List (AttrType × AttrId)) (v : Vertex) (x y : F32) : Vertex :=
  List.zipWith (fun a value => if a.2 = 0 then [x, y] else value) attrs v

/-- The position of a vertex. -/
def positionOf (attrs : List (AttrType × AttrId)) (v : Vertex) : Option (F32 × F32) :=
  match (attrs.zip v).find? (fun p => p.1.2 = 0) with
  | some (_, [x, y]) => some (x, y)
  | _ => none

/-- The indices can be written with the index format: below 2^16 or 2^32. -/
def IndicesFit (ixf : IndexFormat) (t : Nat × Nat × Nat) : Prop :=
  t.1 < 256 ^ indexBytes ixf ∧ t.2.1 < 256 ^ indexBytes ixf ∧ t.2.2 < 256 ^ indexBytes ixf

instance (ixf : IndexFormat) (t : Nat × Nat × Nat) : Decidable (IndicesFit ixf t) := by
  unfold IndicesFit; infer_instance

/-- The first `n` elements, filled up with `d`. -/
def padTo {α : Type} (n : Nat) (d : α) (l : List α) : List α :=
  l.take n ++ List.replicate (n - l.length) d

/-- The number of vertices and triangles must be representable (`uint32_t`). -/
def maxCount : Nat := 4294967296

def MeshState.step (s : MeshState) : MeshOp → Option MeshState
  | .appendVertex x y =>
    if s.vertices.length + 1 < maxCount then
      some { s with vertices := s.vertices ++ [withPosition s.attrs (zeroVertex s.attrs) x y] }
    else none
  | .setVertexPosition i x y =>
    if i < s.vertices.length then
      some { s with vertices := s.vertices.modify i fun v => withPosition s.attrs v x y }
    else none
  | .setFloatVertexAttribute i j value =>
    if i < s.vertices.length ∧ s.attrs[j]?.map (fun a => components a.1) = some value.length then
      some { s with vertices := s.vertices.modify i fun v => v.set j value }
    else none
  | .appendTriangleIndices t =>
    if s.triangles.length + 1 < maxCount ∧ IndicesFit s.ixf t then
      some { s with triangles := s.triangles ++ [t] }
    else none
  | .setTriangleIndices i t =>
    if i < s.triangles.length ∧ IndicesFit s.ixf t then
      some { s with triangles := s.triangles.set i t }
    else none
  | .insertTriangleIndices i t =>
    if i ≤ s.triangles.length ∧ s.triangles.length + 1 < maxCount ∧ IndicesFit s.ixf t then
      some { s with triangles := s.triangles.take i ++ t :: s.triangles.drop i }
    else none
  | .resize nv nt =>
    if nv < maxCount ∧ nt < maxCount then
      some { s with
        vertices := padTo nv (zeroVertex s.attrs) s.vertices
        triangles := padTo nt (0, 0, 0) s.triangles }
    else none
  | .clear => some { s with vertices := [], triangles := [] }
  | .reset attrs ixf => if (create attrs ixf).isSome then some { attrs := attrs, ixf := ixf } else none

def MeshState.run (s : MeshState) : List MeshOp → Option MeshState
  | [] => some s
  | op :: ops => (s.step op).bind (·.run ops)

/-- All triangles refer to three different vertices that exist. -/
def TrianglesValid (s : MeshState) : Prop :=
  ∀ t ∈ s.triangles, t.1 < s.vertices.length ∧ t.2.1 < s.vertices.length ∧
    t.2.2 < s.vertices.length ∧ t.1 ≠ t.2.1 ∧ t.1 ≠ t.2.2 ∧ t.2.1 ≠ t.2.2

end Verif.Mesh.Spec
