import Verif.Spec.PartitionedMesh
import Verif.Spec.AsMeshes
import Verif.Model.MutableGroups

/-!
# What `PartitionedMesh::FromMutableMeshGroups` is supposed to build

After `ink/geometry/partitioned_mesh.h:111-137`.
-/

set_option autoImplicit false

namespace Verif.PMeshSpec

open Verif.Mesh Verif.Mesh.Spec Verif.PMesh

/-- The mutable mesh was made by a history of edits after which it is `s`. -/
def Built (m : MutableMesh) (s : MeshState) : Prop :=
  ∃ attrs ixf f ops, create attrs ixf = some f ∧
    MeshState.run { attrs := attrs, ixf := ixf } ops = some s ∧
    (MutableMesh.new f).bind (·.run ops) = some m

/-- The documented requirements on a group of which the mesh is `s`, and one that is not documented:
an outline that is not empty has a point which is a corner of a triangle. -/
structure MutableOk (g : MutableMeshGroup) (s : MeshState) : Prop where
  indices : ∀ o ∈ g.outlines, ∀ v ∈ o, v < s.vertices.length
  asMeshes : s.triangles ≠ [] → Accepted s g.params g.omitted
  used : ∀ o ∈ g.outlines, o ≠ [] → ∃ v ∈ o, v ∈ corners s.triangles

/-- The values are such that the mesh can be packed with the precision of C45. -/
def Fine (g : MutableMeshGroup) (s : MeshState) : Prop :=
  s.triangles ≠ [] → Accepted s g.params g.omitted → FinePositions s g.params g.omitted ∧
    ∀ (j : Nat) (a : AttrType × AttrId), (keptAttrs g.omitted s.attrs)[j]? = some a → IsPacked a.1 →
      NotGiven g.params j → ∀ (k b : Nat) (col : List F32), (bits a.1)[k]? = some b →
        (spansOf (keptAttrs g.omitted s.attrs) (usedSpans s g.omitted) j)[k]? = some col →
        Quantisable b col

/-- The point `p` of an outline is the vertex `v` of the mutable mesh; `parts` are the meshes with the
vertices each of them has. -/
def IsVertex (parts : List (List Nat × Mesh)) (v : Nat) (p : VertexIndexPair) : Prop :=
  ∃ x, parts[p.meshIndex]? = some x ∧ x.1[p.vertexIndex]? = some v

/-- The group `g'` of a shape is the group `g` of which the mesh is `s`, where `parts` are the meshes:
the meshes are those of C45; the outlines are those which are not empty, in order, each of them without
the vertices that no triangle refers to. (A shape cannot have more than 65535 meshes.) -/
structure GroupOf (g : MutableMeshGroup) (s : MeshState) (parts : List (List Nat × Mesh))
    (g' : MeshGroup) : Prop where
  meshes : g'.meshes = parts.map Prod.snd
  contents : s.triangles ≠ [] → ∃ moved, MeshesOf s g.params g.omitted moved parts
  empty : s.triangles = [] → parts = []
  outlines : parts.length ≤ 65536 → List.Forall₂ (fun o o' =>
      List.Forall₂ (IsVertex parts) (o.filter fun v => v ∈ corners s.triangles) o')
    (g.outlines.filter fun o => o ≠ []) g'.outlines

end Verif.PMeshSpec
