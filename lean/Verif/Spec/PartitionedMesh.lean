import Verif.Model.PartitionedMesh

/-!
# Which groups a `PartitionedMesh` can be made of

After `ink/geometry/partitioned_mesh.h:119-159`.
-/

set_option autoImplicit false

namespace Verif.PMeshSpec

open Verif.Mesh Verif.PMesh

/-- The same attributes in the same order, and the same index format. -/
def SameFormat (f g : MeshFormat) : Prop :=
  f.attributes.map (fun a => (a.type, a.id)) = g.attributes.map (fun a => (a.type, a.id)) ∧
    f.indexFormat = g.indexFormat

/-- A point of an outline refers to a vertex which exists. -/
def Designates (meshes : List Mesh) (p : VertexIndexPair) : Prop :=
  ∃ m, meshes[p.meshIndex]? = some m ∧ p.vertexIndex < m.vertexCount

/-- The documented requirements on a group. -/
structure GroupOk (g : MeshGroup) : Prop where
  nonempty : ∀ m ∈ g.meshes, m.triangleCount ≠ 0
  formats : ∀ m ∈ g.meshes, ∀ m' ∈ g.meshes, SameFormat m.format m'.format
  outlines : ∀ o ∈ g.outlines, o ≠ []
  points : ∀ o ∈ g.outlines, ∀ p ∈ o, Designates g.meshes p

/-- The number of meshes in all groups. -/
def totalMeshes (gs : List MeshGroup) : Nat := (gs.flatMap fun g => g.meshes).length

/-- The number of outlines in all groups. -/
def totalOutlines (gs : List MeshGroup) : Nat := (gs.flatMap fun g => g.outlines).length

/-- What a shape shows of the groups: everything below is what the caller gave, by the index of the group
and of the outline, and `none` (a failed check) if there is no such group, outline or point. -/
structure Shows (s : PartitionedMesh) (gs : List MeshGroup) : Prop where
  count : s.renderGroupCount = gs.length
  meshes : s.meshes = gs.flatMap fun g => g.meshes
  groupMeshes : ∀ i, s.renderGroupMeshes i = (gs[i]?).map fun g => g.meshes
  format : ∀ i g m, gs[i]? = some g → m ∈ g.meshes →
    ∃ f, s.renderGroupFormat i = some f ∧ SameFormat f m.format
  noFormat : ∀ i, gs[i]? = none → s.renderGroupFormat i = none
  defaultFormat : ∀ i g, gs[i]? = some g → g.meshes = [] →
    s.renderGroupFormat i = some MeshFormat.default
  outlineCount : ∀ i, s.outlineCount i = (gs[i]?).map fun g => g.outlines.length
  outline : ∀ i o, s.outline i o = (gs[i]?).bind fun g => g.outlines[o]?
  position : ∀ i o v, s.outlinePosition i o v = (gs[i]?).bind fun g => (g.outlines[o]?).bind fun pts =>
    (pts[v]?).bind fun p => (g.meshes[p.meshIndex]?).bind fun m => m.vertexPosition p.vertexIndex

end Verif.PMeshSpec
