import Verif.Model.Mesh

/-!
# Model of `PartitionedMesh`: groups, meshes and outlines

From `ink/geometry/partitioned_mesh.{h,cc}`. `none` is a failed check or undefined behaviour, except for
`fromMeshGroups`, where it is an error status (the messages are not modelled). The data is immutable, so
the shared pointer is not modelled; a null pointer is `none` in `PartitionedMesh`. The lists which are
given have fewer than `2^32` outlines per group, and fewer than `2^32` points per outline: the loops with
a `uint32_t` counter (partitioned_mesh.cc:237-260) do not end otherwise.
-/

set_option autoImplicit false

namespace Verif.PMesh

open Verif.Mesh

/-- Conversion to `uint16_t`. -/
def u16 (n : Nat) : Nat := n % 65536

/-- partitioned_mesh.h:69-74 `VertexIndexPair` -/
structure VertexIndexPair where
  meshIndex : Nat
  vertexIndex : Nat
  deriving DecidableEq

/-- partitioned_mesh.h:99-104 `MeshGroup` -/
structure MeshGroup where
  meshes : List Mesh
  outlines : List (List VertexIndexPair)

/-- partitioned_mesh.h:347-409 `Data`, without the caches. -/
structure Data where
  meshes : List Mesh := []
  outlines : List (List VertexIndexPair) := []
  groupFirstMeshIndices : List Nat := []
  groupFirstOutlineIndices : List Nat := []
  groupFormats : List MeshFormat := []
  deriving DecidableEq

/-- partitioned_mesh.cc:215-229, one group: the format for the group, `none` for an error. -/
def groupFormat (g : MeshGroup) : Option MeshFormat :=
  match g.meshes with
  | [] => some MeshFormat.default
  | m :: ms => if ms.all fun m' => formatEq m'.format m.format then some m.format else none

/-- partitioned_mesh.cc:242-259, one point of an outline. -/
def pointOk (meshes : List Mesh) (p : VertexIndexPair) : Bool :=
  match meshes[p.meshIndex]? with
  | none => false
  | some m => decide (p.vertexIndex < m.vertexCount)

/-- partitioned_mesh.cc:237-260, one outline. -/
def outlineOk (meshes : List Mesh) (o : List VertexIndexPair) : Bool :=
  !o.isEmpty && o.all (pointOk meshes)

/-- partitioned_mesh.cc:214-261, one step of the first loop. -/
def checkGroup (g : MeshGroup) : Option MeshFormat :=
  (groupFormat g).bind fun f =>
    if g.meshes.any fun m => m.triangleCount == 0 then none
    else if !g.outlines.all (outlineOk g.meshes) then none
    else some f

/-- partitioned_mesh.cc:273-284, one step of the second loop. -/
def addGroup (d : Data) (g : MeshGroup) : Data :=
  let d := { d with groupFirstMeshIndices := d.groupFirstMeshIndices ++ [u16 d.meshes.length] }
  let d := { d with meshes := d.meshes ++ g.meshes }
  let d := { d with groupFirstOutlineIndices := d.groupFirstOutlineIndices ++ [u32 d.outlines.length] }
  { d with outlines := d.outlines ++ g.outlines }

/-- partitioned_mesh.cc:197-287 `Data::FromMeshGroups` -/
def Data.fromMeshGroups (gs : List MeshGroup) : Option Data :=
  if (gs.map fun g => g.meshes.length).sum > 65535 then none
  else (gs.mapM checkGroup).map fun formats => gs.foldl addGroup { groupFormats := formats }

/-- partitioned_mesh.h:490-492 `Data::RenderGroupCount` -/
def Data.renderGroupCount (d : Data) : Nat := u32 d.groupFirstMeshIndices.length

/-- partitioned_mesh.h:494-498 `Data::RenderGroupFormat` -/
def Data.renderGroupFormat (d : Data) (i : Nat) : Option MeshFormat :=
  if i < d.renderGroupCount then d.groupFormats[i]? else none

/-- `absl::Span::subspan` -/
def subspan {α : Type} (start len : Nat) (l : List α) : Option (List α) :=
  if start ≤ l.length then some ((l.drop start).take len) else none

/-- `end - start` of two `size_t`s. -/
def sizeSub (e s : Nat) : Nat := (e + 18446744073709551616 - s) % 18446744073709551616

/-- partitioned_mesh.h:504-506 and 518-520: where group `i` ends. The index `i + 1` is a `uint32_t`. -/
def groupEnd (first : List Nat) (i total : Nat) : Nat :=
  if u32 (i + 1) < first.length then first.getD (u32 (i + 1)) 0 else total

/-- partitioned_mesh.h:500-508 `Data::RenderGroupMeshes` -/
def Data.renderGroupMeshes (d : Data) (i : Nat) : Option (List Mesh) :=
  if i < d.renderGroupCount then (d.groupFirstMeshIndices[i]?).bind fun start =>
    subspan start (sizeSub (groupEnd d.groupFirstMeshIndices i d.meshes.length) start) d.meshes
  else none

/-- partitioned_mesh.h:514-522 `Data::Outlines` -/
def Data.outlinesOf (d : Data) (i : Nat) : Option (List (List VertexIndexPair)) :=
  if i < d.renderGroupCount then (d.groupFirstOutlineIndices[i]?).bind fun start =>
    subspan start (sizeSub (groupEnd d.groupFirstOutlineIndices i d.outlines.length) start) d.outlines
  else none

/-- partitioned_mesh.h:65, 415: the pointer to the data, which is null for an empty shape. -/
abbrev PartitionedMesh := Option Data

namespace PartitionedMesh

/-- partitioned_mesh.cc:190-195 `FromMeshGroups` -/
def fromMeshGroups (gs : List MeshGroup) : Option PartitionedMesh :=
  (Data.fromMeshGroups gs).map some

/-- partitioned_mesh.cc:183-188 `FromMeshes` -/
def fromMeshes (meshes : List Mesh) (outlines : List (List VertexIndexPair)) :
    Option PartitionedMesh :=
  fromMeshGroups [⟨meshes, outlines⟩]

/-- partitioned_mesh.cc:58-60 `WithEmptyGroups`; dereferencing an error status fails a check. -/
def withEmptyGroups (n : Nat) : Option PartitionedMesh :=
  fromMeshGroups (List.replicate n ⟨[], []⟩)

/-- partitioned_mesh.h:421-424 `RenderGroupCount` -/
def renderGroupCount (s : PartitionedMesh) : Nat :=
  match s with
  | none => 0
  | some d => d.renderGroupCount

/-- partitioned_mesh.h:426-432 `RenderGroupFormat` -/
def renderGroupFormat (s : PartitionedMesh) (i : Nat) : Option MeshFormat :=
  s.bind fun d => d.renderGroupFormat i

/-- partitioned_mesh.h:434-440 `RenderGroupMeshes` -/
def renderGroupMeshes (s : PartitionedMesh) (i : Nat) : Option (List Mesh) :=
  s.bind fun d => d.renderGroupMeshes i

/-- partitioned_mesh.h:442-445 `Meshes` -/
def meshes (s : PartitionedMesh) : List Mesh :=
  match s with
  | none => []
  | some d => d.meshes

/-- partitioned_mesh.h:447-452 `OutlineCount` -/
def outlineCount (s : PartitionedMesh) (i : Nat) : Option Nat :=
  s.bind fun d => (d.outlinesOf i).map fun os => u32 os.length

/-- partitioned_mesh.h:454-458 `Outline` -/
def outline (s : PartitionedMesh) (i o : Nat) : Option (List VertexIndexPair) :=
  (outlineCount s i).bind fun n =>
    if o < n then s.bind fun d => (d.outlinesOf i).bind fun os => os[o]? else none

/-- partitioned_mesh.h:460-469 `OutlinePosition` -/
def outlinePosition (s : PartitionedMesh) (i o v : Nat) : Option (F32 × F32) :=
  (outline s i o).bind fun pts =>
    if v < pts.length then (pts[v]?).bind fun p =>
      (renderGroupMeshes s i).bind fun ms => (ms[p.meshIndex]?).bind fun m =>
        m.vertexPosition p.vertexIndex
    else none

/-- partitioned_mesh.h:471-474 `OutlineVertexCount` -/
def outlineVertexCount (s : PartitionedMesh) (i o : Nat) : Option Nat :=
  (outline s i o).map fun pts => u32 pts.length

end PartitionedMesh

end Verif.PMesh
