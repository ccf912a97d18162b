import Verif.Model.PartitionedMesh
import Verif.Model.AsMeshes

/-!
# Model of `PartitionedMesh::FromMutableMeshGroups`

From `ink/geometry/partitioned_mesh.cc:62-181`. `none` is a failed check or undefined behaviour,
`some none` an error status, `some (some x)` is success. The outer vectors are reserved before the loop,
so the spans that are passed on stay valid; they are lists here. Outlines have fewer than `2^32` points
and groups fewer than `2^32` outlines: the loops with a `uint32_t` counter (partitioned_mesh.cc:101-110)
do not end otherwise.
-/

set_option autoImplicit false

namespace Verif.PMesh

open Verif.Mesh

/-- partitioned_mesh.h:84-96 `MutableMeshGroup` -/
structure MutableMeshGroup where
  mesh : MutableMesh
  outlines : List (List Nat) := []
  omitted : List AttrId := []
  params : List (Option (List Coding)) := []

/-- `flat_hash_map::insert`, which keeps the value of a key that is present. -/
def mapInsert (map : List (Nat × VertexIndexPair)) (k : Nat) (v : VertexIndexPair) :
    List (Nat × VertexIndexPair) :=
  if (map.lookup k).isSome then map else map ++ [(k, v)]

/-- partitioned_mesh.cc:135-149, the loops that fill `partition_map`. -/
def partitionMap (ps : List PartitionInfo) : List (Nat × VertexIndexPair) :=
  ps.zipIdx.foldl (fun map pi => pi.1.vertices.zipIdx.foldl
    (fun map vi => mapInsert map vi.1 ⟨u16 pi.2, u16 vi.2⟩) map) []

/-- partitioned_mesh.cc:151-163, one outline. -/
def partitionOutline (map : List (Nat × VertexIndexPair)) (o : List Nat) : List VertexIndexPair :=
  o.filterMap fun v => map.lookup v

/-- partitioned_mesh.cc:128-164, the outlines of a group. -/
def partitionOutlines (g : MutableMeshGroup) : Option (List (List VertexIndexPair)) :=
  if g.outlines.isEmpty then some []
  else (partitionTriangles g.mesh.indexData g.mesh.format.indexFormat 65536).map fun ps =>
    (g.outlines.filter fun o => !o.isEmpty).map (partitionOutline (partitionMap ps))

/-- partitioned_mesh.cc:92-178, one group. -/
def convertGroup (g : MutableMeshGroup) : Option (Option MeshGroup) :=
  if g.outlines.any fun o => o.any fun v => decide (g.mesh.vertexCount ≤ v) then some none
  else
    (asMeshes g.mesh g.params g.omitted).bind fun r =>
      match r with
      | none => some none
      | some ms => (partitionOutlines g).map fun os => some ⟨ms, os⟩

/-- partitioned_mesh.cc:92-179, the loop over the groups. -/
def convertGroups : List MutableMeshGroup → Option (Option (List MeshGroup))
  | [] => some (some [])
  | g :: gs =>
    (convertGroup g).bind fun r =>
      match r with
      | none => some none
      | some x => (convertGroups gs).map fun rest => rest.map fun xs => x :: xs

/-- partitioned_mesh.cc:76-181 `FromMutableMeshGroups` -/
def PartitionedMesh.fromMutableMeshGroups (gs : List MutableMeshGroup) :
    Option (Option PartitionedMesh) :=
  (convertGroups gs).map fun r => r.bind PartitionedMesh.fromMeshGroups

/-- partitioned_mesh.cc:62-74 `FromMutableMesh` -/
def PartitionedMesh.fromMutableMesh (mesh : MutableMesh) (outlines : List (List Nat))
    (omitted : List AttrId) (params : List (Option (List Coding))) : Option (Option PartitionedMesh) :=
  PartitionedMesh.fromMutableMeshGroups [⟨mesh, outlines, omitted, params⟩]

end Verif.PMesh
