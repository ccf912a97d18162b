import Mathlib.Data.Nat.Notation

/-!
# Model of the storage and the save point of the extruder's `Geometry`

From `ink/strokes/internal/brush_tip_extruder/geometry.{h,cc}` and `side.h`.

Everything that is changed and restored is modelled: the mesh, the tables of its vertices, both sides, the last extrusion
break, the save point, and the offsets of mutated outline indices. How the triangulation decides what to change is not: its
code changes these members only through the functions below (`AppendVertexToMesh`, `SetVertex`, `SetTriangleIndices`,
`AppendTriangleIndices`, `UpdateOppositeSideOffset`, the loop of `TryBeginIntersectionRetriangulation`, a new discontinuity,
and assignments to members of `Side` which are saved as a whole), so that it is any sequence of them (`Op`).

The mesh is the list of its vertices and of its triangles, which is what `MutableMeshView` is (C37). `V` is the type of
vertices, `X` holds the members of `Side` that are saved as a whole and not used here. Numbers are unbounded. `none` is a failed
CHECK or an access outside a vector. The envelope of removed geometry and the
mutated vertices are in `Model/StrokeUpdate.lean`.
-/

set_option autoImplicit false

namespace Verif.StrokeGeom

/-- side.h:40 -/
inductive SideId where
  | left
  | right
  deriving DecidableEq, Repr

/-- `std::array<IndexType, 3>` -/
abbrev Tri := Nat × Nat × Nat

/-- geometry.h:47-52 `SideInfo` -/
structure BreakSide where
  indexCount : Nat := 0
  discontinuityCount : Nat := 0
  deriving DecidableEq, Repr

/-- geometry.h:45-63 `GeometryLastExtrusionBreakMetadata` -/
structure Break where
  count : Nat := 0
  vertexCount : Nat := 0
  triangleCount : Nat := 0
  left : BreakSide := {}
  right : BreakSide := {}
  deriving DecidableEq, Repr

/-- The members of `Side` (side.h:110-157) that a save point copies. The first three are from `partition_start`; its other
members, `intersection` and `last_simplified_vertex_positions` are in `rest`. -/
structure SideState (V X : Type) where
  adjacentFirst : Nat
  oppositeFirst : Nat
  firstTriangle : Nat
  firstSimplifiable : Nat
  buffer : List V
  nextBuffered : Nat
  rest : X
  deriving DecidableEq, Repr

/-- side.h:110-157 `Side` -/
structure Side (V X : Type) where
  indices : List Nat
  discontinuities : List (Nat × Nat)
  state : SideState V X
  deriving DecidableEq, Repr

/-- geometry.h:68-93 `SideState` -/
structure SaveSide (V X : Type) where
  nIndices : Nat
  nDiscontinuities : Nat
  savedIndices : List Nat
  savedDiscontinuities : List (Nat × Nat)
  state : SideState V X

/-- geometry.h:67-127 `GeometrySavePointState`. The hash maps are lists of pairs with distinct first components. -/
structure Save (V X : Type) where
  active : Bool
  containsAll : Bool
  nVertices : Nat
  nTriangles : Nat
  savedIds : List SideId
  savedOffsets : List Nat
  savedVertices : List (Nat × V)
  savedTriangles : List (Nat × Tri)
  savedOpposite : List (Nat × Nat)
  savedBreak : Break
  left : SaveSide V X
  right : SaveSide V X

/-- geometry.h:637-691, the data members of `Geometry` that are modelled. `save` is only read if it is active. -/
structure Geometry (V X : Type) where
  vertices : List V
  triangles : List Tri
  ids : List SideId
  offsets : List Nat
  opposite : List Nat
  left : Side V X
  right : Side V X
  lastBreak : Break
  save : Save V X
  firstMutatedLeft : Nat
  firstMutatedRight : Nat

/-- What the code below needs to know about vertices and the other members of a side: values of new ones, the labels it sets,
and whether a self-intersection is being retriangulated (geometry.cc:381-384). -/
structure Env (V X : Type) where
  blank : V
  fresh : X
  exteriorFront : X → V → V
  exteriorBack : V → V
  retriangulating : X → Bool

/-- `std::vector::resize` -/
def resize {α : Type} (l : List α) (n : Nat) (d : α) : List α := l.take n ++ List.replicate (n - l.length) d

/-- `absl::c_copy(saved, l.end() - saved.size())` -/
def copyToEnd {α : Type} (l saved : List α) : Option (List α) :=
  if saved.length ≤ l.length then some (l.take (l.length - saved.length) ++ saved) else none

/-- `absl::flat_hash_map::emplace` -/
def emplace {α : Type} (m : List (Nat × α)) (i : Nat) (a : α) : List (Nat × α) :=
  if m.any (·.1 == i) then m else m ++ [(i, a)]

/-- Elements `i`, ..., `j - 1`; `none` if they do not exist. -/
def slice {α : Type} (l : List α) (i j : Nat) : Option (List α) :=
  if i ≤ j ∧ j ≤ l.length then some ((l.take j).drop i) else none

section

variable {V X : Type}

namespace Geometry

/-- The side with this id. -/
def side (g : Geometry V X) : SideId → Side V X
  | .left => g.left
  | .right => g.right

/-- geometry.cc:805-815 `OpposingSide` -/
def other : SideId → SideId
  | .left => .right
  | .right => .left

def setSide (g : Geometry V X) (k : SideId) (s : Side V X) : Geometry V X :=
  match k with
  | .left => { g with left := s }
  | .right => { g with right := s }

/-- geometry.cc:85-100 `set_side_state` -/
def saveSide (s : Side V X) : SaveSide V X :=
  { nIndices := s.indices.length
    nDiscontinuities := s.discontinuities.length
    savedIndices := []
    savedDiscontinuities := []
    state := s.state }

/-- geometry.cc:115-131 of the buffered vertices, only the last is kept. -/
def keepLast (s : Side V X) : Side V X :=
  if s.state.buffer.length > 1 then
    match s.state.buffer.getLast? with
    | some v => { s with state := { s.state with buffer := [v], nextBuffered := 1 } }
    | none => s
  else s

/-- geometry.cc:82-132 `SetSavePoint` -/
def setSavePoint (g : Geometry V X) : Geometry V X :=
  { g with
    save :=
      { active := true
        containsAll := false
        nVertices := g.vertices.length
        nTriangles := g.triangles.length
        savedIds := []
        savedOffsets := []
        savedVertices := []
        savedTriangles := []
        savedOpposite := []
        savedBreak := g.lastBreak
        left := saveSide g.left
        right := saveSide g.right }
    left := keepLast g.left
    right := keepLast g.right }

/-- geometry.cc:2956-2975 `SetVertex` -/
def setVertex (g : Geometry V X) (i : Nat) (v : V) (updateSave : Bool) : Option (Geometry V X) := do
  let old ← g.vertices[i]?
  let g := if updateSave ∧ g.save.active ∧ i < g.save.nVertices then
      { g with save := { g.save with savedVertices := emplace g.save.savedVertices i old } } else g
  some { g with vertices := g.vertices.set i v }

/-- geometry.cc:2977-2987 `SetTriangleIndices` -/
def setTriangle (g : Geometry V X) (i : Nat) (t : Tri) (updateSave : Bool) : Option (Geometry V X) := do
  let old ← g.triangles[i]?
  let g := if updateSave ∧ g.save.active ∧ i < g.save.nTriangles then
      { g with save := { g.save with savedTriangles := emplace g.save.savedTriangles i old } } else g
  some { g with triangles := g.triangles.set i t }

/-- geometry.cc:2989-3000 `UpdateOppositeSideOffset` -/
def setOpposite (g : Geometry V X) (i o : Nat) (updateSave : Bool) : Option (Geometry V X) := do
  let old ← g.opposite[i]?
  if old = o then some g
  else
    let g := if updateSave ∧ g.save.active ∧ i < g.save.nVertices then
        { g with save := { g.save with savedOpposite := emplace g.save.savedOpposite i old } } else g
    some { g with opposite := g.opposite.set i o }

/-- geometry.cc:817-832 `AppendVertexToMesh` -/
def appendVertexToMesh (g : Geometry V X) (k : SideId) (v : V) : Geometry V X :=
  let s := g.side k
  let n := (g.side (other k)).indices.length
  let first := max s.state.oppositeFirst (g.side (other k)).state.adjacentFirst
  let g := g.setSide k { s with indices := s.indices ++ [g.vertices.length] }
  { g with
    vertices := g.vertices ++ [v]
    ids := g.ids ++ [k]
    offsets := g.offsets ++ [s.indices.length]
    opposite := g.opposite ++ [if n > first then n - 1 else first] }

/-- geometry.cc:719-733 `AppendVertexToSide` -/
def appendVertexToSide (env : Env V X) (g : Geometry V X) (k : SideId) (v : V) : Option (Geometry V X) :=
  let s := g.side k
  let buffer := s.state.buffer ++ [v]
  if s.indices.length = s.state.adjacentFirst then do
    let next ← buffer[s.state.nextBuffered]?
    let g := g.setSide k { s with state := { s.state with buffer := buffer, nextBuffered := s.state.nextBuffered + 1 } }
    some (g.appendVertexToMesh k (env.exteriorFront s.state.rest next))
  else some (g.setSide k { s with state := { s.state with buffer := buffer } })

/-- geometry.cc:1243-1276 the loop of `TryBeginIntersectionRetriangulation`, which changes the triangles from the last to number
`k`; `f` is the new value of a triangle. -/
def unzipLoop (f : Nat → Tri → Tri) (k : Nat) : Nat → Geometry V X → Option (Geometry V X)
  | 0, g => some g
  | i + 1, g =>
    if i + 1 > k then do
      let t ← g.triangles[i]?
      let g := if g.save.active ∧ i < g.save.nTriangles then
          { g with save := { g.save with savedTriangles := emplace g.save.savedTriangles i t } } else g
      let g ← g.setTriangle i (f i t) false
      unzipLoop f k i g
    else some g

/-- geometry.cc:1243-1286 the same, and the insertion of a triangle before them. -/
def unzip (g : Geometry V X) (k : Nat) (f : Nat → Tri → Tri) (t : Tri) : Option (Geometry V X) := do
  let g ← unzipLoop f k g.triangles.length g
  if k ≤ g.triangles.length then some { g with triangles := g.triangles.take k ++ t :: g.triangles.drop k } else none

/-- geometry.cc:364-380 `SetExtrusionBreakPartitionOnSide` -/
def breakPartition (env : Env V X) (s : Side V X) (firstTriangle oppositeCount : Nat) : Side V X :=
  { s with
    state :=
      { adjacentFirst := s.indices.length
        oppositeFirst := oppositeCount
        firstTriangle := firstTriangle
        firstSimplifiable := s.indices.length
        buffer := []
        nextBuffered := 0
        rest := env.fresh } }

/-- geometry.cc:389-401 `label_last_vertex_as_exterior` -/
def labelLast (env : Env V X) (g : Geometry V X) (s : Side V X) : Option (Geometry V X) :=
  if s.state.adjacentFirst ≥ s.indices.length then some g
  else do
    let i ← s.indices.getLast?
    let v ← g.vertices[i]?
    g.setVertex i (env.exteriorBack v) true

/-- geometry.cc:414-421 -/
def breakSide (s : Side V X) : BreakSide := ⟨s.indices.length, s.discontinuities.length⟩

/-- geometry.cc:403-407 -/
def labelBoth (env : Env V X) (g : Geometry V X) : Option (Geometry V X) :=
  if !env.retriangulating g.left.state.rest ∧ !env.retriangulating g.right.state.rest then do
    let g ← g.labelLast env g.left
    g.labelLast env g.right
  else some g

/-- geometry.cc:388-433 `AddExtrusionBreak` -/
def addBreak (env : Env V X) (g : Geometry V X) : Option (Geometry V X) := do
  let g ← g.labelBoth env
  let left := breakPartition env g.left g.triangles.length g.right.indices.length
  let right := breakPartition env g.right g.triangles.length left.indices.length
  some { g with
    left := left
    right := right
    lastBreak := ⟨g.lastBreak.count + 1, g.vertices.length, g.triangles.length, breakSide left, breakSide right⟩
    firstMutatedLeft := left.indices.length
    firstMutatedRight := right.indices.length }

/-- geometry.cc:479-494 `capture_side` -/
def captureSide (s : Side V X) (b : BreakSide) (p : SaveSide V X) : Option (SaveSide V X) :=
  if b.indexCount ≤ p.nIndices then do
    let is ← slice s.indices b.indexCount p.nIndices
    let ds ← slice s.discontinuities b.discontinuityCount p.nDiscontinuities
    some { p with savedIndices := p.savedIndices ++ is, savedDiscontinuities := p.savedDiscontinuities ++ ds }
  else none

/-- geometry.cc:467-476 the loops: `emplace` for the elements `i`, ..., `j - 1` of a list. -/
def emplaceRange {α : Type} (m : List (Nat × α)) (l : List α) (i : Nat) : Nat → Option (List (Nat × α))
  | 0 => some m
  | n + 1 => do
    let a ← l[i]?
    emplaceRange (emplace m i a) l (i + 1) n

/-- geometry.cc:447-502 `CaptureGeometrySinceLastExtrusionBreak` -/
def capture (g : Geometry V X) : Option (Geometry V X) :=
  let b := g.lastBreak
  let p := g.save
  if b.vertexCount ≤ p.nVertices ∧ b.triangleCount ≤ p.nTriangles then do
    let ids ← slice g.ids b.vertexCount p.nVertices
    let offsets ← slice g.offsets b.vertexCount p.nVertices
    let ts ← emplaceRange p.savedTriangles g.triangles b.triangleCount (p.nTriangles - b.triangleCount)
    let vs ← emplaceRange p.savedVertices g.vertices b.vertexCount (p.nVertices - b.vertexCount)
    let os ← emplaceRange p.savedOpposite g.opposite b.vertexCount (p.nVertices - b.vertexCount)
    let left ← captureSide g.left b.left p.left
    let right ← captureSide g.right b.right p.right
    some { g with
      save := { p with
        containsAll := true
        savedIds := p.savedIds ++ ids
        savedOffsets := p.savedOffsets ++ offsets
        savedTriangles := ts
        savedVertices := vs
        savedOpposite := os
        left := left
        right := right } }
  else none

/-- geometry.cc:534-538 `delete_side_geometry` -/
def truncateSide (s : Side V X) (b : BreakSide) : Side V X :=
  { s with indices := resize s.indices b.indexCount 0, discontinuities := resize s.discontinuities b.discontinuityCount (0, 0) }

/-- geometry.cc:533-562 what `ClearSinceLastExtrusionBreak` deletes -/
def truncateToBreak (env : Env V X) (g : Geometry V X) : Geometry V X :=
  let b := g.lastBreak
  let left := truncateSide g.left b.left
  let right := truncateSide g.right b.right
  let triangles := resize g.triangles b.triangleCount (0, 0, 0)
  { g with
    vertices := resize g.vertices b.vertexCount env.blank
    triangles := triangles
    ids := resize g.ids b.vertexCount .left
    offsets := resize g.offsets b.vertexCount 0
    opposite := resize g.opposite b.vertexCount 0
    left := breakPartition env left triangles.length right.indices.length
    right := breakPartition env right triangles.length left.indices.length
    firstMutatedLeft := min g.firstMutatedLeft left.indices.length
    firstMutatedRight := min g.firstMutatedRight right.indices.length }

/-- geometry.cc:514-530 captures what the save point needs. -/
def captureIfNeeded (g : Geometry V X) : Option (Geometry V X) :=
  if g.save.active ∧ ¬ g.save.containsAll ∧ g.save.nTriangles ≥ g.lastBreak.triangleCount then g.capture else some g

/-- geometry.cc:505-563 `ClearSinceLastExtrusionBreak` -/
def clearSinceBreak (env : Env V X) (g : Geometry V X) : Option (Geometry V X) :=
  if g.vertices.length = g.lastBreak.vertexCount then some g
  else do
    let g ← g.captureIfNeeded
    some (g.truncateToBreak env)

/-- geometry.cc:234-255 `revert_side` -/
def revertSide (s : Side V X) (p : SaveSide V X) : Option (Side V X) := do
  let is ← copyToEnd (resize s.indices p.nIndices 0) p.savedIndices
  let ds ← copyToEnd (resize s.discontinuities p.nDiscontinuities (0, 0)) p.savedDiscontinuities
  some { indices := is, discontinuities := ds, state := p.state }

/-- geometry.cc:206-225 the loops over the maps -/
def setVertices (g : Geometry V X) : List (Nat × V) → Option (Geometry V X)
  | [] => some g
  | (i, v) :: m => do
    let g ← g.setVertex i v false
    g.setVertices m

/-- geometry.cc:216-219 -/
def setTriangles (g : Geometry V X) : List (Nat × Tri) → Option (Geometry V X)
  | [] => some g
  | (i, t) :: m => do
    let g ← g.setTriangle i t false
    g.setTriangles m

/-- geometry.cc:221-225 -/
def setOpposites (g : Geometry V X) : List (Nat × Nat) → Option (Geometry V X)
  | [] => some g
  | (i, o) :: m => do
    let g ← g.setOpposite i o false
    g.setOpposites m

/-- geometry.cc:191-265 `RevertToSavePoint`. The order of iteration over the hash maps is not specified: `order` gives it. -/
def revert (env : Env V X) (order : {α : Type} → List α → List α) (g : Geometry V X) : Option (Geometry V X) :=
  if g.save.active then do
    let p := g.save
    let g := { g with
      vertices := resize g.vertices p.nVertices env.blank
      triangles := resize g.triangles p.nTriangles (0, 0, 0)
      ids := resize g.ids p.nVertices .left
      offsets := resize g.offsets p.nVertices 0
      opposite := resize g.opposite p.nVertices 0 }
    let g ← g.setVertices (order p.savedVertices)
    let g ← g.setTriangles (order p.savedTriangles)
    let g ← g.setOpposites (order p.savedOpposite)
    let ids ← copyToEnd g.ids p.savedIds
    let offsets ← copyToEnd g.offsets p.savedOffsets
    let left ← revertSide g.left p.left
    let right ← revertSide g.right p.right
    some { g with
      ids := ids
      offsets := offsets
      left := left
      right := right
      firstMutatedLeft := min g.firstMutatedLeft (p.left.nIndices - p.left.savedIndices.length)
      firstMutatedRight := min g.firstMutatedRight (p.right.nIndices - p.right.savedIndices.length)
      lastBreak := p.savedBreak
      save := { p with active := false } }
  else some g

/-- geometry.cc:277-286 `ResetMutationTracking`, the members that are modelled -/
def resetTracking (g : Geometry V X) : Geometry V X :=
  { g with firstMutatedLeft := g.left.indices.length, firstMutatedRight := g.right.indices.length }

/-- geometry.cc:564-620 `UpdateMeshDerivatives` writes attributes of some vertices directly into the mesh, see
derivative_calculator.cc:321-340 and 558-577. -/
def updateVertices (g : Geometry V X) : List (Nat × (V → V)) → Option (Geometry V X)
  | [] => some g
  | (i, f) :: us => do
    let v ← g.vertices[i]?
    ({ g with vertices := g.vertices.set i (f v) } : Geometry V X).updateVertices us

end Geometry

/-- geometry.cc:683-691 `ClearSide` -/
def clearedSide (env : Env V X) : Side V X :=
  { indices := [], discontinuities := [],
    state := { adjacentFirst := 0, oppositeFirst := 0, firstTriangle := 0, firstSimplifiable := 0, buffer := [],
               nextBuffered := 0, rest := env.fresh } }

/-- geometry.cc:696-710 `Reset`; the inactive save point is not read. -/
def Geometry.reset (env : Env V X) (save : Save V X) : Geometry V X :=
  { vertices := [], triangles := [], ids := [], offsets := [], opposite := [], left := clearedSide env,
    right := clearedSide env, lastBreak := {}, save := { save with active := false }, firstMutatedLeft := 0, firstMutatedRight := 0 }

/-- What may happen to the geometry while a stroke is extruded: calls from `BrushTipExtruder` and the changes that the
triangulation makes. -/
inductive Op (V X : Type) where
  | bufferVertex (k : SideId) (v : V)
  | appendVertex (k : SideId) (v : V)
  | setVertex (i : Nat) (v : V)
  | appendTriangle (t : Tri)
  | setTriangle (i : Nat) (t : Tri)
  | unzip (k : Nat) (f : Nat → Tri → Tri) (t : Tri)
  | setOpposite (i o : Nat)
  | addDiscontinuity (k : SideId) (r : Nat × Nat)
  | setState (k : SideId) (s : SideState V X)
  | addBreak
  | clear
  | derivatives (us : List (Nat × (V → V)))
  | resetTracking

/-- One of them. -/
def Geometry.step (env : Env V X) (g : Geometry V X) : Op V X → Option (Geometry V X)
  | .bufferVertex k v => g.appendVertexToSide env k v
  | .appendVertex k v => some (g.appendVertexToMesh k v)
  | .setVertex i v => g.setVertex i v true
  | .appendTriangle t => some { g with triangles := g.triangles ++ [t] }
  | .setTriangle i t => g.setTriangle i t true
  | .unzip k f t => g.unzip k f t
  | .setOpposite i o => g.setOpposite i o true
  | .addDiscontinuity k r => some (g.setSide k { g.side k with discontinuities := (g.side k).discontinuities ++ [r] })
  | .setState k s => some (g.setSide k { g.side k with state := s })
  | .addBreak => g.addBreak env
  | .clear => g.clearSinceBreak env
  | .derivatives us => g.updateVertices us
  | .resetTracking => some g.resetTracking

/-- Some of them. -/
def Geometry.run (env : Env V X) (g : Geometry V X) : List (Op V X) → Option (Geometry V X)
  | [] => some g
  | op :: ops => do
    let g ← g.step env op
    g.run env ops

end

end Verif.StrokeGeom
