import Verif.Model.StrokeGeometry

/-!
# Model of the updates that are reported while a stroke is drawn

From `ink/strokes/internal/brush_tip_extruder.cc`, `brush_tip_extruder/geometry.cc`, `brush_tip_extruder/mutable_mesh_view.cc` and
`stroke_shape_update.cc`.

`Tracked` adds to the geometry of `Model/StrokeGeometry.lean` all that is recorded about changes: the first mutated vertex and
triangle of the mesh, the envelope of removed geometry, and the first mutated index of each side. Envelopes are lists of the points
that were added to them: the rectangle is the smallest that contains these (C20). `pos` is the position of a vertex.
-/

set_option autoImplicit false

namespace Verif.StrokeGeom

variable {V X P : Type}

/-- geometry.h:637-691 and mutable_mesh_view.h:182-183 -/
structure Tracked (V X P : Type) where
  g : Geometry V X
  firstVertex : Nat
  firstTriangle : Nat
  removed : List P
  firstLeft : Option Nat
  firstRight : Option Nat

/-- geometry.cc:566-573 `UpdateFirstMutatedSideIndexValue` -/
def updateFirst (i : Nat) : Option Nat → Option Nat
  | some f => some (min f i)
  | none => some i

/-- geometry.cc:144-152 `EnvelopeOfTriangles`, for a list of triangles -/
def positionsOf (pos : V → P) (vs : List V) : List Tri → Option (List P)
  | [] => some []
  | (a, b, c) :: ts => do
    let u ← vs[a]?
    let v ← vs[b]?
    let w ← vs[c]?
    let ps ← positionsOf pos vs ts
    some (pos u :: pos v :: pos w :: ps)

namespace Tracked

/-- geometry.cc:2968-2972 -/
def note (t : Tracked V X P) (k : SideId) (i : Nat) : Tracked V X P :=
  match k with
  | .left => { t with firstLeft := updateFirst i t.firstLeft }
  | .right => { t with firstRight := updateFirst i t.firstRight }

/-- geometry.cc:277-286 `ResetMutationTracking`, mutable_mesh_view.cc:278-281 -/
def resetTracking (t : Tracked V X P) : Tracked V X P :=
  { g := t.g.resetTracking
    firstVertex := t.g.vertices.length
    firstTriangle := t.g.triangles.length
    removed := []
    firstLeft := none
    firstRight := none }

/-- geometry.cc:2956-2975 `SetVertex`, mutable_mesh_view.cc:190-240 -/
def setVertex (pos : V → P) (t : Tracked V X P) (i : Nat) (v : V) (updateSave updateEnvelope : Bool) : Option (Tracked V X P) := do
  let old ← t.g.vertices[i]?
  let k ← t.g.ids[i]?
  let g ← t.g.setVertex i v updateSave
  let t := t.note k i
  some { t with g := g, removed := if updateEnvelope then t.removed ++ [pos old] else t.removed, firstVertex := min t.firstVertex i }

/-- geometry.cc:2977-2987 `SetTriangleIndices`, mutable_mesh_view.cc:242-249 -/
def setTriangle (t : Tracked V X P) (i : Nat) (tri : Tri) (updateSave : Bool) : Option (Tracked V X P) := do
  let g ← t.g.setTriangle i tri updateSave
  some { t with g := g, firstTriangle := min t.firstTriangle i }

/-- geometry.cc:389-401 -/
def labelLast (pos : V → P) (env : Env V X) (t : Tracked V X P) (s : Side V X) : Option (Tracked V X P) :=
  if s.state.adjacentFirst ≥ s.indices.length then some t
  else do
    let i ← s.indices.getLast?
    let v ← t.g.vertices[i]?
    t.setVertex pos i (env.exteriorBack v) true true

/-- geometry.cc:403-407 -/
def labelBoth (pos : V → P) (env : Env V X) (t : Tracked V X P) : Option (Tracked V X P) :=
  if !env.retriangulating t.g.left.state.rest ∧ !env.retriangulating t.g.right.state.rest then do
    let t ← t.labelLast pos env t.g.left
    t.labelLast pos env t.g.right
  else some t

/-- geometry.cc:388-433 `AddExtrusionBreak` -/
def addBreak (pos : V → P) (env : Env V X) (t : Tracked V X P) : Option (Tracked V X P) := do
  let t ← t.labelBoth pos env
  let g := t.g
  let left := Geometry.breakPartition env g.left g.triangles.length g.right.indices.length
  let right := Geometry.breakPartition env g.right g.triangles.length left.indices.length
  some { t with
    g := { g with
      left := left
      right := right
      lastBreak := ⟨g.lastBreak.count + 1, g.vertices.length, g.triangles.length, Geometry.breakSide left, Geometry.breakSide right⟩
      firstMutatedLeft := left.indices.length
      firstMutatedRight := right.indices.length } }

/-- geometry.cc:505-563 `ClearSinceLastExtrusionBreak`, mutable_mesh_view.cc:263-276 -/
def clearSinceBreak (pos : V → P) (env : Env V X) (t : Tracked V X P) : Option (Tracked V X P) :=
  if t.g.vertices.length = t.g.lastBreak.vertexCount then some t
  else do
    let g ← t.g.captureIfNeeded
    let ps ← positionsOf pos g.vertices (g.triangles.drop g.lastBreak.triangleCount)
    some { t with
      g := g.truncateToBreak env
      removed := t.removed ++ ps
      firstVertex := min t.firstVertex g.lastBreak.vertexCount
      firstTriangle := min t.firstTriangle g.lastBreak.triangleCount }

/-- geometry.cc:577-620 `UpdateMeshDerivatives`, mutable_mesh_view.cc:199-240. The code notes the first index of the updated part of
each side, and writes to vertices of these parts; here the indices that are written are noted, so that never more is noted. -/
def updateVertices (t : Tracked V X P) : List (Nat × (V → V)) → Option (Tracked V X P)
  | [] => some t
  | (i, f) :: us => do
    let v ← t.g.vertices[i]?
    let k ← t.g.ids[i]?
    let t := t.note k i
    updateVertices { t with g := { t.g with vertices := t.g.vertices.set i (f v) }, firstVertex := min t.firstVertex i } us

/-- One change, with what is recorded about it. Appending does not count as mutation (mutable_mesh_view.h:120-135). -/
def step (pos : V → P) (env : Env V X) (t : Tracked V X P) : Op V X → Option (Tracked V X P)
  | .setVertex i v => t.setVertex pos i v true true
  | .setTriangle i tri => t.setTriangle i tri true
  | .unzip k f tri => do
    let g ← t.g.unzip k f tri
    some { t with g := g, firstTriangle := min t.firstTriangle k }
  | .addBreak => t.addBreak pos env
  | .clear => t.clearSinceBreak pos env
  | .derivatives us => t.updateVertices us
  | .resetTracking => some t.resetTracking
  | op => do
    let g ← t.g.step env op
    some { t with g := g }

/-- Some of them. -/
def run (pos : V → P) (env : Env V X) (t : Tracked V X P) : List (Op V X) → Option (Tracked V X P)
  | [] => some t
  | op :: ops => do
    let t ← t.step pos env op
    t.run pos env ops

/-- geometry.cc:206-214 -/
def setVertices (pos : V → P) (oldCount : Nat) (t : Tracked V X P) : List (Nat × V) → Option (Tracked V X P)
  | [] => some t
  | (i, v) :: m => do
    let t ← t.setVertex pos i v false (decide (i < oldCount))
    t.setVertices pos oldCount m

/-- geometry.cc:216-219 -/
def setTriangles (t : Tracked V X P) : List (Nat × Tri) → Option (Tracked V X P)
  | [] => some t
  | (i, tri) :: m => do
    let t ← t.setTriangle i tri false
    t.setTriangles m

/-- geometry.cc:191-265 `RevertToSavePoint` -/
def revert (pos : V → P) (env : Env V X) (order : {α : Type} → List α → List α) (t : Tracked V X P) : Option (Tracked V X P) :=
  if t.g.save.active then do
    let p := t.g.save
    let ps ← positionsOf pos t.g.vertices (t.g.triangles.drop p.nTriangles)
    let oldCount := t.g.vertices.length
    let t := { t with
      removed := t.removed ++ ps
      firstVertex := min t.firstVertex p.nVertices
      firstTriangle := min t.firstTriangle p.nTriangles
      g := { t.g with
        vertices := resize t.g.vertices p.nVertices env.blank
        triangles := resize t.g.triangles p.nTriangles (0, 0, 0)
        ids := resize t.g.ids p.nVertices .left
        offsets := resize t.g.offsets p.nVertices 0
        opposite := resize t.g.opposite p.nVertices 0 } }
    let t ← t.setVertices pos oldCount (order p.savedVertices)
    let t ← t.setTriangles (order p.savedTriangles)
    let g ← t.g.setOpposites (order p.savedOpposite)
    let ids ← copyToEnd g.ids p.savedIds
    let offsets ← copyToEnd g.offsets p.savedOffsets
    let left ← Geometry.revertSide g.left p.left
    let right ← Geometry.revertSide g.right p.right
    some { t with g := { g with
      ids := ids
      offsets := offsets
      left := left
      right := right
      firstMutatedLeft := min g.firstMutatedLeft (p.left.nIndices - p.left.savedIndices.length)
      firstMutatedRight := min g.firstMutatedRight (p.right.nIndices - p.right.savedIndices.length)
      lastBreak := p.savedBreak
      save := { p with active := false } } }
  else some t

/-- geometry.cc:3090-3109 the loop of `FirstVisuallyMutatedTriangle`, with `TriangleIndicesAreLeftRightConforming`
(geometry.cc:962-968) -/
def searchLoop (g : Geometry V X) (l r : Nat) : Nat → Option Nat
  | 0 => some 0
  | i + 1 => do
    let t ← g.triangles[i]?
    let ka ← g.ids[t.1]?
    let kb ← g.ids[t.2.1]?
    if ka = .left ∧ kb = .right then do
      let kc ← g.ids[t.2.2]?
      let maxLeft := if kc = .left then t.2.2 else t.1
      let maxRight := if kc = .left then t.2.1 else t.2.2
      if maxLeft < l ∧ maxRight < r then some (i + 1) else searchLoop g l r i
    else searchLoop g l r i

/-- geometry.cc:3075-3112 `FirstVisuallyMutatedTriangle` -/
def firstVisuallyMutated (t : Tracked V X P) : Option Nat :=
  if t.firstTriangle = 0 ∨ (t.firstLeft = none ∧ t.firstRight = none) then some t.firstTriangle
  else do
    let i ← searchLoop t.g (t.firstLeft.getD t.g.vertices.length) (t.firstRight.getD t.g.vertices.length)
      (min (t.firstTriangle + 1) t.g.triangles.length)
    some (min t.firstTriangle i)

/-- geometry.cc:168-189 `CalculateVisuallyUpdatedRegion`, with `EnvelopeOfAllPositions` (geometry.cc:159-165) -/
def region (pos : V → P) (t : Tracked V X P) : Option (List P) :=
  if t.g.triangles.length = 0 then some t.removed
  else do
    let k ← t.firstVisuallyMutated
    if k = 0 then some (t.removed ++ t.g.vertices.map pos)
    else do
      let ps ← positionsOf pos t.g.vertices (t.g.triangles.drop k)
      some (t.removed ++ ps)

end Tracked

/-- stroke_shape_update.h:25-46 `StrokeShapeUpdate` -/
structure Update (P : Type) where
  region : List P
  firstIndex : Option Nat
  firstVertex : Option Nat
  deriving DecidableEq

/-- stroke_shape_update.cc:25-31 `GetMinValue` -/
def getMinValue : Option Nat → Option Nat → Option Nat
  | none, b => b
  | some a, none => some a
  | some a, some b => some (min a b)

/-- stroke_shape_update.cc:35-41 `StrokeShapeUpdate::Add` -/
def Update.add (u w : Update P) : Update P :=
  ⟨u.region ++ w.region, getMinValue u.firstIndex w.firstIndex, getMinValue u.firstVertex w.firstVertex⟩

namespace Tracked

/-- brush_tip_extruder.cc:78-98 `ConstructUpdate` -/
def constructUpdate (pos : V → P) (t : Tracked V X P) (trianglesBefore verticesBefore : Nat) : Option (Update P) := do
  let region ← t.region pos
  some
    { region := region
      firstIndex := if t.firstTriangle ≠ t.g.triangles.length ∨ t.g.triangles.length ≠ trianglesBefore then
          some (3 * t.firstTriangle) else none
      firstVertex := if t.firstVertex ≠ t.g.vertices.length ∨ t.g.vertices.length ≠ verticesBefore then
          some t.firstVertex else none }

/-- What a state of the brush tip makes the extruder do, depending on the geometry. -/
abbrev Move (V X : Type) := Geometry V X → List (Op V X)

/-- brush_tip_extruder.cc:112-116 and 121-126 the loops -/
def runMoves (pos : V → P) (env : Env V X) (t : Tracked V X P) : List (Move V X) → Option (Tracked V X P)
  | [] => some t
  | m :: ms => do
    let t ← t.run pos env (m t.g)
    t.runMoves pos env ms

/-- brush_tip_extruder.cc:102-132 `ExtendStroke`, without what is not in the geometry. -/
def extend (pos : V → P) (env : Env V X) (order : {α : Type} → List α → List α) (t : Tracked V X P)
    (real predicted : List (Move V X)) : Option (Tracked V X P × Update P) := do
  let t := t.resetTracking
  let trianglesBefore := t.g.triangles.length
  let verticesBefore := t.g.vertices.length
  let t ← t.revert pos env order
  let t ← t.runMoves pos env real
  let t ← ({ t with g := t.g.setSavePoint } : Tracked V X P).runMoves pos env predicted
  let u ← t.constructUpdate pos trianglesBefore verticesBefore
  some (t, u)

/-- ... any number of times; the updates are joined as in stroke_shape_builder.cc and in_progress_stroke.cc. -/
def extendAll (pos : V → P) (env : Env V X) (order : {α : Type} → List α → List α) (t : Tracked V X P) (u : Update P) :
    List (List (Move V X) × List (Move V X)) → Option (Tracked V X P × Update P)
  | [] => some (t, u)
  | (real, predicted) :: rs => do
    let (t, w) ← t.extend pos env order real predicted
    t.extendAll pos env order (u.add w) rs

/-- geometry.cc:696-710 `Reset` -/
def reset (env : Env V X) (save : Save V X) : Tracked V X P :=
  ⟨Geometry.reset env save, 0, 0, [], none, none⟩

end Tracked

end Verif.StrokeGeom
