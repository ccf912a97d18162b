import Verif.Model.Simplify
import Verif.Model.Distance
import Verif.Model.PartialOutline

/-!
# Model of the triangulation of extruded vertices, in exact arithmetic

From `ink/strokes/internal/brush_tip_extruder/geometry.cc` and `side.h`: `AppendVertexToSide`, `ProcessNewVertices` with
`SimplifyBufferedVertices` and `TriangulateBufferedVertices`, and `AddExtrusionBreak`. Coordinates are elements of an ordered field, `hypot` is a
function for the length of a vector. Numbers of vertices are unbounded. `none` is an access outside of a vector.

The handling of self-intersections (`TryAppendSlowPath`) is an argument; without it, it is disabled (`IntersectionHandling::kDisabled`). Nothing
else begins an intersection or a partition that is not exterior, so that conditions on them (`UndoNonCcwPartitionSeparationIfNeeded`, the members
`intersection`) do not hold and are left out; so are the tables of offsets and the members for save points and updated regions, which are in
`Model/StrokeGeometry.lean` and `Model/StrokeUpdate.lean`, and other attributes of vertices, which are only copied.
-/

set_option autoImplicit false

namespace Verif.Triangulation

open Geo
open PartialOutline (SideId)

variable {K : Type} [Field K] [LinearOrder K]

/-- stroke_vertex.h `ForwardCategory`: the label of a vertex at the front or back -/
inductive Forward | interior | front | back
  deriving DecidableEq

/-- extruded_vertex.h `ExtrudedVertex`, in part -/
structure Vertex (K : Type) where
  position : Pt K
  texture : Pt K
  forward : Forward
  deriving DecidableEq

/-- side.h:44-157 `Side`, in part; `partition` is `partition_start.adjacent_first_index_offset`, which is also `first_simplifiable_index_offset`
as long as no intersection is handled, and `simplified` is `last_simplified_vertex_positions` -/
structure Side (K : Type) where
  indices : List ℕ := []
  partition : ℕ := 0
  buffer : List (Vertex K) := []
  next : ℕ := 0
  simplified : List (Pt K) := []
  deriving DecidableEq

/-- geometry.h:637-691 `Geometry`, in part; `sideOf` is `vertex_side_ids_` -/
structure State (K : Type) where
  vertices : List (Vertex K) := []
  sideOf : List SideId := []
  triangles : List (ℕ × ℕ × ℕ) := []
  left : Side K := {}
  right : Side K := {}
  deriving DecidableEq

def State.side (s : State K) : SideId → Side K
  | .left => s.left
  | .right => s.right

def State.setSide (s : State K) : SideId → Side K → State K
  | .left, x => { s with left := x }
  | .right, x => { s with right := x }

/-- geometry.cc:767-773 `LastVertex` and `LastPosition` -/
def State.last (s : State K) (k : SideId) : Option (Vertex K) := (s.side k).indices.getLast?.bind fun i => s.vertices[i]?

/-- geometry.cc:818-832 `AppendVertexToMesh` -/
def State.appendToMesh (s : State K) (k : SideId) (v : Vertex K) : State K :=
  let t : State K := { s with vertices := s.vertices ++ [v], sideOf := s.sideOf ++ [k] }
  t.setSide k { s.side k with indices := (s.side k).indices ++ [s.vertices.length] }

/-- geometry.cc:719-733 `AppendVertexToSide` -/
def State.appendToSide (s : State K) (k : SideId) (v : Vertex K) : Option (State K) :=
  let s := s.setSide k { s.side k with buffer := (s.side k).buffer ++ [v] }
  if (s.side k).indices.length = (s.side k).partition then
    (s.side k).buffer[(s.side k).next]?.map fun v =>
      let s := s.appendToMesh k { v with forward := .front }
      s.setSide k { s.side k with next := (s.side k).next + 1 }
  else some s

/-- geometry.cc:775-784 `ProposedTriangleWinding`: the signed area -/
def State.area (s : State K) (p : Pt K) : Option K :=
  (s.last .left).bind fun l => (s.last .right).map fun r => Triangle.signedArea ⟨l.position, r.position, p⟩

/-- geometry.cc:2379-2431 `TryAppendSlowPath` and what precedes and follows it -/
abbrev Slow (K : Type) := State K → SideId → Vertex K → Option (State K)

/-- geometry.cc:2334-2377 `TryAppend` -/
def tryAppend (slow : Option (Slow K)) (k : SideId) (s : State K) : Option (State K) :=
  (s.side k).buffer[(s.side k).next]?.bind fun v => (s.area v.position).bind fun a =>
    if 0 < a then
      s.left.indices.getLast?.bind fun l => s.right.indices.getLast?.map fun r =>
        let t := s.appendToMesh k v
        { t with triangles := t.triangles ++ [(l, r, s.vertices.length)] }
    else
      match slow with
      | none => some (s.appendToMesh k v)
      | some f => f s k v

/-- `++side.next_buffered_vertex_offset` -/
def State.advance (s : State K) (k : SideId) : State K := s.setSide k { s.side k with next := (s.side k).next + 1 }

/-- geometry.cc:3178-3184 and 3213-3219: one quad -/
def quad (slow : Option (Slow K)) (s : State K) : Option (State K) :=
  (tryAppend slow .right s).bind fun s => (tryAppend slow .left s).map fun s => (s.advance .right).advance .left

/-- geometry.cc:3203-3206: one triangle of a fan -/
def fanStep (slow : Option (Slow K)) (k : SideId) (s : State K) : Option (State K) := (tryAppend slow k s).map fun s => s.advance k

/-- A loop with a number of steps. -/
def times (f : State K → Option (State K)) : ℕ → State K → Option (State K)
  | 0, s => some s
  | n + 1, s => (f s).bind (times f n)

/-- geometry.cc:64 -/
def sentinel : Pt K := ⟨0, -1⟩

/-- geometry.cc:3001-3011 `BeginSuperImposedPivotFan` -/
def beginPivot (pivot outer : SideId) (s : State K) : Option (State K) :=
  (s.side pivot).indices.getLast?.bind fun i => s.vertices[i]?.bind fun v => (s.last outer).map fun o =>
    let v := { v with texture := ⟨o.texture.x, v.texture.y⟩ }
    let s : State K := { s with vertices := s.vertices.set i v }
    s.appendToMesh pivot { v with texture := sentinel }

/-- The element of a vector before the last (`*(indices.rbegin() + 1)`) -/
def secondLast (l : List ℕ) : Option ℕ := if 2 ≤ l.length then l[l.length - 2]? else none

/-- geometry.cc:3013-3021 `EndSuperImposedPivotFan` -/
def endPivot (pivot outer : SideId) (s : State K) : Option (State K) :=
  (secondLast (s.side pivot).indices).bind fun i => s.vertices[i]?.bind fun v => (s.last outer).map fun o =>
    s.appendToMesh pivot { v with texture := ⟨o.texture.x, v.texture.y⟩ }

/-- geometry.cc:3023-3033 `MeshEndsInSuperImposedPivot` -/
def endsInPivot (winding : Bool) (s : State K) : Option Bool :=
  let ends (k : SideId) : Option Bool :=
    if 1 < (s.side k).indices.length then (secondLast (s.side k).indices).bind fun i => s.vertices[i]?.map fun v => decide (v.texture = sentinel)
    else some false
  if winding then (ends .left).bind fun a => if a then some true else ends .right else some false

/-- geometry.cc:3035-3073 `PrepBufferedVerticesForNextExtrusion` -/
def prepare (mustKeep : Bool) (k : SideId) (s : State K) : Option (State K) :=
  let side := s.side k
  match side.indices.getLast? with
  | none => some (s.setSide k { side with buffer := [], next := 0 })
  | some i =>
    let n := s.triangles.length
    let third (j : ℕ) : Prop := ∃ t ∈ s.triangles[j]?, t.2.2 = i
    (s.vertices[i]?).bind fun v =>
      if mustKeep = false ∧ side.partition < side.indices.length ∧ (n > 0 ∧ third (n - 1) ∨ n > 1 ∧ third (n - 2)) then
        (secondLast side.indices).bind fun j => s.vertices[j]?.map fun w => s.setSide k { side with buffer := [w, v], next := 2 }
      else some (s.setSide k { side with buffer := [v], next := 1 })

/-- geometry.cc:3152-3244 `TriangulateBufferedVertices` -/
def triangulate (slow : Option (Slow K)) (winding : Bool) (s : State K) : Option (State K) :=
  let nl := s.left.buffer.length - s.left.next + 1
  let nr := s.right.buffer.length - s.right.next + 1
  if nl < 2 ∧ nr < 2 then some s
  else
    (times (quad slow) (min nl nr / 2) s).bind fun s =>
      let n := max nl nr - min nl nr
      let pivot : SideId := if nr < nl then .right else .left
      let outer : SideId := if nr < nl then .left else .right
      let extra := 2 ≤ n ∧ winding = true
      ((if extra then beginPivot pivot outer s else some s).bind fun s => (times (fanStep slow outer) n s).bind fun s =>
        if extra then endPivot pivot outer s else some s).bind fun s =>
        (times (quad slow) ((min nl nr - 1) / 2) s).bind fun s =>
          (endsInPivot winding s).bind fun keep => (prepare keep .left s).bind (prepare keep .right)

section Simplification

variable (hypot : K → K → K)

/-- geometry.cc:855-880: whether the last vertex of the mesh is not considered -/
def skips (threshold limit : K) (side : Side K) (v0 v2 : Vertex K) : Prop :=
  limit < distPP hypot v0.position v2.position ∨ ∃ p ∈ side.simplified, threshold < distPS hypot p ⟨v0.position, v2.position⟩

instance (threshold limit : K) (side : Side K) (v0 v2 : Vertex K) : Decidable (skips hypot threshold limit side v0 v2) :=
  inferInstanceAs (Decidable (_ ∨ _))

/-- geometry.cc:851-884: what is kept of the buffer -/
def keptOf (threshold limit : K) (side : Side K) : List (Vertex K) :=
  let simplify := Simplify.simplify Vertex.position (fun a b p => distPS hypot p ⟨a, b⟩) (fun a b => decide (b < a)) 0 threshold
  match side.buffer with
  | v0 :: v1 :: v2 :: rest =>
    if side.next = 2 ∧ skips hypot threshold limit side v0 v2 then simplify (v1 :: v2 :: rest) [v0] else simplify side.buffer []
  | _ => simplify side.buffer []

/-- geometry.cc:846-949 `SimplifyBufferedVertices`, of one side -/
def simplifySide (threshold limit : K) (k : SideId) (s : State K) : Option (State K) :=
  let side := s.side k
  if threshold ≤ 0 ∨ side.buffer.length < 3 then some s
  else
    let kept := keptOf hypot threshold limit side
    if kept.length = side.buffer.length then some s
    else
      if side.next = 2 then
        kept[1]?.bind fun v => side.indices.getLast?.bind fun i => s.vertices[i]?.bind fun w =>
          if v.position = w.position then some (s.setSide k { side with buffer := kept })
          else
            (s.area v.position).map fun a =>
              if 0 < a then
                let t : State K := { s with vertices := s.vertices.set i v }
                t.setSide k { side with buffer := kept, simplified := side.simplified ++ [w.position] }
              else s.setSide k { side with buffer := side.buffer.take 2 ++ kept.drop 1 }
      else some (s.setSide k { side with buffer := kept })

/-- geometry.cc:344-360 `conditionally_clear_simplified_positions` -/
def clearSimplified (before : ℕ) (k : SideId) (s : State K) : State K :=
  if before = (s.side k).indices.length then s else s.setSide k { s.side k with simplified := [] }

/-- geometry.cc:320-361 `ProcessNewVertices`, with a tip of this width and height -/
def process (slow : Option (Slow K)) (winding : Bool) (threshold width height : K) (s : State K) : Option (State K) :=
  if s.left.buffer = [] ∨ s.right.buffer = [] then some s
  else
    let limit := 8 * (1 / 2 * (width + height))
    (simplifySide hypot threshold limit .left s).bind fun s => (simplifySide hypot threshold limit .right s).bind fun s =>
      (triangulate slow winding s).map fun t => clearSimplified s.right.indices.length .right (clearSimplified s.left.indices.length .left t)

end Simplification

/-- geometry.cc:389-401 `label_last_vertex_as_exterior` -/
def labelLast (k : SideId) (s : State K) : Option (State K) :=
  let side := s.side k
  if side.indices.length ≤ side.partition then some s
  else side.indices.getLast?.bind fun i => s.vertices[i]?.map fun v => { s with vertices := s.vertices.set i { v with forward := .back } }

/-- geometry.cc:388-433 `AddExtrusionBreak` -/
def addBreak (s : State K) : Option (State K) :=
  (labelLast .left s).bind fun s => (labelLast .right s).map fun s =>
    { s with left := { s.left with partition := s.left.indices.length, buffer := [], next := 0, simplified := [] },
             right := { s.right with partition := s.right.indices.length, buffer := [], next := 0, simplified := [] } }

/-- geometry.cc:661-679 `NStableTriangles` without a save point and with intersection handling disabled -/
def stableCount (s : State K) : ℕ := s.triangles.length - min s.triangles.length 2

/-- Calls of the extruder -/
inductive Op (K : Type)
  | append (k : SideId) (v : Vertex K)
  | process (winding : Bool) (threshold width height : K)
  | break

/-- One of them, with intersection handling disabled -/
def step (hypot : K → K → K) (s : State K) : Op K → Option (State K)
  | .append k v => s.appendToSide k v
  | .process w t a b => process hypot none w t a b s
  | .break => addBreak s

/-- Some of them -/
def run (hypot : K → K → K) : State K → List (Op K) → Option (State K)
  | s, [] => some s
  | s, o :: os => (step hypot s o).bind fun s => run hypot s os

end Verif.Triangulation
