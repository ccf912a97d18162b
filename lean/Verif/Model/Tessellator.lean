import Verif.Model.Mesh

/-!
# Tessellating polylines

geometry/internal/generic_tessellator.h, geometry/internal/point_tessellation_helper.h, geometry/tessellator.cc.

The library libtess2 is a parameter: a function from the contours and the winding rule to the arrays one reads after
`tessTesselate` succeeded, or nothing when it fails. An index `TESS_UNDEF` is `none`, other indices are natural numbers
(`TESSindex` is an `int`, sizes above its range are not modelled). Reading an array outside its bounds is `none` in the
outermost `Option` of a result. The allocation of the tessellator is taken to succeed (generic_tessellator.h:349 CHECKs it).
-/

set_option autoImplicit false

namespace Verif.Tess

open Verif Verif.Mesh

/-- A `VertexTessellationHelper`: generic_tessellator.h:67-102. The offsets are not modelled: they are for libtess2. -/
structure Helper (V : Type) where
  getX : V → F32
  getY : V → F32
  createVertex : F32 → F32 → V
  populate : List V → List (Option Nat) → V → V

/-- point_tessellation_helper.h:26-43 `PointTessellationHelper` -/
def pointHelper : Helper (F32 × F32) where
  getX := fun p => p.1
  getY := fun p => p.2
  createVertex := fun x y => (x, y)
  populate := fun _ _ dst => dst

/-- What libtess2 returns in the mode `TESS_CONNECTED_POLYGONS`: `tessGetVertices` (pairs of `TESSreal`, of which there are
`tessGetVertexCount`), `tessGetVertexIndices`, `tessGetElements` and `tessGetElementCount`. -/
structure Output where
  vertices : List (F32 × F32)
  vertexIndices : List (Option Nat)
  elements : List (Option Nat)
  elementCount : Nat

/-- generic_tessellator.h:36-40 `TessellationResult` -/
structure Result (V : Type) where
  vertices : List V
  indices : List Nat

/-- generic_tessellator.h:42 `kTriangleSize` -/
def kTriangleSize : Nat := 3

/-- generic_tessellator.h:45 `kConnectedPolygonsResultSize` -/
def kConnectedPolygonsResultSize : Nat := kTriangleSize * 2

/-- generic_tessellator.h:117-120 `VertexOffset::kCounterClockwise` -/
def kCounterClockwise : Nat := 1

/-- generic_tessellator.h:117-120 `VertexOffset::kClockwise` -/
def kClockwise : Nat := 2

/-- generic_tessellator.h:166-169 `AdjacentTo`. The pointer is an offset into the elements. -/
def adjacentTo (elems : List (Option Nat)) (triangle triIdx offset : Nat) : Option (Option Nat) :=
  elems[triangle + (triIdx + offset) % kTriangleSize]?

/-- generic_tessellator.h:210-215, the loop of `FindNeighbor` from `other_v` on. -/
def findNeighborLoop (elems : List (Option Nat)) (o : Option Nat) (triangle offset : Nat) : List Nat →
    Option (Option Nat)
  | [] => some none
  | v :: vs => do
    let x ← elems[triangle + v]?
    if x = o then adjacentTo elems triangle v offset
    else findNeighborLoop elems o triangle offset vs

/-- generic_tessellator.h:202-216 `FindNeighbor` -/
def findNeighbor (elems : List (Option Nat)) (o : Option Nat) (neighbor : Option Nat) (offset : Nat) :
    Option (Option Nat) :=
  match neighbor with
  | none => some none
  | some k => findNeighborLoop elems o (k * kConnectedPolygonsResultSize) offset (List.range kTriangleSize)

/-- generic_tessellator.h:249-257, the loop of `FindNeighbors`. -/
def toInputIndices (vi : List (Option Nat)) : List (Option Nat) → Option (List (Option Nat))
  | [] => some []
  | none :: l => do some (none :: (← toInputIndices vi l))
  | some o :: l => do
    let x ← vi[o]?
    some (x :: (← toInputIndices vi l))

/-- generic_tessellator.h:218-259 `FindNeighbors` -/
def findNeighbors (t : Output) (triangle v : Nat) : Option (List (Option Nat)) := do
  let o ← t.elements[triangle + v]?
  let neighboring := triangle + kTriangleSize
  let n0 ← adjacentTo t.elements triangle v kCounterClockwise
  let n1 ← adjacentTo t.elements triangle v kClockwise
  let n2 ← findNeighbor t.elements o (← adjacentTo t.elements neighboring v kClockwise) kClockwise
  let n3 ← findNeighbor t.elements o (← t.elements[neighboring + v]?) kCounterClockwise
  toInputIndices t.vertexIndices [n0, n1, n2, n3]

variable {V : Type}

/-- generic_tessellator.h:261-282 `InterpolateIntersectionVertex`. Its `output_vertex_input_indices` is not used. -/
def interpolateIntersectionVertex (h : Helper V) (t : Output) (triangle v : Nat) (vertices : List V) : Option V := do
  let o ← (← t.elements[triangle + v]?)
  let p ← t.vertices[o]?
  let nbs ← findNeighbors t triangle v
  some (h.populate vertices nbs (h.createVertex p.1 p.2))

/-- The variables of `PopulateResult`: `output_vertex_input_indices` and the result. -/
structure State (V : Type) where
  known : List (Option Nat)
  vertices : List V
  indices : List Nat

/-- generic_tessellator.h:317-332, the body of the inner loop of `PopulateResult` after the `break`. -/
def corner (h : Helper V) (t : Output) (triangle v o : Nat) (s : State V) : Option (State V) := do
  match ← s.known[o]? with
  | some i => some { s with indices := s.indices ++ [i] }
  | none =>
    let x ← interpolateIntersectionVertex h t triangle v s.vertices
    some { known := s.known.set o (some s.vertices.length)
           vertices := s.vertices ++ [x]
           indices := s.indices ++ [s.vertices.length] }

/-- generic_tessellator.h:311-333, the inner loop of `PopulateResult`. -/
def corners (h : Helper V) (t : Output) (triangle : Nat) : List Nat → State V → Option (State V)
  | [], s => some s
  | v :: vs, s => do
    match ← t.elements[triangle + v]? with
    | none => some s
    | some o => do corners h t triangle vs (← corner h t triangle v o s)

/-- generic_tessellator.h:309-334, the outer loop of `PopulateResult`. -/
def triangles (h : Helper V) (t : Output) : List Nat → State V → Option (State V)
  | [], s => some s
  | e :: es, s => do
    triangles h t es (← corners h t (e * kConnectedPolygonsResultSize) (List.range kTriangleSize) s)

/-- generic_tessellator.h:284-335 `PopulateResult` -/
def populateResult (h : Helper V) (t : Output) (edges : List (List V)) : Option (Result V) := do
  let s ← triangles h t (List.range t.elementCount) ⟨t.vertexIndices, edges.flatten, []⟩
  some ⟨s.vertices, s.indices⟩

/-- The winding rules of libtess2; only these two are of interest here. -/
inductive WindingRule
  | odd
  | nonzero
deriving DecidableEq

/-- libtess2 after generic_tessellator.h:171-200 `TessellateConnectedPolygons`. It reads the coordinates of the contours. -/
abbrev Lib := List (List (F32 × F32)) → WindingRule → Option Output

/-- generic_tessellator.h:337-356 `Tessellate` -/
def tessellate (lib : Lib) (h : Helper V) (edges : List (List V)) (rule : WindingRule) : Option (Result V) :=
  match edges with
  | [] => some ⟨[], []⟩
  | [] :: _ => some ⟨[], []⟩
  | _ => match lib (edges.map fun c => c.map fun v => (h.getX v, h.getY v)) rule with
    | none => some ⟨[], []⟩
    | some t => populateResult h t edges

/-- generic_tessellator.h:358-365 `Tessellate` of one contour. -/
def tessellateContour (lib : Lib) (h : Helper V) (vertices : List V) : Option (Result V) :=
  if vertices.isEmpty then some ⟨[], []⟩ else tessellate lib h [vertices] .nonzero

/-- The results of `CreateMeshFromPolyline`. -/
inductive Outcome
  | mesh (m : Mesh)
  | tooFewPoints
  | couldNotTessellate
  | meshError

/-- mesh_format.cc:89-95 `MeshFormat::MeshFormat`, mesh_format.h:213-216: one attribute, the position, as unpacked floats. -/
def defaultFormat : Option MeshFormat := create [(.f2Unpacked, kPosition)] .unpacked32

/-- tessellator.cc:31-57 `CreateMeshFromPolyline` -/
def createMeshFromPolyline (lib : Lib) (points : List (F32 × F32)) : Option Outcome :=
  if points.length < 3 then some .tooFewPoints
  else do
    let result ← tessellateContour lib pointHelper points
    if result.indices.isEmpty then some .couldNotTessellate
    else do
      let f ← defaultFormat
      match ← Verif.Mesh.Mesh.create f [result.vertices.map Prod.fst, result.vertices.map Prod.snd] result.indices [] with
      | none => some .meshError
      | some m => some (.mesh m)

end Verif.Tess
