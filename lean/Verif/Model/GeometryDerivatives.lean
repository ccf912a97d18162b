import Verif.Model.DerivativeCalculator
import Verif.Model.PartialOutline

/-!
# Model of the update of derivatives after a stroke was extended

From `ink/strokes/internal/brush_tip_extruder/derivative_calculator_helpers.{h,cc}` and `geometry.cc`: which vertices are given to the derivative
calculator. Numbers are real numbers as in `Model/DerivativeCalculator.lean`, numbers of vertices are unbounded. `none` is a failed CHECK or an access
outside of a vector.
-/

set_option autoImplicit false

namespace Verif.Derivative

open Geo
open PartialOutline (SideId)

/-- geometry.h:637-691 `Geometry`, in part: `mesh_`, `vertex_side_ids_`, `side_offsets_`, the indices of both sides, `mesh_.FirstMutatedTriangle()`,
`first_mutated_left_index_` and `first_mutated_right_index_` -/
structure Geometry where
  mesh : Mesh
  sideIds : List SideId
  offsets : List ℕ
  left : List ℕ
  right : List ℕ
  firstTriangle : ℕ
  firstLeft : Option ℕ
  firstRight : Option ℕ

/-- derivative_calculator_helpers.cc:31-34 `VertexIsExterior` -/
def Exterior (v : Vertex) : Prop := v.sideLabel ≠ 0 ∨ v.forwardLabel ≠ 0

open Classical in
/-- derivative_calculator_helpers.cc:44-53: the indices of one triangle -/
noncomputable def findIn (mesh : Mesh) (sideIds : List SideId) : List ℕ → Option ℕ × Option ℕ → Option (Option ℕ × Option ℕ)
  | [], p => some p
  | i :: is, p =>
    match sideIds[i]? with
    | none => none
    | some .left =>
      if p.1 = none then
        mesh.vertices[i]?.bind fun v => findIn mesh sideIds is (if Exterior v then (some i, p.2) else p)
      else findIn mesh sideIds is p
    | some .right =>
      if p.2 = none then
        mesh.vertices[i]?.bind fun v => findIn mesh sideIds is (if Exterior v then (p.1, some i) else p)
      else findIn mesh sideIds is p

/-- derivative_calculator_helpers.cc:38-58 `FindFirstExteriorVertices`; the list has the triangles from the first one on -/
noncomputable def findFirst (mesh : Mesh) (sideIds : List SideId) : List (ℕ × ℕ × ℕ) → Option ℕ × Option ℕ → Option (Option ℕ × Option ℕ)
  | [], p => some p
  | t :: ts, p =>
    (findIn mesh sideIds [t.1, t.2.1, t.2.2] p).bind fun p => if p.1 ≠ none ∧ p.2 ≠ none then some p else findFirst mesh sideIds ts p

open Classical in
/-- derivative_calculator_helpers.cc:69-82, the loop of `StartingOffsetForCoincidentConnectedVertices` -/
noncomputable def backtrack (mesh : Mesh) (side : List ℕ) (position : Pt ℝ) : ℕ → Vertex.Category → Option ℕ
  | 0, _ => some 0
  | i + 1, forward =>
    side[i]?.bind fun index => mesh.vertices[index]?.bind fun v =>
      if v.position ≠ position ∨ (category v.forwardLabel ≠ forward ∧ forward = .leftOrFront) then some (i + 1)
      else backtrack mesh side position i (category v.forwardLabel)

/-- derivative_calculator_helpers.cc:60-84 `StartingOffsetForCoincidentConnectedVertices` -/
noncomputable def startingOffset (mesh : Mesh) (side : List ℕ) (included : ℕ) : Option ℕ :=
  side[included]?.bind fun index => mesh.vertices[index]?.bind fun v => backtrack mesh side v.position included (category v.forwardLabel)

/-- geometry.cc:3092-3110, the loop of `FirstVisuallyMutatedTriangle`; `left` and `right` are the lower bounds -/
def mutatedLoop (sideIds : List SideId) (triangles : List (ℕ × ℕ × ℕ)) (left right : ℕ) : ℕ → Option ℕ
  | 0 => some 0
  | i + 1 =>
    triangles[i]?.bind fun t => sideIds[t.1]?.bind fun a => sideIds[t.2.1]?.bind fun b => sideIds[t.2.2]?.bind fun c =>
      if ¬(a = .left ∧ b = .right) then mutatedLoop sideIds triangles left right i
      else
        let maxLeft := if c = .left then t.2.2 else t.1
        let maxRight := if c = .left then t.2.1 else t.2.2
        if maxLeft < left ∧ maxRight < right then some (i + 1) else mutatedLoop sideIds triangles left right i

/-- geometry.cc:3075-3113 `FirstVisuallyMutatedTriangle` -/
def Geometry.firstMutated (g : Geometry) : Option ℕ :=
  if g.firstTriangle = 0 ∨ (g.firstLeft = none ∧ g.firstRight = none) then some g.firstTriangle
  else
    (mutatedLoop g.sideIds g.mesh.triangles (g.firstLeft.getD g.mesh.vertices.length) (g.firstRight.getD g.mesh.vertices.length)
      (min (g.firstTriangle + 1) g.mesh.triangles.length)).map fun i => min g.firstTriangle i

/-- geometry.cc:590-599: the indices of a side to update, from the first exterior one -/
noncomputable def Geometry.subspan (g : Geometry) (side : List ℕ) : Option ℕ → Option (List ℕ)
  | none => some []
  | some first => g.offsets[first]?.bind fun o => (startingOffset g.mesh side o).map fun o => side.drop o

/-- geometry.cc:577-608: the indices of both sides to update -/
noncomputable def Geometry.toUpdate (g : Geometry) : Option (List ℕ × List ℕ) :=
  g.firstMutated.bind fun first =>
    if first = 0 then some (g.left, g.right)
    else
      (findFirst g.mesh g.sideIds (g.mesh.triangles.drop first) (none, none)).bind fun p =>
        (g.subspan g.left p.1).bind fun l => (g.subspan g.right p.2).map fun r => (l, r)

/-- geometry.cc:566-573 `UpdateFirstMutatedSideIndexValue`, with the first of the indices if there is one -/
def lowerFirst (first : Option ℕ) : List ℕ → Option ℕ
  | [] => first
  | i :: _ => some (match first with | none => i | some j => min j i)

/-- geometry.cc:577-620 `UpdateMeshDerivatives` -/
noncomputable def Geometry.updateDerivatives (g : Geometry) : Option Geometry :=
  g.toUpdate.bind fun p => (updateMesh p.1 p.2 g.mesh).map fun mesh =>
    { g with mesh, firstLeft := lowerFirst g.firstLeft p.1, firstRight := lowerFirst g.firstRight p.2 }

end Verif.Derivative
