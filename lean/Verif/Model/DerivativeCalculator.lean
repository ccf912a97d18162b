import Verif.Model.Circle
import Verif.Model.SegmentAlgorithms
import Verif.Model.StrokeVertex
import Mathlib.Data.Real.Basic

/-!
# Model of the derivatives and margins of stroke vertices, in real arithmetic

From `ink/strokes/internal/brush_tip_extruder/derivative_calculator.{h,cc}` and the labels of `ink/strokes/internal/stroke_vertex.{h,cc}`.
Numbers are real numbers: there is no rounding, no NaN and no infinity. A mesh has only the attributes that are read or written. `none` is
a failed CHECK or an index out of range. A DCHECK does nothing.
-/

set_option autoImplicit false

namespace Verif.Derivative

open Geo

open Verif.Vertex (Category)

/-- algorithms.cc:104 `Lerp` and algorithms.cc:127-134 `InverseLerp`, in algorithms.cc:136-140 `LinearMap` -/
noncomputable def linearMap (x inLo inHi outLo outHi : ℝ) : ℝ :=
  outLo + (outHi - outLo) * (if inHi - inLo = 0 then 0 else (x - inLo) / (inHi - inLo))

/-- stroke_vertex.h:96 `kMaximumMargin` -/
noncomputable def maximumMargin : ℝ := 4

/-- stroke_vertex.h:280-292 `DecodeSideCategory` and `DecodeForwardCategory` -/
noncomputable def category (label : ℝ) : Category := if label < 0 then .leftOrFront else if label = 0 then .interior else .rightOrBack

/-- stroke_vertex.h:294-296 `DerivativeOutsetSign` -/
noncomputable def outsetSign (label : ℝ) : ℝ := (if label > 0 then 1 else 0) - (if label < 0 then 1 else 0)

/-- stroke_vertex.cc:57-66 `WithMargin` -/
noncomputable def withMargin (label margin : ℝ) : ℝ :=
  if label = 0 then label
  else outsetSign label * (⌊linearMap (RealGeom.clamp margin 0 maximumMargin) 0 maximumMargin 1 127⌋ : ℤ)

/-- stroke_vertex.cc:68-72 `DecodeMargin` -/
noncomputable def decodeMargin (label : ℝ) : ℝ := if label = 0 then 0 else linearMap |label| 1 127 0 maximumMargin

/-- stroke_vertex.h:110-139: the attributes that are read or written -/
structure Vertex where
  position : Pt ℝ
  sideDerivative : Pt ℝ
  sideLabel : ℝ
  forwardDerivative : Pt ℝ
  forwardLabel : ℝ

/-- mutable_mesh_view.h:88-159: the vertices and the triangles -/
structure Mesh where
  vertices : List Vertex
  triangles : List (ℕ × ℕ × ℕ)

/-- derivative_calculator.h:37-60 `AverageDerivative` -/
structure Average where
  magnitudeSum : ℝ := 0
  unitVectorSum : Pt ℝ := ⟨0, 0⟩
  count : ℕ := 0

namespace Average

/-- derivative_calculator.cc:41-47 `Add`, of a vector -/
noncomputable def add (a : Average) (v : Pt ℝ) : Average :=
  let m := RealGeom.Vec.magnitude ⟨v.x, v.y⟩
  if m = 0 then a else ⟨a.magnitudeSum + m, a.unitVectorSum.add ⟨v.x / m, v.y / m⟩, a.count + 1⟩

/-- derivative_calculator.cc:49-54 `Add`, of another average -/
noncomputable def merge (a b : Average) : Average :=
  ⟨a.magnitudeSum + b.magnitudeSum, a.unitVectorSum.add b.unitVectorSum, a.count + b.count⟩

/-- derivative_calculator.cc:56-60 `Value` -/
noncomputable def value (a : Average) : Pt ℝ :=
  if a.count = 0 then ⟨0, 0⟩
  else
    let v := RealGeom.Vec.fromDirectionAndMagnitude (RealGeom.Vec.direction ⟨a.unitVectorSum.x, a.unitVectorSum.y⟩) (a.magnitudeSum / a.count)
    ⟨v.re, v.im⟩

end Average

/-- derivative_calculator.h:62-65 `AverageVertexDerivatives` -/
structure Averages where
  side : Average := {}
  forward : Average := {}

/-- derivative_calculator.h:137-148, the members -/
structure Tracked where
  min : ℕ
  averages : List Averages
  margins : List ℝ

/-- derivative_calculator.cc:81-104 `ResetTrackedValues` -/
noncomputable def reset (left right : List ℕ) (mesh : Mesh) : Option Tracked :=
  let min : Option ℕ :=
    match left, right with
    | l :: _, r :: _ => some (Min.min l r)
    | l :: _, [] => some l
    | [], r :: _ => some r
    | [], [] => none
  match min with
  | none => none
  | some min =>
    if min < mesh.vertices.length then
      let n := mesh.vertices.length - min
      some ⟨min, List.replicate n {}, List.replicate n maximumMargin⟩
    else none

/-- Changes the element at an index; `none` if there is none. -/
def changeAt {α : Type} (l : List α) (i : ℕ) (f : α → α) : Option (List α) :=
  match l[i]? with
  | none => none
  | some x => some (l.set i (f x))

/-- derivative_calculator.cc:106-122 `SaveSideDerivative` and `SaveForwardDerivative`: `add` adds the derivative to one or the other -/
def saveDerivative (add : Averages → Averages) (t : Tracked) : List ℕ → Option Tracked
  | [] => some t
  | i :: is =>
    if i < t.min then saveDerivative add t is
    else
      match changeAt t.averages (i - t.min) add with
      | none => none
      | some as => saveDerivative add { t with averages := as } is

/-- derivative_calculator.cc:106-113 `SaveSideDerivative` -/
noncomputable def saveSide (t : Tracked) (is : List ℕ) (v : Pt ℝ) : Option Tracked :=
  saveDerivative (fun a => { a with side := a.side.add v }) t is

/-- derivative_calculator.cc:115-122 `SaveForwardDerivative` -/
noncomputable def saveForward (t : Tracked) (is : List ℕ) (v : Pt ℝ) : Option Tracked :=
  saveDerivative (fun a => { a with forward := a.forward.add v }) t is

/-- derivative_calculator.cc:132-150 `ForEachTriangleWithTrackedIndices`; the list has the triangles from the last to the first -/
def forEachTriangle (min : ℕ) (f : ℕ × ℕ × ℕ → Tracked → Option Tracked) : List (ℕ × ℕ × ℕ) → Tracked → Option Tracked
  | [], t => some t
  | i :: is, t =>
    if i.1 < min ∧ i.2.1 < min ∧ i.2.2 < min then some t
    else
      match f i t with
      | none => none
      | some t => forEachTriangle min f is t

/-- derivative_calculator.cc:168-172 `GetTriangleFromIndices`, with the vertices -/
def corners (mesh : Mesh) (i : ℕ × ℕ × ℕ) : Option (Vertex × Vertex × Vertex) :=
  match mesh.vertices[i.1]?, mesh.vertices[i.2.1]?, mesh.vertices[i.2.2]? with
  | some a, some b, some c => some (a, b, c)
  | _, _, _ => none

/-- derivative_calculator.cc:176-187 `PointToEdgeProjectionsForTriangle` -/
noncomputable def projections (t : Triangle ℝ) : Option (Pt ℝ × Pt ℝ × Pt ℝ) :=
  match vectorToProjection t.p2 ⟨t.p0, t.p1⟩, vectorToProjection t.p0 ⟨t.p1, t.p2⟩, vectorToProjection t.p1 ⟨t.p2, t.p0⟩ with
  | some a, some b, some c => some (a, b, c)
  | _, _, _ => none

/-- vec.h: unary minus -/
def minus (v : Pt ℝ) : Pt ℝ := ⟨-v.x, -v.y⟩

/-- derivative_calculator.cc:240-250: the side derivative of a triangle -/
noncomputable def saveSideOf (a b c : Vertex) (p : Pt ℝ × Pt ℝ × Pt ℝ) (t : Tracked) (is : List ℕ) : Option Tracked :=
  if category c.sideLabel = .leftOrFront ∧ category a.sideLabel = category c.sideLabel then saveSide t is (minus p.2.2)
  else if category c.sideLabel = .rightOrBack ∧ category b.sideLabel = category c.sideLabel then saveSide t is p.2.1
  else some t

/-- A step that is only taken under a condition. -/
def when (b : Prop) [Decidable b] (f : Tracked → Option Tracked) (t : Tracked) : Option Tracked := if b then f t else some t

/-- derivative_calculator.cc:191-269 `AddDerivativesForTriangle` -/
noncomputable def addDerivatives (mesh : Mesh) (i : ℕ × ℕ × ℕ) (t : Tracked) : Option Tracked :=
  match corners mesh i with
  | none => none
  | some (a, b, c) =>
    match projections ⟨a.position, b.position, c.position⟩ with
    | none => some t
    | some p =>
      let is := [i.1, i.2.1, i.2.2]
      (saveSideOf a b c p t is).bind fun t =>
      (when (category a.forwardLabel = category b.forwardLabel) (fun t => saveForward t is (minus p.1)) t).bind fun t =>
      (when (category b.forwardLabel = category c.forwardLabel) (fun t => saveForward t is p.2.1) t).bind fun t =>
      when (category a.forwardLabel = category c.forwardLabel) (fun t => saveForward t is p.2.2) t

/-- derivative_calculator.cc:284-292, the loop of `CalculateAverages` -/
noncomputable def averagesOf (t : Tracked) (acc : Averages) : List ℕ → Option Averages
  | [] => some acc
  | i :: is =>
    if i < t.min then none
    else
      match t.averages[i - t.min]? with
      | none => none
      | some a => averagesOf t ⟨acc.side.merge a.side, acc.forward.merge a.forward⟩ is

open Classical in
/-- derivative_calculator.cc:308-316, the loop of `StartingSameCategoryCoincidentCount`; `first` is the vertex of the first index -/
noncomputable def sameCount (mesh : Mesh) (first : Vertex) (count : ℕ) : List ℕ → Option ℕ
  | [] => some count
  | i :: is =>
    match mesh.vertices[i]? with
    | none => none
    | some v =>
      if v.position ≠ first.position ∨ category v.sideLabel ≠ category first.sideLabel ∨ category v.forwardLabel ≠ category first.forwardLabel
      then some count
      else sameCount mesh first (count + 1) is

/-- derivative_calculator.cc:333-336: the loop that stores the derivatives -/
def setDerivatives (side forward : Pt ℝ) (mesh : Mesh) : List ℕ → Option Mesh
  | [] => some mesh
  | i :: is =>
    match changeAt mesh.vertices i (fun v => { v with sideDerivative := side, forwardDerivative := forward }) with
    | none => none
    | some vs => setDerivatives side forward { mesh with vertices := vs } is

/-- derivative_calculator.cc:322-340 `UpdateMeshDerivatives`; `n` is at least the number of indices -/
noncomputable def updateDerivatives (t : Tracked) : ℕ → List ℕ → Mesh → Option Mesh
  | _, [], mesh => some mesh
  | 0, _ :: _, mesh => some mesh
  | n + 1, i :: is, mesh =>
    match mesh.vertices[i]? with
    | none => none
    | some first =>
      match sameCount mesh first 1 is with
      | none => none
      | some count =>
        match averagesOf t {} ((i :: is).take count) with
        | none => none
        | some a =>
          match setDerivatives a.side.value a.forward.value mesh ((i :: is).take count) with
          | none => none
          | some mesh => updateDerivatives t n ((i :: is).drop count) mesh

/-- derivative_calculator.cc:351-357 `SaveSideMarginUpperBound` -/
noncomputable def saveMargin (t : Tracked) (i : ℕ) (margin : ℝ) : Option Tracked :=
  if i < t.min then some t
  else
    match changeAt t.margins (i - t.min) (fun m => Min.min m margin) with
    | none => none
    | some ms => some { t with margins := ms }

/-- derivative_calculator.cc:367-371 `MakeOutsetSegment` -/
noncomputable def outsetSegment (p : Pt ℝ) (sign : ℝ) (d : Pt ℝ) : Segment ℝ := ⟨p, p.add (Pt.smul sign d)⟩

/-- derivative_calculator.cc:377-386 `MakeBoundingSegment` -/
noncomputable def boundingSegment (p : Pt ℝ) (opposite : Segment ℝ) : Segment ℝ :=
  let ratio := RealGeom.clamp ((opposite.project p).getD (1 / 2)) (1 / 10) (9 / 10)
  ⟨p, opposite.lerp ratio⟩

/-- derivative_calculator.cc:393-412 `MarginUpperBound` -/
noncomputable def marginUpperBound (outset bounding : Segment ℝ) : ℝ :=
  match uniqueLineIntersectionRatio outset bounding with
  | some r => if r.1 ≥ 0 then r.1 else maximumMargin
  | none => maximumMargin

/-- derivative_calculator.cc:485-504, one round of the loop: the vertex `v` with index `i`; `s` and `s'` are the bounding segments of the
other two -/
noncomputable def saveMarginOf (v : Vertex) (i : ℕ) (s s' : Segment ℝ) (t : Tracked) : Option Tracked :=
  let sign := outsetSign v.sideLabel
  if sign = 0 then saveMargin t i 0
  else
    let outset := outsetSegment v.position sign v.sideDerivative
    saveMargin t i (Min.min (marginUpperBound outset s) (marginUpperBound outset s'))

open Classical in
/-- derivative_calculator.cc:422-505 `AddMarginUpperBoundsForTriangle` -/
noncomputable def addMargins (mesh : Mesh) (i : ℕ × ℕ × ℕ) (t : Tracked) : Option Tracked :=
  match corners mesh i with
  | none => none
  | some (a, b, c) =>
    if (⟨a.position, b.position, c.position⟩ : Triangle ℝ).signedArea = 0 then
      if a.position ≠ b.position ∧ a.position ≠ c.position ∧ b.position ≠ c.position then
        (saveMargin t i.1 0).bind fun t => (saveMargin t i.2.1 0).bind fun t => saveMargin t i.2.2 0
      else some t
    else
      let s0 := boundingSegment a.position ⟨b.position, c.position⟩
      let s1 := boundingSegment b.position ⟨c.position, a.position⟩
      let s2 := boundingSegment c.position ⟨a.position, b.position⟩
      (saveMarginOf a i.1 s1 s2 t).bind fun t => (saveMarginOf b i.2.1 s2 s0 t).bind fun t => saveMarginOf c i.2.2 s0 s1 t

open Classical in
/-- derivative_calculator.cc:517-531, the loop of `StartingCoincidentConnectedCount` -/
noncomputable def connectedCount (mesh : Mesh) (first : Pt ℝ) (previous : Category) (count : ℕ) : List ℕ → Option ℕ
  | [] => some count
  | i :: is =>
    match mesh.vertices[i]? with
    | none => none
    | some v =>
      if v.position ≠ first then some count
      else if previous = .rightOrBack ∧ category v.forwardLabel ≠ previous then some count
      else connectedCount mesh first (category v.forwardLabel) (count + 1) is

/-- derivative_calculator.cc:550-556, the loop of `CalculateSideMargin` -/
noncomputable def marginOf (t : Tracked) (acc : ℝ) : List ℕ → Option ℝ
  | [] => some acc
  | i :: is =>
    if i < t.min then none
    else
      match t.margins[i - t.min]? with
      | none => none
      | some m => marginOf t (Min.min acc m) is

/-- derivative_calculator.cc:571-574: the loop that stores the margin -/
noncomputable def setMargins (margin : ℝ) (mesh : Mesh) : List ℕ → Option Mesh
  | [] => some mesh
  | i :: is =>
    match changeAt mesh.vertices i (fun v => { v with sideLabel := withMargin v.sideLabel margin }) with
    | none => none
    | some vs => setMargins margin { mesh with vertices := vs } is

/-- derivative_calculator.cc:561-577 `UpdateMeshMargins`; `n` is at least the number of indices -/
noncomputable def updateMargins (t : Tracked) : ℕ → List ℕ → Mesh → Option Mesh
  | _, [], mesh => some mesh
  | 0, _ :: _, mesh => some mesh
  | n + 1, i :: is, mesh =>
    match mesh.vertices[i]? with
    | none => none
    | some first =>
      match connectedCount mesh first.position (category first.forwardLabel) 1 is with
      | none => none
      | some count =>
        match marginOf t maximumMargin ((i :: is).take count) with
        | none => none
        | some m =>
          match setMargins m mesh ((i :: is).take count) with
          | none => none
          | some mesh => updateMargins t n ((i :: is).drop count) mesh

/-- derivative_calculator.cc:62-79 `UpdateMesh`; the check that there is a mesh is left out -/
noncomputable def updateMesh (left right : List ℕ) (mesh : Mesh) : Option Mesh :=
  if left = [] ∧ right = [] then some mesh
  else
    (reset left right mesh).bind fun t =>
    (forEachTriangle t.min (addDerivatives mesh) mesh.triangles.reverse t).bind fun t =>
    (updateDerivatives t left.length left mesh).bind fun mesh =>
    (updateDerivatives t right.length right mesh).bind fun mesh =>
    (forEachTriangle t.min (addMargins mesh) mesh.triangles.reverse t).bind fun t =>
    (updateMargins t left.length left mesh).bind fun mesh =>
    updateMargins t right.length right mesh

end Verif.Derivative
