import Verif.Spec.GeometryDerivatives
import Verif.Spec.Triangulation

/-!
# Specification of how a stroke is drawn: calls of the extruder, and updates of derivatives
-/

set_option autoImplicit false

namespace Verif.Derivative.Spec

open Geo
open PartialOutline (SideId)
open Triangulation (State Op run Forward)
open Triangulation.Spec (Unlabelled)

variable {K : Type} [Field K] [LinearOrder K]

/-- A vertex of the mesh has the place and the label of a vertex of the triangulation, and is on the outline. Its derivatives and its margin are any. -/
structure ShowsVertex (place : Pt K → Pt ℝ) (v : Vertex) (w : Triangulation.Vertex K) : Prop where
  position : v.position = place w.position
  front : v.forwardLabel < 0 ↔ w.forward = .front
  back : 0 < v.forwardLabel ↔ w.forward = .back
  outline : v.sideLabel ≠ 0

/-- A mesh has the vertices and triangles of a triangulation. -/
structure Shows (place : Pt K → Pt ℝ) (g : Geometry) (s : State K) : Prop where
  ids : g.sideIds = s.sideOf
  left : g.left = s.left.indices
  right : g.right = s.right.indices
  triangles : g.mesh.triangles = s.triangles
  count : g.mesh.vertices.length = s.vertices.length
  vertex : ∀ (i : ℕ) v w, g.mesh.vertices[i]? = some v → s.vertices[i]? = some w → ShowsVertex place v w
  offsets : ∀ (k : SideId) (p i : ℕ), (side g k)[p]? = some i → g.offsets[i]? = some p

/-- What is noted when the mesh of `old`, that shows `before`, becomes the mesh of `new`, that shows `after`, and both come from `kept`. -/
structure Keeps (kept before after : State K) (old new : Geometry) : Prop where
  first : new.firstTriangle = kept.triangles.length
  /-- Of the kept vertices only the last one of each side may be noted. -/
  noted : ∀ i < kept.vertices.length, Noted new i → ∃ k, (kept.side k).indices.getLast? = some i
  /-- Others have the derivatives and margins that they had. -/
  same : ∀ i < kept.vertices.length, ¬Noted new i → new.mesh.vertices[i]? = old.mesh.vertices[i]?
  /-- The last kept vertex of a side is not at the place of the one before it, or not changed from back to front. -/
  label : ∀ (k : SideId) (i j : ℕ) (v w : Vertex), (kept.side k).indices.getLast? = some j → LastBefore kept.sideOf k j i → old.mesh.vertices[i]? = some v →
    old.mesh.vertices[j]? = some w → v.position = w.position → before.vertices[j]?.map (·.forward) = some .back → after.vertices[j]?.map (·.forward) ≠ some .front

/-- In addition something new reaches what is kept. -/
structure Extends (kept before after : State K) (old new : Geometry) : Prop extends Keeps kept before after old new where
  /-- A kept vertex of a kept triangle is noted, or the first new triangle is one with kept vertices of both sides, or all are new. -/
  reach : kept.triangles = [] ∨ (∃ t ∈ kept.triangles, ∃ x, Corner x t ∧ Noted new x) ∨
    ∃ t, after.triangles[kept.triangles.length]? = some t ∧ t.1 < kept.vertices.length ∧ t.2.1 < kept.vertices.length

/-- A stroke while it is drawn: the state that is kept if what was predicted is removed, the state that is shown, and the mesh after the update. Each time
calls of the extruder continue from the kept state, and then others add what is predicted. -/
inductive Stroke (hypot : K → K → K) (place : Pt K → Pt ℝ) : State K → State K → Geometry → Prop
  | first {kept shown : State K} {fixed predicted : List (Op K)} {g r : Geometry} :
    (∀ o ∈ fixed ++ predicted, Unlabelled o) → run hypot ⟨[], [], [], ⟨[], 0, [], 0, []⟩, ⟨[], 0, [], 0, []⟩⟩ fixed = some kept → run hypot kept predicted = some shown →
    Shows place g shown → g.firstTriangle = 0 → g.updateDerivatives = some r → Stroke hypot place kept shown r
  | next {kept shown kept' shown' : State K} {fixed predicted : List (Op K)} {old new r : Geometry} :
    Stroke hypot place kept shown old → (∀ o ∈ fixed ++ predicted, Unlabelled o) → run hypot kept fixed = some kept' → run hypot kept' predicted = some shown' →
    Shows place new shown' → Extends kept shown shown' old new → new.updateDerivatives = some r → Stroke hypot place kept' shown' r

end Verif.Derivative.Spec
