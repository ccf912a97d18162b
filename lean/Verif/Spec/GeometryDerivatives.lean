import Verif.Model.GeometryDerivatives

/-!
# Specification of the update of derivatives after a stroke was extended
-/

set_option autoImplicit false

namespace Verif.Derivative.Spec

open PartialOutline (SideId)

/-- `i` is the last vertex of the side `k` before `c`. -/
def LastBefore (ids : List SideId) (k : SideId) (c i : ℕ) : Prop := ids[i]? = some k ∧ i < c ∧ ∀ j, i < j → j < c → ids[j]? ≠ some k

/-- The vertex `x` is a corner of the triangle `t`. -/
def Corner (x : ℕ) (t : ℕ × ℕ × ℕ) : Prop := x = t.1 ∨ x = t.2.1 ∨ x = t.2.2

/-- The indices of a side -/
def side (g : Geometry) : SideId → List ℕ
  | .left => g.left
  | .right => g.right

/-- A strip of triangles between the two sides of a stroke: each triangle has one vertex and the last left and the last right vertex before it. All
vertices are on the outline. If the stroke has a new front where it was before, then this comes after a back. -/
structure Strip (g : Geometry) : Prop where
  ids : g.sideIds.length = g.mesh.vertices.length
  sides : ∀ k, side g k = (List.range g.mesh.vertices.length).filter fun i => decide (g.sideIds[i]? = some k)
  offsets : ∀ (k : SideId) (p i : ℕ), (side g k)[p]? = some i → g.offsets[i]? = some p
  triangles : ∀ t ∈ g.mesh.triangles, t.2.2 < g.mesh.vertices.length ∧ LastBefore g.sideIds .left t.2.2 t.1 ∧ LastBefore g.sideIds .right t.2.2 t.2.1
  increasing : g.mesh.triangles.Pairwise fun t u => t.2.2 < u.2.2
  outline : ∀ v ∈ g.mesh.vertices, v.sideLabel ≠ 0
  labels : ∀ (k : SideId) (i j : ℕ) (v w : Vertex), LastBefore g.sideIds k j i → g.sideIds[j]? = some k → g.mesh.vertices[i]? = some v → g.mesh.vertices[j]? = some w →
    v.position = w.position → w.forwardLabel < 0 → v.forwardLabel ≠ 0

/-- The vertex is noted as changed: it is not before the first changed one of its side. -/
def Noted (g : Geometry) (i : ℕ) : Prop :=
  (g.sideIds[i]? = some .left ∧ ∃ a, g.firstLeft = some a ∧ a ≤ i) ∨ (g.sideIds[i]? = some .right ∧ ∃ a, g.firstRight = some a ∧ a ≤ i)

/-- The derivatives and margins of all vertices of triangles are those that an update of the whole mesh gives. -/
def UpToDate (g : Geometry) : Prop :=
  ∃ whole, updateMesh g.left g.right g.mesh = some whole ∧ ∀ t ∈ g.mesh.triangles, ∀ x, Corner x t → whole.vertices[x]? = g.mesh.vertices[x]?

/-- `old` became `new`: the first `c` vertices and the triangles of them were kept, what came after them was replaced. Only the last kept vertex of each
side was changed, if any. -/
structure Became (old new : Geometry) (c : ℕ) : Prop where
  count : c ≤ old.mesh.vertices.length ∧ c ≤ new.mesh.vertices.length
  ids : ∀ i < c, new.sideIds[i]? = old.sideIds[i]?
  first : new.firstTriangle ≤ new.mesh.triangles.length
  kept : new.mesh.triangles.take new.firstTriangle = old.mesh.triangles.take new.firstTriangle
  before : ∀ t ∈ new.mesh.triangles.take new.firstTriangle, t.2.2 < c
  removed : ∀ t ∈ old.mesh.triangles.drop new.firstTriangle, c ≤ t.2.2
  added : ∀ t ∈ new.mesh.triangles.drop new.firstTriangle, c ≤ t.2.2
  same : ∀ i < c, ¬Noted new i → new.mesh.vertices[i]? = old.mesh.vertices[i]?
  last : ∀ k, ∀ i < c, new.sideIds[i]? = some k → Noted new i → LastBefore new.sideIds k c i
  /-- If the last kept vertex of a side did not come with a kept triangle, then it does not leave the place of the one before it, and it does not become the front
  if it was the back there. -/
  place : ∀ (k : SideId) (i j : ℕ) (v w w' : Vertex), LastBefore new.sideIds k c j → LastBefore new.sideIds k j i →
    (∀ t ∈ new.mesh.triangles.take new.firstTriangle, t.2.2 ≠ j) → old.mesh.vertices[i]? = some v → old.mesh.vertices[j]? = some w →
    new.mesh.vertices[j]? = some w' → v.position = w.position → w'.position = w.position ∧ (w'.forwardLabel < 0 → w.forwardLabel ≤ 0)
  /-- A changed vertex is in a kept triangle, or the first new triangle is at the end of the kept ones. -/
  reach : (∃ t ∈ new.mesh.triangles.take new.firstTriangle, ∃ x, Corner x t ∧ Noted new x) ∨
    ∃ t, new.mesh.triangles[new.firstTriangle]? = some t ∧ LastBefore new.sideIds .left c t.1 ∧ LastBefore new.sideIds .right c t.2.1

/-- The geometries that a stroke has after updates: first the whole mesh is new, then it is extended again and again. -/
inductive Drawn : Geometry → Prop
  | first {g r : Geometry} : Strip g → g.firstTriangle = 0 → g.updateDerivatives = some r → Drawn r
  | next {old new r : Geometry} {c : ℕ} : Drawn old → Strip new → Became old new c → new.updateDerivatives = some r → Drawn r

end Verif.Derivative.Spec
