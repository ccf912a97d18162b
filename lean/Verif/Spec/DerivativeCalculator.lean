import Verif.Model.DerivativeCalculator

/-!
# Specification of the derivatives and margins of stroke vertices

Only the data of the model are used: points, vertices and meshes.
-/

set_option autoImplicit false

namespace Verif.Derivative.Spec

open Geo

noncomputable def length (v : Pt ℝ) : ℝ := Real.sqrt (v.x * v.x + v.y * v.y)

/-- Positive if `x` is to the left of the line from `p` to `q`, negative if it is to the right, 0 on the line. -/
def sideOf (p q x : Pt ℝ) : ℝ := (q.x - p.x) * (x.y - p.y) - (q.y - p.y) * (x.x - p.x)

/-- `x` and `y` are not on different sides of the line through `p` and `q`. -/
def SameSide (p q x y : Pt ℝ) : Prop := 0 ≤ sideOf p q x * sideOf p q y

/-- `f` is the point of the segment from `a` to `b` where the perpendicular from `p` meets it, but not nearer to one of the ends than a
tenth. -/
def Foot (p a b f : Pt ℝ) : Prop :=
  ∃ k r : ℝ, (a.x + k * (b.x - a.x) - p.x) * (b.x - a.x) + (a.y + k * (b.y - a.y) - p.y) * (b.y - a.y) = 0 ∧
    r = max (1 / 10) (min (9 / 10) k) ∧ f = ⟨a.x + r * (b.x - a.x), a.y + r * (b.y - a.y)⟩

/-- The region of the corner `a` of a triangle: what is not separated from it by the lines from the other two corners to the edges
opposite to them. -/
def InRegion (a b c x : Pt ℝ) : Prop := ∃ f g, Foot b c a f ∧ Foot c a b g ∧ SameSide b f a x ∧ SameSide c g a x

/-- The margin that a label stands for: 126 steps up to 4. -/
noncomputable def marginIn (label : ℝ) : ℝ := if label = 0 then 0 else (|label| - 1) * (4 / 126)

/-- A vertex moved outward, to the left if it is on the left side and to the right if it is on the right, by `t` times its derivative. -/
noncomputable def moved (v : Vertex) (t : ℝ) : Pt ℝ :=
  let s : ℝ := if v.sideLabel < 0 then -t else if v.sideLabel = 0 then 0 else t
  ⟨v.position.x + s * v.sideDerivative.x, v.position.y + s * v.sideDerivative.y⟩

/-- All indices of the triangle are less than `m`. -/
def Below (m : ℕ) (i : ℕ × ℕ × ℕ) : Prop := i.1 < m ∧ i.2.1 < m ∧ i.2.2 < m

/-- The triangles before one that is below `m` are also below. -/
def Sorted (m : ℕ) (is : List (ℕ × ℕ × ℕ)) : Prop := ∀ before i after, is = before ++ i :: after → Below m i → ∀ j ∈ before, Below m j

/-- The corners of a triangle, in order, from one of them on. -/
def Corners (i j : ℕ × ℕ × ℕ) : Prop := j = i ∨ j = (i.2.1, i.2.2, i.1) ∨ j = (i.2.2, i.1, i.2.1)

/-- `m` is the least of the first indices of the lists that are not empty. -/
def First (left right : List ℕ) (m : ℕ) : Prop :=
  (m ∈ left.head? ∨ m ∈ right.head?) ∧ (∀ i ∈ left.head?, m ≤ i) ∧ ∀ i ∈ right.head?, m ≤ i

/-- The vector from `p` to the nearest point of the line through `a` and `b`. -/
noncomputable def toLine (p a b : Pt ℝ) : Pt ℝ :=
  let k := ((p.x - a.x) * (b.x - a.x) + (p.y - a.y) * (b.y - a.y)) / ((b.x - a.x) * (b.x - a.x) + (b.y - a.y) * (b.y - a.y))
  ⟨a.x + k * (b.x - a.x) - p.x, a.y + k * (b.y - a.y) - p.y⟩

/-- The vector from the line through `a` and `b` to `p`. -/
noncomputable def fromLine (p a b : Pt ℝ) : Pt ℝ := ⟨-(toLine p a b).x, -(toLine p a b).y⟩

/-- Two corners are at the same point. -/
def Coincide (a b c : Vertex) : Prop := a.position = b.position ∨ b.position = c.position ∨ c.position = a.position

/-- Both are less than 0, both are 0 or both are greater. -/
def SameSign (x y : ℝ) : Prop := (x < 0 ↔ y < 0) ∧ (x = 0 ↔ y = 0)

open Classical in
/-- The vectors from left to right in a triangle: from an edge on the left side to the corner, or from the corner to an edge on the right
side. -/
noncomputable def sideVectors (a b c : Vertex) : List (Pt ℝ) :=
  if Coincide a b c then []
  else if c.sideLabel < 0 ∧ a.sideLabel < 0 then [fromLine b.position c.position a.position]
  else if 0 < c.sideLabel ∧ 0 < b.sideLabel then [toLine a.position b.position c.position]
  else []

open Classical in
/-- The vectors in the direction of travel in a triangle, across from each edge whose ends have the same forward category. -/
noncomputable def forwardVectors (a b c : Vertex) : List (Pt ℝ) :=
  if Coincide a b c then []
  else (if SameSign a.forwardLabel b.forwardLabel then [fromLine c.position a.position b.position] else []) ++
    (if SameSign b.forwardLabel c.forwardLabel then [toLine a.position b.position c.position] else []) ++
    (if SameSign a.forwardLabel c.forwardLabel then [toLine b.position c.position a.position] else [])

/-- The vectors of all triangles that have the vertex `j`, from the last triangle to the first. -/
noncomputable def vectorsAt (vectors : Vertex → Vertex → Vertex → List (Pt ℝ)) (mesh : Mesh) (j : ℕ) : List (Pt ℝ) :=
  mesh.triangles.reverse.flatMap fun i =>
    match mesh.vertices[i.1]?, mesh.vertices[i.2.1]?, mesh.vertices[i.2.2]? with
    | some a, some b, some c => if j = i.1 ∨ j = i.2.1 ∨ j = i.2.2 then vectors a b c else []
    | _, _, _ => []

open Classical in
/-- `d` is the mean of vectors, without those that are 0: its length is the mean of the lengths, its direction that of the sum of the
unit vectors unless this is 0. -/
def IsMean (vs : List (Pt ℝ)) (d : Pt ℝ) : Prop :=
  let ws := vs.filter fun v => v ≠ ⟨0, 0⟩
  (ws = [] → d = ⟨0, 0⟩) ∧
    (ws ≠ [] → length d = (ws.map length).sum / ws.length ∧
      ∃ k : ℝ, 0 ≤ k ∧ (ws.map fun w => w.x / length w).sum = k * d.x ∧ (ws.map fun w => w.y / length w).sum = k * d.y)

/-- Two vertices at the same point with the same categories. -/
def Alike (v w : Vertex) : Prop := v.position = w.position ∧ SameSign v.sideLabel w.sideLabel ∧ SameSign v.forwardLabel w.forwardLabel

end Verif.Derivative.Spec
