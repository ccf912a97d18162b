import Verif.Model.Tessellator
import Mathlib.Data.List.Dedup

/-!
# What is expected of a tessellation

The first part says what libtess2 returns in the mode `TESS_CONNECTED_POLYGONS` with triangles: three vertices per triangle,
counterclockwise, then for each of its three edges the triangle on the other side; vertices that are input vertices have the
index of one and its position. The second part says what the caller of `Tessellate` gets.
-/

set_option autoImplicit false

namespace Verif.Tess.Spec

open Verif Verif.Tess

/-- Corner `v` (counted modulo three) of triangle `e`. -/
def vertexOf (t : Output) (e v : Nat) : Option Nat := (t.elements[6 * e + v % 3]?).join

/-- The triangle on the other side of the edge from corner `v` to corner `v + 1` of triangle `e`. -/
def neighborOf (t : Output) (e v : Nat) : Option Nat := (t.elements[6 * e + 3 + v % 3]?).join

/-- The input vertex that vertex `o` of libtess2 is, if it is one. -/
def inputOf (t : Output) (o : Nat) : Option Nat := (t.vertexIndices[o]?).join

/-- The contract of libtess2, for input vertices at the positions `inputs`. -/
structure WellFormed (t : Output) (inputs : List (F32 × F32)) : Prop where
  sameSize : t.vertexIndices.length = t.vertices.length
  size : t.elements.length = 6 * t.elementCount
  isInt : t.elementCount < 2 ^ 31
  corner : ∀ e < t.elementCount, ∀ v, ∃ o < t.vertices.length, vertexOf t e v = some o
  distinct : ∀ e < t.elementCount, ∀ v < 3, ∀ w < 3, vertexOf t e v = vertexOf t e w → v = w
  edge : ∀ e < t.elementCount, ∀ v k, neighborOf t e v = some k → k < t.elementCount ∧
    ∃ u, vertexOf t k u = vertexOf t e (v + 1) ∧ vertexOf t k (u + 1) = vertexOf t e v
  input : ∀ o j, inputOf t o = some j → j < inputs.length ∧ inputs[j]? = t.vertices[o]?

/-- `w` is the third corner of the triangle on the other side of the edge from corner `v` to corner `v + 1` of triangle `e`;
`none` if there is no triangle. -/
def Across (t : Output) (e v : Nat) : Option Nat → Prop
  | none => neighborOf t e v = none
  | some w => ∃ k u, neighborOf t e v = some k ∧ vertexOf t k u = vertexOf t e (v + 1) ∧
      vertexOf t k (u + 1) = vertexOf t e v ∧ vertexOf t k (u + 2) = some w

/-- `n` are the input vertices among these four vertices: the next and the previous corner of triangle `e` after corner `v`, and
the third corners of the triangles on the other side of the edge to corner `v` and of the edge from corner `v`. -/
def Around (t : Output) (e v : Nat) (n : List (Option Nat)) : Prop :=
  ∃ a b c d, vertexOf t e (v + 1) = some a ∧ vertexOf t e (v + 2) = some b ∧ Across t e (v + 2) c ∧ Across t e v d ∧
    n = [inputOf t a, inputOf t b, c.bind (inputOf t), d.bind (inputOf t)]

/-- The corners of all triangles in order: corner number `c`. -/
def cornerAt (t : Output) (c : Nat) : Option Nat := vertexOf t (c / 3) c

/-- The vertices of triangles that are not input vertices, each once. -/
def newVertices (t : Output) : List Nat :=
  (((List.range (3 * t.elementCount)).filterMap (cornerAt t)).filter fun o => (inputOf t o).isNone).dedup

/-- libtess2 keeps its contract. -/
def Contract (lib : Lib) : Prop :=
  ∀ contours rule t, lib contours rule = some t → WellFormed t contours.flatten

variable {V : Type}

/-- The result has the triangles of libtess2: all input vertices, then one new vertex for each vertex of a triangle that is not
an input vertex. -/
structure Faithful (h : Helper V) (t : Output) (inputs : List V) (r : Result V) : Prop where
  count : r.indices.length = 3 * t.elementCount
  keeps : r.vertices.take inputs.length = inputs
  old : ∀ c o j, c < 3 * t.elementCount → cornerAt t c = some o → inputOf t o = some j → r.indices[c]? = some j
  new : ∀ c o, c < 3 * t.elementCount → cornerAt t c = some o → inputOf t o = none →
    ∃ i, inputs.length ≤ i ∧ i < r.vertices.length ∧ r.indices[c]? = some i
  shared : ∀ c o c' o', c < 3 * t.elementCount → c' < 3 * t.elementCount → cornerAt t c = some o → cornerAt t c' = some o' →
    inputOf t o = none → inputOf t o' = none → (r.indices[c]? = r.indices[c']? ↔ o = o')
  used : ∀ i, inputs.length ≤ i → i < r.vertices.length → ∃ c o x y n, c < 3 * t.elementCount ∧ cornerAt t c = some o ∧
    inputOf t o = none ∧ r.indices[c]? = some i ∧ (∀ c' < c, cornerAt t c' ≠ some o) ∧
    t.vertices[o]? = some (x, y) ∧ Around t (c / 3) (c % 3) n ∧
    r.vertices[i]? = some (h.populate (r.vertices.take i) n (h.createVertex x y))

/-- A helper is lawful if new vertices have the position they were made for. -/
structure Lawful (h : Helper V) : Prop where
  createX : ∀ x y, h.getX (h.createVertex x y) = x
  createY : ∀ x y, h.getY (h.createVertex x y) = y
  populateX : ∀ vs n v, h.getX (h.populate vs n v) = h.getX v
  populateY : ∀ vs n v, h.getY (h.populate vs n v) = h.getY v

end Verif.Tess.Spec
