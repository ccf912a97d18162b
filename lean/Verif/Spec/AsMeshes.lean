import Verif.Spec.Mesh
import Verif.Spec.MutableMesh
import Verif.Spec.FlipCorrection
import Verif.Model.AsMeshes

/-!
# What `MutableMesh::AsMeshes` is supposed to return

After `ink/geometry/mutable_mesh.h:252-290`.
-/

set_option autoImplicit false

namespace Verif.Mesh.Spec

open Verif Verif.Mesh

/-- The attributes that are not omitted, in order. -/
def keptAttrs (om : List AttrId) (attrs : List (AttrType × AttrId)) : List (AttrType × AttrId) :=
  attrs.filter fun a => !om.contains a.2

/-- The values of the attributes that are not omitted. -/
def keptVertex (om : List AttrId) (attrs : List (AttrType × AttrId)) (v : Vertex) : Vertex :=
  ((attrs.zip v).filter fun p => !om.contains p.1.2).map Prod.snd

/-- Component `k` of attribute `j`, of each of the vertices. -/
def column (vs : List Vertex) (j k : Nat) : List F32 :=
  vs.map fun v => (v.getD j []).getD k F32.zero

/-- The values of the vertices as spans, one for each component of each attribute, as `Mesh::Create`
takes them. -/
def columns (attrs : List (AttrType × AttrId)) (vs : List Vertex) : List (List F32) :=
  attrs.zipIdx.flatMap fun aj => (List.range (components aj.1.1)).map fun k => column vs aj.2 k

/-- The corners of the triangles. -/
def corners (ts : List (Nat × Nat × Nat)) : List Nat := ts.flatMap fun t => [t.1, t.2.1, t.2.2]

/-- The vertices that triangles refer to, with the attributes that are not omitted. -/
def usedVertices (s : MeshState) (om : List AttrId) : List Vertex :=
  ((corners s.triangles).filterMap (s.vertices[·]?)).map (keptVertex om s.attrs)

/-- The spans of the vertices that triangles refer to. -/
def usedSpans (s : MeshState) (om : List AttrId) : List (List F32) :=
  columns (keptAttrs om s.attrs) (usedVertices s om)

/-- The reasons for an error, for a mesh that has triangles. -/
structure Accepted (s : MeshState) (params : List (Option (List Coding))) (om : List AttrId) :
    Prop where
  triangles : TrianglesValid s
  position : 0 ∉ om
  known : ∀ id ∈ om, id ∈ s.attrs.map Prod.snd
  finite : ∀ v ∈ s.vertices, ∀ value ∈ keptVertex om s.attrs v, ∀ x ∈ value, x.isFinite = true
  coding : ParamsOk (keptAttrs om s.attrs) (usedSpans s om) params
  range : ¬ ∃ (j : Nat) (a : AttrType × AttrId), (keptAttrs om s.attrs)[j]? = some a ∧ IsPacked a.1 ∧
    NotGiven params j ∧ RangeOverflows (keptAttrs om s.attrs) (usedSpans s om) j

/-- The triangles of a mesh. -/
def trianglesOf (m : Mesh) : List (Nat × Nat × Nat) :=
  (List.range m.triangleCount).filterMap m.triangleIndices

/-- What is kept of vertex `v`. -/
def keptAt (s : MeshState) (om : List AttrId) (v : Nat) : Vertex :=
  keptVertex om s.attrs (s.vertices.getD v [])

/-- The position of vertex `v`. -/
def pointOf (s : MeshState) (v : Nat) : PointF :=
  match (s.vertices[v]?).bind (positionOf s.attrs) with
  | some (x, y) => ⟨x, y⟩
  | none => ⟨F32.zero, F32.zero⟩

/-- What is read from vertex `i` of a mesh for its attribute `j`, if the value was `val`: exactly that if
the attribute is not packed. With parameters from the caller the integers are the rounded quotients. With
other parameters the error is at most half a step, where the steps divide the interval of the values of
the vertices that are used, and the rounding of the arithmetic. -/
structure Stored (s : MeshState) (params : List (Option (List Coding))) (om : List AttrId) (m : Mesh)
    (i j : Nat) (t : AttrType) (val : List F32) : Prop where
  unpacked : ¬ IsPacked t → m.floatVertexAttribute i j = some val
  given : IsPacked t → ∀ cs, params[j]? = some (some cs) → ∃ ks, m.packedIntegers i j = some ks ∧
    Fits t ks ∧ m.floatVertexAttribute i j = some (List.zipWith unpackSingleFloat cs ks) ∧
    ∀ (k : Nat) (c : Coding) (v : F32) (z : Nat), cs[k]? = some c → val[k]? = some v → ks[k]? = some z →
      F32.toRat (F32.fround (F32.div (F32.sub v c.offset) c.scale)) = z
  computed : IsPacked t → NotGiven params j → ∃ us, m.floatVertexAttribute i j = some us ∧
    us.length = components t ∧
    ∀ (k b : Nat) (col : List F32) (lo hi v u : F32), (bits t)[k]? = some b →
      (spansOf (keptAttrs om s.attrs) (usedSpans s om) j)[k]? = some col → lo ∈ col → hi ∈ col →
      (∀ x ∈ col, F32.toRat lo ≤ F32.toRat x ∧ F32.toRat x ≤ F32.toRat hi) → val[k]? = some v →
      us[k]? = some u → u.isFinite = true ∧
      |F32.toRat u - F32.toRat v| ≤ (F32.toRat hi - F32.toRat lo) / (2 * (2 ^ b - 1)) +
        max |F32.toRat lo| |F32.toRat hi| / 2 ^ 20

/-- The mesh `m` consists of the vertices `vs`. The vertices `v` with `moved v = some q` have the
position `q`. -/
structure PartOf (s : MeshState) (params : List (Option (List Coding))) (om : List AttrId)
    (moved : Nat → Option PointF) (vs : List Nat) (m : Mesh) : Prop where
  format : create (keptAttrs om s.attrs) s.ixf = some m.format
  vertices : m.vertexCount = vs.length
  small : vs.length ≤ 65536
  nodup : vs.Nodup
  known : ∀ v ∈ vs, v < s.vertices.length
  triangles : (trianglesOf m).length = m.triangleCount ∧ trianglesOf m ≠ []
  inRange : ∀ t ∈ trianglesOf m, t.1 < vs.length ∧ t.2.1 < vs.length ∧ t.2.2 < vs.length
  refers : ∀ i < vs.length, ∃ t ∈ trianglesOf m, i = t.1 ∨ i = t.2.1 ∨ i = t.2.2
  values : ∀ (i v j : Nat) (a : AttrType × AttrId), vs[i]? = some v →
    (keptAttrs om s.attrs)[j]? = some a → a.2 ≠ 0 ∨ moved v = none →
    Stored s params om m i j a.1 ((keptAt s om v).getD j [])
  movedTo : ∀ (i v : Nat) (q : PointF), vs[i]? = some v → moved v = some q →
    m.vertexPosition i = some (q.x, q.y)
  bounds : ∀ (j : Nat) (a : AttrType × AttrId), (keptAttrs om s.attrs)[j]? = some a → ∃ los his,
    m.attributeBoundsOf j = some (some (los, his)) ∧ los.length = components a.1 ∧
    his.length = components a.1 ∧
    ∀ (k : Nat) (col : List F32) (lo hi : F32),
      (spansOf (keptAttrs om s.attrs) (columns (keptAttrs om s.attrs) (vs.map (keptAt s om))) j)[k]? =
        some col → los[k]? = some lo → his[k]? = some hi →
      lo ∈ col ∧ hi ∈ col ∧ ∀ v ∈ col, F32.le lo v = true ∧ F32.le v hi = true

/-- The triangle of the mesh `m` with these corners is not negative. -/
def MeshTriangleOk (m : Mesh) (t : Nat × Nat × Nat) : Prop :=
  ∃ a b c, m.vertexPosition t.1 = some a ∧ m.vertexPosition t.2.1 = some b ∧
    m.vertexPosition t.2.2 = some c ∧
    F32.lt (Flip.signedArea ⟨a.1, a.2⟩ ⟨b.1, b.2⟩ ⟨c.1, c.2⟩) F32.zero = false

/-- The meshes in `parts`, each with the vertices it has, are the mesh `s`. -/
structure MeshesOf (s : MeshState) (params : List (Option (List Coding))) (om : List AttrId)
    (moved : Nat → Option PointF) (parts : List (List Nat × Mesh)) : Prop where
  part : ∀ p ∈ parts, PartOf s params om moved p.1 p.2
  /-- The triangles of the meshes, one after the other, are the triangles. -/
  triangles : parts.flatMap (fun p => (trianglesOf p.2).map (lift p.1)) = s.triangles.map whole
  /-- All meshes use the same parameters, and a vertex is the same in all meshes. -/
  shared : ∀ p ∈ parts, ∀ q ∈ parts, p.2.unpackingParams = q.2.unpackingParams ∧
    ∀ (i k v j : Nat), p.1[i]? = some v → q.1[k]? = some v → j < (keptAttrs om s.attrs).length →
      (p.2.packedVertexAttribute i j).isSome ∧
      p.2.packedVertexAttribute i j = q.2.packedVertexAttribute k j
  /-- The positions that are moved are those of the correction of flipped triangles (C46). -/
  correction : ∀ p ∈ parts, ∃ a cx cy, (keptAttrs om s.attrs)[p.2.format.positionIndex]? = some a ∧
    a.2 = 0 ∧ p.2.unpackingParams[p.2.format.positionIndex]? = some [cx, cy] ∧
    Flip.corrected s.triangles (pointOf s) cx cy (if bits a.1 = [] then none else some (bits a.1)) =
      some moved
  /-- Vertices are moved only if no triangle was negative, and then no triangle is negative. They are
  moved by at most two steps. -/
  untangled : (∃ v, (moved v).isSome) → FlipSpec.NoneNegative s.triangles (pointOf s) ∧
    ∀ p ∈ parts, ∀ t ∈ trianglesOf p.2, MeshTriangleOk p.2 t
  steps : ∀ v q, moved v = some q → v ∈ corners s.triangles ∧
    ∀ p ∈ parts, ∃ cx cy, p.2.unpackingParams[p.2.format.positionIndex]? = some [cx, cy] ∧
      |F32.toRat q.x - F32.toRat (pointOf s v).x| ≤ 2 * F32.toRat cx.scale ∧
      |F32.toRat q.y - F32.toRat (pointOf s v).y| ≤ 2 * F32.toRat cy.scale

/-- Coordinates that are not too far from the origin, compared with their spread, for parameters that
are computed from them. -/
def FineColumn (b : Nat) (col : List F32) : Prop :=
  (∀ x ∈ col, x ≠ F32.neg F32.zero) ∧
  ((∀ x ∈ col, ∀ y ∈ col, F32.toRat x = F32.toRat y ∧ |F32.toRat x| ≤ 2 ^ 20) ∨
    ∃ x ∈ col, ∃ y ∈ col, ((2 ^ b - 1 : ℕ) : ℚ) / 2 ^ 99 ≤ F32.toRat y - F32.toRat x ∧
      ∀ z ∈ col, |F32.toRat z| ≤ 2 ^ 98 ∧
        |F32.toRat z| ≤ 2 ^ 20 * (F32.toRat y - F32.toRat x) / ((2 ^ b - 1 : ℕ) : ℚ))

/-- The requirement on the positions if they are packed, and no triangle is negative. -/
def FinePositions (s : MeshState) (params : List (Option (List Coding))) (om : List AttrId) : Prop :=
  ∀ (j : Nat) (a : AttrType × AttrId), (keptAttrs om s.attrs)[j]? = some a → a.2 = 0 → IsPacked a.1 →
    FlipSpec.NoneNegative s.triangles (pointOf s) →
    (∀ cs, params[j]? = some (some cs) → ∀ (k b : Nat) (c : Coding), (bits a.1)[k]? = some b →
      cs[k]? = some c → FlipSpec.Precise c b (2 ^ 21 * F32.toRat c.scale)) ∧
    (NotGiven params j → ∀ (k b : Nat) (col : List F32), (bits a.1)[k]? = some b →
      (spansOf (keptAttrs om s.attrs) (usedSpans s om) j)[k]? = some col → FineColumn b col)

end Verif.Mesh.Spec
