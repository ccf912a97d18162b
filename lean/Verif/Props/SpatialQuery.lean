import Verif.Lemmas.SpatialQuery
import Verif.Props.PartitionedMesh

/-!
# C47: spatial queries
-/

set_option autoImplicit false

namespace Verif.PMeshSpec

open Verif.Mesh Verif.PMesh F32 Verif.RTree

/-- C47: a query by a point, segment, triangle, rectangle or quad, for any sorting routine in the index. It succeeds, and
shows to the visitor each triangle of the shape for which the intersection test succeeds and whose bounding box meets that
of the query, exactly once, and no other one, until the visitor asks to stop.

Partial: for meshes of 65536 triangles or more see `C47_wrap`, for shapes with groups and no meshes
`C47_no_meshes_counterexample`. -/
theorem C47_visit_partial (S : Sorts) (hx : ∀ f l, (S.x f l).Perm l) (hy : ∀ f l, (S.y f l).Perm l) (s : PartitionedMesh)
    (hs : Searchable s) (q : Query) (r : RectF) (hq : QueryFor s q r) :
    ∃ order, Found s q r order ∧ ∀ (σ : Type) (visitor : σ → TriangleIndexPair → σ × Bool) (st : σ),
      s.visitTriangles S q visitor st = some (showUntilStop visitor order st) :=
  visit_found hx hy hs hq

/-- C47: if the intersection test succeeds only for triangles whose bounding box meets that of the query (as an
intersection has a point in both), then the visited triangles are those which intersect the query. -/
theorem C47_visit_all_partial (S : Sorts) (hx : ∀ f l, (S.x f l).Perm l) (hy : ∀ f l, (S.y f l).Perm l)
    (s : PartitionedMesh) (hs : Searchable s) (q : Query) (r : RectF) (hq : QueryFor s q r)
    (hb : ∀ p t, IsTriangle s p t → q.hits t = some true → BoxesMeet t r) :
    ∃ order : List TriangleIndexPair, order.Nodup ∧ (∀ p, p ∈ order ↔ ∃ t, IsTriangle s p t ∧ q.hits t = some true) ∧
      ∀ (σ : Type) (visitor : σ → TriangleIndexPair → σ × Bool) (st : σ),
        s.visitTriangles S q visitor st = some (showUntilStop visitor order st) := by
  obtain ⟨order, ⟨h1, h2⟩, h3⟩ := visit_found hx hy hs hq
  refine ⟨order, h1, fun p => ?_, h3⟩
  rw [h2]
  exact ⟨fun ⟨t, a, b, _⟩ => ⟨t, a, b⟩, fun ⟨t, a, b⟩ => ⟨t, a, b, hb p t a b⟩⟩

/-- C47: the test of a shape against a triangle, which a query by a shape uses. -/
theorem C47_meets_partial (S : Sorts) (hx : ∀ f l, (S.x f l).Perm l) (hy : ∀ f l, (S.y f l).Perm l) (s : PartitionedMesh)
    (hs : Searchable s) (q : Query) (r : RectF) (hq : QueryFor s q r) :
    ∃ b, s.meets S q = some b ∧ (b = true ↔ MeetsShape s q) := by
  obtain ⟨order, ⟨-, h2⟩, h3⟩ := visit_found hx hy hs hq
  have e : ∀ l : List TriangleIndexPair, showUntilStop (fun (_ : Bool) (_ : TriangleIndexPair) => (true, false)) l false = true ↔
      ∃ p, p ∈ l := by
    intro l
    cases l with
    | nil => simp [showUntilStop]
    | cons p l => simp [showUntilStop]
  refine ⟨_, h3 Bool _ false, ?_⟩
  rw [e]
  unfold MeetsShape
  constructor
  · rintro ⟨p, hp⟩
    obtain ⟨t, a, b, c⟩ := (h2 p).1 hp
    exact ⟨p, t, r, a, hq.box, b, c⟩
  · rintro ⟨p, t, r', a, b, c, d⟩
    rw [hq.box] at b
    cases b
    exact ⟨p, (h2 p).2 ⟨t, a, c, d⟩⟩

/-- C47: a query by another shape, with a transform which can be inverted. The visited triangles are those which meet a
triangle of the other shape, and whose bounding box meets that of the transformed bounds of the other shape. -/
theorem C47_visit_shape_partial (S : Sorts) (hx : ∀ f l, (S.x f l).Perm l) (hy : ∀ f l, (S.y f l).Perm l)
    (s query : PartitionedMesh) (hs : Searchable s) (hs' : Searchable query) (A : ShapeTransform) (b r : RectF)
    (hA : A.invertible = true) (hb : query.bounds = some (some b)) (hr : Envelope.add none (A.quad b) = some r)
    (hv : r.Valid) (hq : ∀ p t, IsTriangle s p t → ∃ r', QueryFor query (A.back t) r') (hne : query.meshes ≠ []) :
    ∃ order : List TriangleIndexPair, order.Nodup ∧
      (∀ p, p ∈ order ↔ ∃ t, IsTriangle s p t ∧ MeetsShape query (A.back t) ∧ BoxesMeet t r) ∧
      ∀ (σ : Type) (visitor : σ → TriangleIndexPair → σ × Bool) (st : σ),
        s.visitShape S query A visitor st = some (showUntilStop visitor order st) := by
  have hQ : QueryFor s ⟨A.quad b, fun t => query.meets S (A.back t)⟩ r := by
    refine ⟨hr, hv, fun p t ht => ?_⟩
    obtain ⟨r', hr'⟩ := hq p t ht
    obtain ⟨c, h, -⟩ := C47_meets_partial S hx hy query hs' _ r' hr'
    show (query.meets S (A.back t)).isSome = true
    rw [h]; rfl
  obtain ⟨order, ⟨h1, h2⟩, h3⟩ := visit_found hx hy hs hQ
  refine ⟨order, h1, fun p => ?_, fun σ visitor st => ?_⟩
  · rw [h2]
    refine exists_congr fun t => and_congr_right fun ht => and_congr_left fun _ => ?_
    obtain ⟨r', hr'⟩ := hq p t ht
    obtain ⟨c, h, h'⟩ := C47_meets_partial S hx hy query hs' _ r' hr'
    show query.meets S (A.back t) = some true ↔ _
    rw [h, ← h', Option.some.injEq]
  · rw [← h3]
    cases s with
    | none => rfl
    | some d =>
      unfold PartitionedMesh.visitShape
      simp only [hb, hA, Option.bind_some, if_true]
      rw [if_neg (by simpa using hne)]

/-- C47: the default shape is never visited, and a shape without meshes visits nothing of another shape. -/
theorem C47_default (S : Sorts) (q : Query) (query : PartitionedMesh) (A : ShapeTransform) (σ : Type)
    (visitor : σ → TriangleIndexPair → σ × Bool) (st : σ) (s : PartitionedMesh) :
    PartitionedMesh.visitTriangles S none q visitor st = some st ∧
    PartitionedMesh.visitShape S none query A visitor st = some st ∧
    (query.meshes = [] → s.visitShape S query A visitor st = some st) := by
  refine ⟨rfl, rfl, fun h => ?_⟩
  cases s with
  | none => rfl
  | some d =>
    unfold PartitionedMesh.visitShape
    simp [h]

/-- C47, no meshes: a shape with groups but no meshes, which `WithEmptyGroups` makes, has no triangles, but querying it
fails a `CHECK`, by any other query than a shape without meshes. -/
theorem C47_no_meshes_counterexample (n : Nat) (hn : n < 4294967296) :
    ∃ s, PartitionedMesh.withEmptyGroups n = some s ∧ s.meshes = [] ∧
      ∀ (S : Sorts) (q : Query) (σ : Type) (visitor : σ → TriangleIndexPair → σ × Bool) (st : σ),
        s.visitTriangles S q visitor st = none := by
  obtain ⟨s, h1, -, -, h2⟩ := C16_empty_groups n hn
  refine ⟨s, h1, h2, fun S q σ visitor st => ?_⟩
  cases s with
  | none =>
    unfold PartitionedMesh.withEmptyGroups PartitionedMesh.fromMeshGroups at h1
    simp at h1
  | some d =>
    have h2 : d.meshes = [] := h2
    unfold PartitionedMesh.visitTriangles Data.spatialIndex
    simp [h2]

/-! ## Meshes of 65536 triangles or more -/

theorem generate_wrap {ms : List Mesh} {m : Mesh} (hm : ms[0]? = some m) (hc : 65536 ≤ m.triangleCount) :
    ∀ n j, j < 65536 → ∃ es, generate ms n ⟨0, j⟩ = some es ∧ es.length = n ∧
      ∀ p ∈ es, p.meshIndex = 0 ∧ p.triangleIndex < 65536 := by
  intro n
  induction n with
  | zero => intro j _; exact ⟨[], rfl, rfl, by simp⟩
  | succ n ih =>
    intro j hj
    have hu : u16 (j + 1) < 65536 := Nat.mod_lt _ (by decide)
    obtain ⟨es, h1, h2, h3⟩ := ih _ hu
    refine ⟨⟨0, j⟩ :: es, ?_, by simp [h2], ?_⟩
    · rw [generate]
      unfold nextIndex
      simp only [hm, Option.map_some, Option.bind_some]
      rw [if_neg (by omega), h1]
      rfl
    · intro p hp
      rcases List.mem_cons.1 hp with rfl | hp
      · exact ⟨rfl, hj⟩
      · exact h3 p hp

/-- A visitor which makes the list of the triangles that it is shown. -/
def collect (l : List TriangleIndexPair) (p : TriangleIndexPair) : List TriangleIndexPair × Bool := (l ++ [p], true)

theorem show_collect (l acc : List TriangleIndexPair) : showUntilStop collect l acc = acc ++ l := by
  induction l generalizing acc with
  | nil => simp [showUntilStop]
  | cons p l ih =>
    rw [showUntilStop]
    show showUntilStop collect l (acc ++ [p]) = _
    rw [ih]
    simp

/-- C47, wrapped indices: if the first mesh has 65536 triangles or more, its index wraps to 0 before the next mesh is
reached, so triangles of the other meshes are never shown, nor those after the first 65536 of the first mesh, whether they
intersect the query or not. The query is otherwise one of those of `C47_visit_partial`. -/
theorem C47_wrap (S : Sorts) (hx : ∀ f l, (S.x f l).Perm l) (hy : ∀ f l, (S.y f l).Perm l) (d : Data)
    (m : Mesh) (hm : d.meshes[0]? = some m) (hc : 65536 ≤ m.triangleCount)
    (hsum : (d.meshes.map fun m => m.triangleCount).sum < 4294967296)
    (hr : ∀ i < m.triangleCount, ∃ t, meshTriangle m i = some t ∧ NoNaN t) (q : Query) (r : RectF)
    (hq : QueryFor (some d) q r) :
    ∃ l, PartitionedMesh.visitTriangles S (some d) q collect [] = some l ∧
      ∀ p ∈ l, p.meshIndex = 0 ∧ p.triangleIndex < 65536 := by
  obtain ⟨es, h1, h2, h3⟩ := generate_wrap hm hc (triangleTotal d.meshes) 0 (by decide)
  have hlen : es.length = (d.meshes.map fun m => m.triangleCount).sum := by rw [h2, triangleTotal_eq hsum]
  have hpos : 0 < (d.meshes.map fun m => m.triangleCount).sum := by
    have : m.triangleCount ≤ (d.meshes.map fun m => m.triangleCount).sum :=
      List.le_sum_of_mem (List.mem_map.2 ⟨m, List.mem_of_getElem? hm, rfl⟩)
    omega
  have hne : d.meshes ≠ [] := by
    intro h; rw [h] at hm; cases hm
  have htri : ∀ p ∈ es, ∃ t, triangleAt d.meshes p = some t ∧ NoNaN t := by
    intro p hp
    obtain ⟨a, b⟩ := h3 p hp
    unfold triangleAt
    rw [a, hm, Option.bind_some]
    exact hr _ (by omega)
  obtain ⟨order, hperm, hv⟩ := visit_elements hx hy hne h1 (by intro h; rw [h, List.length_nil] at hlen; omega)
    (by rw [hlen]; norm_num; exact hsum) htri hq.box (fun p hp t ht => by
      obtain ⟨a, b⟩ := h3 p hp
      unfold triangleAt at ht
      rw [a, hm, Option.bind_some] at ht
      refine hq.total p t ⟨m, ?_, by omega, ht⟩
      rw [a]; exact hm)
  refine ⟨order, by rw [hv, show_collect]; rfl, fun p hp => ?_⟩
  exact h3 p (List.mem_of_mem_filter (hperm.mem_iff.1 hp))

end Verif.PMeshSpec
