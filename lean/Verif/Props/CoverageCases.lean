import Verif.Props.Coverage
import Mathlib.Data.List.Sort

/-!
# C17: concrete cases
-/

set_option autoImplicit false

namespace Verif.PMeshSpec

open Verif.Mesh Verif.PMesh F32 Verif.RTree Verif.Mesh.Spec

namespace ExSpatial

/-- static_rtree.h:230-241 the comparisons, as insertion sorts use them. -/
def before (key : RectF → F32) (f : ℕ → Option RectF) (i j : ℕ) : Bool :=
  match f i, f j with
  | some r, some s => le (key r) (key s)
  | _, _ => true

/-- Sorting as the code does, by the least `x` and by the least `y`. -/
def bySize : Sorts :=
  ⟨fun f l => l.insertionSort fun i j => before RectF.xMin f i j = true,
   fun f l => l.insertionSort fun i j => before RectF.yMin f i j = true⟩

theorem bySize_perm : (∀ f l, (bySize.x f l).Perm l) ∧ ∀ f l, (bySize.y f l).Perm l :=
  ⟨fun _ _ => List.perm_insertionSort _ _, fun _ _ => List.perm_insertionSort _ _⟩

/-- A shape of one mesh, of the given coordinates, each three a triangle. -/
def shapeOf (spans : List (List F32)) (tris : List Nat) : Option PartitionedMesh :=
  (Mesh.Mesh.create fmt spans tris []).bind fun o => o.bind fun m => PartitionedMesh.fromMeshGroups [⟨[m], []⟩]

/-- A query by a rectangle which hits what is to the left of `x`. -/
def leftOf (x : F32) : Query :=
  ⟨.rect ⟨ofInt (-100000), ofInt (-100000), ofInt 100000, ofInt 100000⟩, fun t => some (lt t.1.x x)⟩

end ExSpatial

open ExSpatial in
/-- C17, agreement: close to the threshold the two functions disagree. In a shape of two triangles of areas 5 and 6, of
which the query hits the first, `Coverage` is `5/11` rounded up. For a threshold `t` just below that, `Coverage` is greater
than `t`, but `CoverageIsGreaterThan(t)` is false, as `11 t` is rounded to 5. -/
theorem C17_greater_counterexample :
    ∃ s t cov, shapeOf spans [0, 1, 2, 3, 4, 5] = some s ∧ t.isFinite = true ∧
      s.coverage bySize (leftOf (ofInt 8)) = some cov ∧ lt t cov = true ∧
      s.coverageIsGreaterThan bySize (leftOf (ofInt 8)) t = some false := by
  have h : ((shapeOf spans [0, 1, 2, 3, 4, 5]).any fun s =>
      (match s.coverage bySize (leftOf (ofInt 8)), s.coverageIsGreaterThan bySize (leftOf (ofInt 8)) (ofBits 0x3ee8ba2e) with
      | some cov, some b => lt (ofBits 0x3ee8ba2e) cov && !b
      | _, _ => false)) = true := by decide +kernel
  rw [Option.any_eq_true] at h
  obtain ⟨s, hs, h⟩ := h
  rcases hc : s.coverage bySize (leftOf (ofInt 8)) with _ | cov
  · rw [hc] at h; cases h
  rcases hb : s.coverageIsGreaterThan bySize (leftOf (ofInt 8)) (ofBits 0x3ee8ba2e) with _ | b
  · rw [hc, hb] at h; cases h
  rw [hc, hb] at h
  simp only [Bool.and_eq_true, Bool.not_eq_true'] at h
  exact ⟨s, _, cov, hs, by decide +kernel, hc, h.1, by rw [hb, h.2]⟩

namespace ExSpatial

/-- Three triangles of areas `2^24`, 1 and 1, the large one above the others. -/
def heavy : List (List F32) :=
  [[ofInt 0, ofInt 8192, ofInt 0, ofInt 0, ofInt 2, ofInt 0, ofInt 0, ofInt 2, ofInt 0],
   [ofInt 10, ofInt 10, ofInt 4106, ofInt 0, ofInt 0, ofInt 1, ofInt 1, ofInt 1, ofInt 2]]

end ExSpatial

open ExSpatial in
/-- C17, range: `Coverage` can be greater than one. The total area is summed in the order of the mesh, the covered area in
the order of the search tree; for areas `2^24`, 1, 1 in this order the sum is `2^24`, as the small ones get lost, but in the
order 1, 1, `2^24` it is `2^24 + 2`. -/
theorem C17_above_one_counterexample :
    ∃ s cov, shapeOf heavy [0, 1, 2, 3, 4, 5, 6, 7, 8] = some s ∧
      s.coverage bySize (leftOf (ofInt 100)) = some cov ∧ lt (ofInt 1) cov = true := by
  have h : ((shapeOf heavy [0, 1, 2, 3, 4, 5, 6, 7, 8]).any fun s =>
      (s.coverage bySize (leftOf (ofInt 100))).any fun cov => lt (ofInt 1) cov) = true := by decide +kernel
  rw [Option.any_eq_true] at h
  obtain ⟨s, hs, h⟩ := h
  rw [Option.any_eq_true] at h
  obtain ⟨cov, hc, h⟩ := h
  exact ⟨s, cov, hs, hc, h⟩

open ExSpatial in
/-- C17: if the triangles have no area, `Coverage` is NaN. -/
theorem C17_no_area_counterexample :
    ∃ s, shapeOf spans [0, 0, 1] = some s ∧ s.coverage bySize everything = some nan := by
  have h : ((shapeOf spans [0, 0, 1]).any fun s => decide (s.coverage bySize everything = some nan)) = true := by
    decide +kernel
  rw [Option.any_eq_true] at h
  obtain ⟨s, hs, h⟩ := h
  exact ⟨s, hs, by simpa using h⟩

/-- C17: for shapes which have groups, but no meshes, both functions fail a check. (The header says that the coverage of
shapes which are empty is zero.) -/
theorem C17_no_meshes_counterexample (S : Sorts) (d : Data) (h : d.meshes = []) (q : Query) (t : F32) :
    PartitionedMesh.coverage S (some d) q = none ∧ PartitionedMesh.coverageIsGreaterThan S (some d) q t = none := by
  constructor
  · show computeCoverage d _ = none
    unfold computeCoverage Data.totalAbsoluteArea
    rw [h]; rfl
  · show coverageIsGreaterThanHelper d _ t = none
    unfold coverageIsGreaterThanHelper Data.totalAbsoluteArea
    rw [h]; rfl

/-- Such shapes exist. -/
example : ∃ d, PartitionedMesh.withEmptyGroups 2 = some (some d) ∧ d.meshes = [] := ⟨_, rfl, rfl⟩

/-! ## The hypotheses are met -/

namespace ExSpatial

/-- The shape of two triangles can be searched. -/
theorem two : ∃ s, shapeOf spans [0, 1, 2, 3, 4, 5] = some s ∧ s ≠ none ∧ Searchable s := by
  obtain ⟨m, h1, h2, h3⟩ := readable [0, 1, 2, 3, 4, 5] (by decide) (by decide) (by decide)
  have h2 : m.triangleCount = 2 := h2
  obtain ⟨s, hs⟩ := (C16_build_iff_partial [⟨[m], []⟩]).2 ⟨by simp [totalMeshes], by
    intro g hg
    rw [List.mem_singleton.1 hg]
    refine ⟨by simp; omega, ?_, by simp, by simp⟩
    intro m1 h1 m2 h2
    simp only [List.mem_singleton] at h1 h2
    rw [h1, h2]
    exact ⟨rfl, rfl⟩⟩
  have hS := C47_searchable [⟨[m], []⟩] s hs (by simp) (by simp [totalOutlines]) ⟨_, List.mem_singleton.2 rfl, by simp⟩ (by
    intro g hg m' hm'
    rw [List.mem_singleton.1 hg] at hm'
    rw [List.mem_singleton.1 hm']
    exact ⟨by omega, h3⟩)
  refine ⟨s, ?_, ?_, hS⟩
  · unfold shapeOf
    rw [h1]
    exact hs
  · rintro rfl
    have := (C16_contents _ _ hs (by simp [maxCount]) (by simp [totalOutlines, maxCount])).meshes
    cases this

/-- What its triangles are. -/
theorem two_triangles {s : PartitionedMesh} (hs : shapeOf spans [0, 1, 2, 3, 4, 5] = some s) {p : TriangleIndexPair}
    {t : TriangleF} (h : IsTriangle s p t) :
    (p = ⟨0, 0⟩ ∧ fabs (Flip.signedArea t.1 t.2.1 t.2.2) = ofInt 5) ∨
    (p = ⟨0, 1⟩ ∧ fabs (Flip.signedArea t.1 t.2.1 t.2.2) = ofInt 6) := by
  have hb : ((shapeOf spans [0, 1, 2, 3, 4, 5]).all fun s =>
      decide (s.meshes.length = 1) && s.meshes.all fun m => decide (m.triangleCount = 2) &&
        decide ((meshTriangle m 0).map absoluteArea = some (ofInt 5)) &&
        decide ((meshTriangle m 1).map absoluteArea = some (ofInt 6))) = true := by decide +kernel
  rw [hs] at hb
  simp only [Option.all_some, Bool.and_eq_true, decide_eq_true_eq, List.all_eq_true] at hb
  obtain ⟨m, h1, h2, h3⟩ := h
  obtain ⟨⟨b1, b2⟩, b3⟩ := hb.2 m (List.mem_of_getElem? h1)
  have hi := (List.getElem?_eq_some_iff.1 h1).1
  obtain ⟨i, j⟩ := p
  simp only at h1 h2 h3 hi
  obtain rfl : i = 0 := by omega
  have : j = 0 ∨ j = 1 := by omega
  rcases this with rfl | rfl
  · rw [h3] at b2
    exact Or.inl ⟨rfl, Option.some.inj b2⟩
  · rw [h3] at b3
    exact Or.inr ⟨rfl, Option.some.inj b3⟩

theorem two_finite {s : PartitionedMesh} (hs : shapeOf spans [0, 1, 2, 3, 4, 5] = some s) : AreasFinite s := by
  intro p t h
  rcases two_triangles hs h with ⟨-, h⟩ | ⟨-, h⟩ <;> rw [h] <;> decide +kernel

theorem leftOf_for (s : PartitionedMesh) (x : F32) :
    QueryFor s (leftOf x) ⟨ofInt (-100000), ofInt (-100000), ofInt 100000, ofInt 100000⟩ :=
  ⟨rfl, by unfold RectF.Valid; decide +kernel, fun _ _ _ => rfl⟩

end ExSpatial

open ExSpatial in
/-- The hypotheses of `C47_visit_partial`, `C17_meaning` and `C17_accurate_partial` are met by the shape of two triangles and
a query which hits the one to the left, and the coverage is not trivial. -/
example : ∃ s all allAreas, s ≠ none ∧ Searchable s ∧ AreasOk s ∧ AreasFinite s ∧
    QueryFor s (leftOf (ofInt 8)) ⟨ofInt (-100000), ofInt (-100000), ofInt 100000, ofInt 100000⟩ ∧
    AllTriangles s all ∧ AreasOf s all allAreas ∧ all.length = 2 ∧ (allAreas.map toRat).sum = 11 ∧
    PartitionedMesh.coverage bySize s (leftOf (ofInt 8)) = some (div (ofInt 5) (ofInt 11)) := by
  obtain ⟨s, h1, h2, h3⟩ := two
  have hf := two_finite h1
  obtain ⟨order, areas, all, allAreas, -, -, g3, g4, -⟩ :=
    C17_meaning bySize bySize_perm.1 bySize_perm.2 s h2 h3 hf.ok _ _ (leftOf_for s (ofInt 8))
  have hb : ((shapeOf spans [0, 1, 2, 3, 4, 5]).all fun s =>
      decide (PartitionedMesh.coverage bySize s (leftOf (ofInt 8)) = some (div (ofInt 5) (ofInt 11))) &&
      s.meshes.all fun m => decide (m.triangleCount = 2) && (meshTriangle m 0).isSome && (meshTriangle m 1).isSome) = true := by
    decide +kernel
  have hl : ((shapeOf spans [0, 1, 2, 3, 4, 5]).all fun s => decide (s.meshes.length = 1)) = true := by decide +kernel
  rw [h1] at hb hl
  simp only [Option.all_some, Bool.and_eq_true, decide_eq_true_eq, List.all_eq_true] at hb hl
  obtain ⟨m, hm⟩ := List.length_eq_one_iff.1 hl
  obtain ⟨⟨c1, c2⟩, c3⟩ := hb.2 m (by rw [hm]; simp)
  obtain ⟨t0, ht0⟩ := Option.isSome_iff_exists.1 c2
  obtain ⟨t1, ht1⟩ := Option.isSome_iff_exists.1 c3
  have T0 : IsTriangle s ⟨0, 0⟩ t0 := ⟨m, by rw [hm]; rfl, by show 0 < _; omega, ht0⟩
  have T1 : IsTriangle s ⟨0, 1⟩ t1 := ⟨m, by rw [hm]; rfl, by show 1 < _; omega, ht1⟩
  have a0 : fabs (Flip.signedArea t0.1 t0.2.1 t0.2.2) = ofInt 5 := by
    rcases two_triangles h1 T0 with ⟨-, h⟩ | ⟨h, -⟩
    · exact h
    · cases h
  have a1 : fabs (Flip.signedArea t1.1 t1.2.1 t1.2.2) = ofInt 6 := by
    rcases two_triangles h1 T1 with ⟨h, -⟩ | ⟨-, h⟩
    · cases h
    · exact h
  refine ⟨s, [⟨0, 0⟩, ⟨0, 1⟩], [ofInt 5, ofInt 6], h2, h3, hf.ok, hf, leftOf_for s _, ⟨by decide, ?_⟩,
    .cons ⟨t0, T0, a0.symm⟩ (.cons ⟨t1, T1, a1.symm⟩ .nil), rfl, by decide +kernel, hb.1⟩
  intro p
  constructor
  · intro hp
    rcases List.mem_cons.1 hp with rfl | hp
    · exact ⟨t0, T0⟩
    · rw [List.mem_singleton.1 hp]; exact ⟨t1, T1⟩
  · rintro ⟨t, ht⟩
    rcases two_triangles h1 ht with ⟨rfl, -⟩ | ⟨rfl, -⟩ <;> simp

/-- The hypotheses of `C17_agree_partial`: five of eleven is more than a quarter. -/
example : |toRat (ofBits 0x3e800000)| * toRat (ofInt 11) / 2 ^ 23 + (toRat (ofInt 11) + 1) / 2 ^ 149 <
    |toRat (ofInt 5) - toRat (ofBits 0x3e800000) * toRat (ofInt 11)| ∧ 0 < toRat (ofInt 11) ∧
    lt (ofBits 0x3e800000) (div (ofInt 5) (ofInt 11)) = true := by decide +kernel

end Verif.PMeshSpec
