import Verif.Lemmas.MeshIntersects

/-!
# C52: `Intersects` and the spatial queries of shapes, with transforms
-/

set_option autoImplicit false
set_option linter.unusedSectionVars false

namespace Verif.Geo

open Spec

variable {K : Type} [Field K] [LinearOrder K] [IsStrictOrderedRing K]

/-- C52: `VisitIntersectedTriangles` visits the triangles which have a point in common with the transformed query: every
transform for points, segments and triangles, every transform which can be inverted for rectangles and quads. The latter is
what is missing (`C26_apply_quad_counterexample`). -/
theorem C52_visit_partial {mag : Pt K → K} (hm : IsMagnitude mag) (M : ShapeK K) (T : Affine K) (q : Shape K)
    (hq : Proper q) (hT : (∃ p, q = .point p) ∨ (∃ s, q = .segment s) ∨ (∃ t, q = .triangle t) ∨ T.inverse ≠ none) :
    (M.visit mag q T).Sublist M.triangles ∧
    ∀ t, t ∈ M.visit mag q T ↔ IsTri M t ∧ ∃ p, In p q ∧ InTriangle (T.apply p) t := by
  refine ⟨List.filter_sublist, fun t => mem_visit hm M hq ?_ t⟩
  rcases hT with ⟨p, rfl⟩ | ⟨s, rfl⟩ | ⟨t, rfl⟩ | h
  · trivial
  · trivial
  · trivial
  · exact transforms_of_invertible h q

/-- The triangles visited by a query which is a shape. -/
theorem visitShape_ok {mag : Pt K → K} (hm : IsMagnitude mag) (M Q : ShapeK K) (hM : M ≠ []) (hQ : Q ≠ []) (hb : Built Q)
    (T : Affine K) (hT : T.inverse = none → DiagonalKept Q T) :
    ∃ l, M.visitShape mag Q T = some l ∧ l.Sublist M.triangles ∧
      (T.inverse ≠ none → ∀ t, t ∈ l ↔ IsTri M t ∧ ∃ p, InMeshes p Q ∧ InTriangle (T.apply p) t) ∧
      (T.inverse = none → ∀ t, t ∈ l ↔ IsTri M t ∧ ∃ x, Between Q T x ∧ InTriangle x t) := by
  obtain ⟨r, hr, hbox, hprop⟩ := bounds_some hQ hb
  unfold ShapeK.visitShape
  rw [if_neg (by simpa using hM), if_neg (by simpa using hQ), hr, Option.bind_some]
  cases hi : T.inverse with
  | none =>
    obtain ⟨s, hs, hon⟩ := collapsed_ok hQ hb hi hbox (hT hi)
    dsimp only
    rw [hs]
    refine ⟨_, rfl, List.filter_sublist, fun h => absurd rfl h, fun _ t => ?_⟩
    rw [mem_visit hm M (q := .segment s) trivial trivial]
    simp only [In, hon, identity_apply]
  | some inv =>
    dsimp only
    refine ⟨_, rfl, List.filter_sublist, fun _ t => ?_, fun h => absurd h (by simp)⟩
    rw [List.mem_filter, Bool.and_eq_true, mem_triangles, visit_nonempty hm Q (q := .triangle t) trivial trivial]
    constructor
    · rintro ⟨ht, -, p, hp, hpQ⟩
      exact ⟨ht, _, hpQ, by rw [(inverse_apply hi p).2]; exact hp⟩
    · rintro ⟨ht, p, hp, hpt⟩
      refine ⟨ht, ?_, T.apply p, hpt, by rw [(inverse_apply hi p).1]; exact hp⟩
      have hq := ((C26_apply_rect_partial hm T (by rw [hi]; simp) r hprop).1 (T.apply p)).2
        ⟨p, in_box hb hbox hp, rfl⟩
      exact boxes_meet (in_boxOf (s := .quad _) hq) (in_boxOf (s := .triangle t) hpt)

/-- C52: the same for a query which is a shape. For a transform which cannot be inverted, the shape has to be in one piece,
and its diagonal must not collapse (`C52_diagonal_counterexample`, `C52_pieces_counterexample`). -/
theorem C52_visit_shape_partial {mag : Pt K → K} (hm : IsMagnitude mag) (M Q : ShapeK K) (hb : Built Q)
    (T : Affine K) (hT : T.inverse = none → Connected Q ∧ DiagonalKept Q T) :
    ∃ l, M.visitShape mag Q T = some l ∧ l.Sublist M.triangles ∧
      ∀ t, t ∈ l ↔ IsTri M t ∧ ∃ p, InMeshes p Q ∧ InTriangle (T.apply p) t := by
  by_cases hM : M = []
  · subst hM
    exact ⟨[], rfl, List.nil_sublist _, fun t => by simp [IsTri]⟩
  by_cases hQ : Q = []
  · subst hQ
    refine ⟨[], ?_, List.nil_sublist _, fun t => by simp [InMeshes]⟩
    unfold ShapeK.visitShape
    rw [if_neg (by simpa using hM)]
    rfl
  obtain ⟨l, h1, h2, h3, h4⟩ := visitShape_ok hm M Q hM hQ hb T fun h => (hT h).2
  refine ⟨l, h1, h2, fun t => ?_⟩
  by_cases hi : T.inverse = none
  · rw [h4 hi t]
    simp only [between_iff hi (hT hi).1]
    exact and_congr_right fun _ =>
      ⟨fun ⟨x, ⟨p, hp, e⟩, hx⟩ => ⟨p, hp, e ▸ hx⟩, fun ⟨p, hp, hx⟩ => ⟨_, ⟨p, hp, rfl⟩, hx⟩⟩
  · exact h3 hi t

/-- C52: `Intersects` of a shape and a point, segment, triangle, rectangle or quad, for a transform which can be inverted:
it is true exactly if a point of the transformed shape is a point of the object. -/
theorem C52_invertible {mag : Pt K → K} (hm : IsMagnitude mag) (M : ShapeK K) (T : Affine K)
    (hT : T.inverse ≠ none) (b : Shape K) (hb : Proper b) :
    ∃ ans, M.intersects mag T b = some ans ∧ (ans = true ↔ ∃ p, InMeshes p M ∧ In (T.apply p) b) := by
  unfold ShapeK.intersects
  by_cases hM : M = []
  · subst hM
    exact ⟨false, rfl, by simp [InMeshes]⟩
  rw [if_neg (by simpa using hM)]
  cases hi : T.inverse with
  | none => exact absurd hi hT
  | some inv =>
    refine ⟨_, rfl, ?_⟩
    obtain ⟨h1, h2⟩ := in_applyShape hm hb (transforms_of_invertible (inverse_invertible hi) b)
    rw [visit_nonempty hm M h1 (transforms_of_invertible identity_invertible _)]
    constructor
    · rintro ⟨p, hp, hpM⟩
      obtain ⟨x, hx, rfl⟩ := (h2 p).1 hp
      rw [identity_apply] at hpM
      exact ⟨_, hpM, by rw [(inverse_apply hi x).2]; exact hx⟩
    · rintro ⟨p, hp, hpb⟩
      refine ⟨p, (h2 p).2 ⟨_, hpb, (inverse_apply hi p).1.symm⟩, ?_⟩
      rw [identity_apply]
      exact hp

/-- C52, for a transform which cannot be inverted: the shape is replaced by the segment of all points between points of the
transformed shape, if the diagonal of its bounds does not collapse. -/
theorem C52_collapsed_partial {mag : Pt K → K} (M : ShapeK K) (hM : M ≠ []) (hM' : Built M) (T : Affine K)
    (hT : T.inverse = none) (hk : DiagonalKept M T) (b : Shape K) (hb : Proper b) :
    ∃ ans, M.intersects mag T b = some ans ∧ (ans = true ↔ ∃ x, Between M T x ∧ In x b) := by
  obtain ⟨r, hr, hbox, -⟩ := bounds_some hM hM'
  obtain ⟨s, hs, hon⟩ := collapsed_ok hM hM' hT hbox hk
  unfold ShapeK.intersects
  rw [if_neg (by simpa using hM), hT, hr, Option.bind_some, hs]
  refine ⟨_, rfl, ?_⟩
  rw [C22_intersects_iff (.segment s) _ trivial hb]
  simp only [In, hon]

/-- C52: `Intersects` of a shape and a point, segment, triangle, rectangle or quad is true exactly if a point of the
transformed shape is a point of the object. -/
theorem C52_object_partial {mag : Pt K → K} (hm : IsMagnitude mag) (M : ShapeK K) (hM : Built M) (T : Affine K)
    (hT : T.inverse = none → Connected M ∧ DiagonalKept M T) (b : Shape K) (hb : Proper b) :
    ∃ ans, M.intersects mag T b = some ans ∧ (ans = true ↔ ∃ p, InMeshes p M ∧ In (T.apply p) b) := by
  by_cases hi : T.inverse = none
  · by_cases hn : M = []
    · subst hn
      exact ⟨false, rfl, by simp [InMeshes]⟩
    obtain ⟨ans, h1, h2⟩ := C52_collapsed_partial (mag := mag) M hn hM T hi (hT hi).2 b hb
    refine ⟨ans, h1, h2.trans ?_⟩
    simp only [between_iff hi (hT hi).1]
    exact ⟨fun ⟨x, ⟨p, hp, e⟩, hx⟩ => ⟨p, hp, e ▸ hx⟩, fun ⟨p, hp, hx⟩ => ⟨_, ⟨p, hp, rfl⟩, hx⟩⟩
  · exact C52_invertible hm M T hi b hb

theorem diagonalKept_mul {Q : ShapeK K} {T i S : Affine K} (h : T.inverse = some i) (hk : DiagonalKept Q S) :
    DiagonalKept Q (i.mul S) := by
  intro r hr e p hp
  rw [C26_compose, C26_compose] at e ⊢
  have := congrArg T.apply e
  rw [(inverse_apply h _).2, (inverse_apply h _).2] at this
  rw [hk r hr this p hp]

theorem tryOneWay_ok {mag : Pt K → K} (hm : IsMagnitude mag) (L R : ShapeK K) (hL : Built L) (TL TR : Affine K)
    (hT : TL.inverse = none → Connected L ∧ DiagonalKept L TL) (hR : TR.inverse ≠ none) :
    ∃ ans, ShapeK.tryOneWay mag L TL R TR = some (some ans) ∧
      (ans = true ↔ ∃ p q, InMeshes p L ∧ InMeshes q R ∧ TL.apply p = TR.apply q) := by
  unfold ShapeK.tryOneWay
  cases hi : TR.inverse with
  | none => exact absurd hi hR
  | some inv =>
    obtain ⟨l, h1, -, h2⟩ := C52_visit_shape_partial hm R L hL (inv.mul TL) fun h =>
      have := (mul_inverse_none hi).1 h
      ⟨(hT this).1, diagonalKept_mul hi (hT this).2⟩
    dsimp only
    rw [h1]
    refine ⟨_, rfl, ?_⟩
    rw [Bool.not_eq_true', List.isEmpty_eq_false_iff_exists_mem]
    constructor
    · rintro ⟨t, ht⟩
      obtain ⟨hR, p, hp, hpt⟩ := (h2 t).1 ht
      refine ⟨p, _, hp, inMeshes_iff.2 ⟨t, hR, hpt⟩, ?_⟩
      rw [C26_compose, (inverse_apply hi _).2]
    · rintro ⟨p, q, hp, hq, e⟩
      obtain ⟨t, ht, hqt⟩ := inMeshes_iff.1 hq
      refine ⟨t, (h2 t).2 ⟨ht, p, hp, ?_⟩⟩
      rw [C26_compose, e, (inverse_apply hi _).1]
      exact hqt

theorem tryOneWay_none (mag : Pt K → K) (L R : ShapeK K) (TL TR : Affine K) (h : TR.inverse = none) :
    ShapeK.tryOneWay mag L TL R TR = some none := by
  unfold ShapeK.tryOneWay
  rw [h]

/-- C52: `Intersects` of two shapes is true exactly if the transformed shapes have a point in common. -/
theorem C52_shapes_partial {mag : Pt K → K} (hm : IsMagnitude mag) (A B : ShapeK K) (hA : Built A) (hB : Built B)
    (TA TB : Affine K) (hTA : TA.inverse = none → Connected A ∧ DiagonalKept A TA)
    (hTB : TB.inverse = none → Connected B ∧ DiagonalKept B TB) :
    ∃ ans, A.intersectsShape mag TA B TB = some ans ∧
      (ans = true ↔ ∃ p q, InMeshes p A ∧ InMeshes q B ∧ TA.apply p = TB.apply q) := by
  unfold ShapeK.intersectsShape
  by_cases nA : A = []
  · subst nA
    exact ⟨false, by simp, by simp [InMeshes]⟩
  by_cases nB : B = []
  · subst nB
    exact ⟨false, by simp, by simp [InMeshes]⟩
  rw [if_neg (by simp [nA, nB])]
  by_cases iB : TB.inverse = none
  · rw [tryOneWay_none mag A B TA TB iB, Option.bind_some]
    dsimp only
    by_cases iA : TA.inverse = none
    · rw [tryOneWay_none mag B A TB TA iA, Option.bind_some]
      obtain ⟨ra, hra, boxa, -⟩ := bounds_some nA hA
      obtain ⟨sa, hsa, ona⟩ := collapsed_ok nA hA iA boxa (hTA iA).2
      obtain ⟨rb, hrb, boxb, -⟩ := bounds_some nB hB
      obtain ⟨sb, hsb, onb⟩ := collapsed_ok nB hB iB boxb (hTB iB).2
      dsimp only
      rw [hra, Option.bind_some, hsa, Option.bind_some, hrb, Option.bind_some, hsb]
      refine ⟨_, rfl, ?_⟩
      rw [C22_intersects_iff (.segment sa) (.segment sb) trivial trivial]
      simp only [In, ona, onb, between_iff iA (hTA iA).1, between_iff iB (hTB iB).1]
      constructor
      · rintro ⟨x, ⟨p, hp, rfl⟩, q, hq, e⟩
        exact ⟨p, q, hp, hq, e.symm⟩
      · rintro ⟨p, q, hp, hq, e⟩
        exact ⟨_, ⟨p, hp, rfl⟩, q, hq, e.symm⟩
    · obtain ⟨ans, h1, h2⟩ := tryOneWay_ok hm B A hB TB TA hTB iA
      rw [h1]
      refine ⟨ans, rfl, h2.trans ?_⟩
      constructor <;> rintro ⟨p, q, hp, hq, e⟩ <;> exact ⟨q, p, hq, hp, e.symm⟩
  · obtain ⟨ans, h1, h2⟩ := tryOneWay_ok hm A B hA TA TB hTA iB
    rw [h1]
    exact ⟨ans, rfl, h2⟩

/-- C52: the result does not depend on the order of the shapes. -/
theorem C52_symm_partial {mag : Pt K → K} (hm : IsMagnitude mag) (A B : ShapeK K) (hA : Built A) (hB : Built B)
    (TA TB : Affine K) (hTA : TA.inverse = none → Connected A ∧ DiagonalKept A TA)
    (hTB : TB.inverse = none → Connected B ∧ DiagonalKept B TB) :
    A.intersectsShape mag TA B TB = B.intersectsShape mag TB A TA := by
  obtain ⟨x, h1, h2⟩ := C52_shapes_partial hm A B hA hB TA TB hTA hTB
  obtain ⟨y, h3, h4⟩ := C52_shapes_partial hm B A hB hA TB TA hTB hTA
  rw [h1, h3, Option.some.injEq, Bool.eq_iff_iff, h2, h4]
  constructor <;> rintro ⟨p, q, hp, hq, e⟩ <;> exact ⟨q, p, hq, hp, e.symm⟩

namespace Ex

/-- The square between (0, 0) and (2, 2), as two triangles. -/
def square (K : Type) [Field K] : ShapeK K := [⟨[⟨0, 0⟩, ⟨2, 0⟩, ⟨2, 2⟩, ⟨0, 2⟩],
  [⟨⟨0, 0⟩, ⟨2, 0⟩, ⟨2, 2⟩⟩, ⟨⟨0, 0⟩, ⟨2, 2⟩, ⟨0, 2⟩⟩]⟩]

/-- Two triangles with a gap between them. -/
def pieces (K : Type) [Field K] : ShapeK K := [⟨[⟨0, 0⟩, ⟨1, 0⟩, ⟨0, 1⟩, ⟨4, 0⟩, ⟨5, 0⟩, ⟨4, 1⟩],
  [⟨⟨0, 0⟩, ⟨1, 0⟩, ⟨0, 1⟩⟩, ⟨⟨4, 0⟩, ⟨5, 0⟩, ⟨4, 1⟩⟩]⟩]

/-- (x, y) ↦ (x - y, 0) -/
def along (K : Type) [Field K] : Affine K := ⟨1, -1, 0, 0, 0, 0⟩

theorem square_built : Built (square K) := by
  intro m hm
  simp only [square, List.mem_singleton] at hm
  subst hm
  exact ⟨by simp, by simp⟩

theorem pieces_built : Built (pieces K) := by
  intro m hm
  simp only [pieces, List.mem_singleton] at hm
  subst hm
  exact ⟨by simp, by simp⟩

theorem square_connected : Connected (square K) := by
  have h : ∀ t u, IsTri (square K) t → IsTri (square K) u → ∃ p, InTriangle p t ∧ InTriangle p u := by
    intro t u ht hu
    have c : ∀ t : Triangle K, IsTri (square K) t → InTriangle ⟨0, 0⟩ t := by
      rintro t ⟨m, hm, ht⟩
      simp only [square, List.mem_singleton] at hm
      subst hm
      simp only [List.mem_cons, List.not_mem_nil, or_false] at ht
      rcases ht with h | h
      · have := (inTriangle_corners t).1
        rw [h] at this ⊢
        exact this
      · have := (inTriangle_corners t).1
        rw [h] at this ⊢
        exact this
    exact ⟨_, c t ht, c u hu⟩
  exact fun t u ht hu => Relation.ReflTransGen.single ⟨hu, h t u ht hu⟩

/-- A shape with two vertices at different x keeps its diagonal when it is seen from the side. -/
theorem kept {M : ShapeK K} {m : MeshK K} (hm : m ∈ M) {v w : Pt K} (hv : v ∈ m.vertices) (hw : w ∈ m.vertices)
    (h : v.x < w.x) : DiagonalKept M (Affine.scale 1 0) := by
  intro r hr e
  exfalso
  have h1 := (hr.1 m hm v hv).1
  have h2 := (hr.1 m hm w hw).2.1
  have := congrArg Pt.x e
  simp only [Affine.scale, Affine.apply] at this
  linarith

theorem square_kept : DiagonalKept (square K) (Affine.scale 1 0) :=
  kept (v := ⟨0, 0⟩) (w := ⟨2, 0⟩) (List.mem_singleton.2 rfl) (by simp) (by simp) (by simp)

theorem pieces_kept : DiagonalKept (pieces K) (Affine.scale 1 0) :=
  kept (v := ⟨0, 0⟩) (w := ⟨1, 0⟩) (List.mem_singleton.2 rfl) (by simp) (by simp) (by simp)

/-- The hypotheses hold for the square seen from the side, with the real magnitude, and both answers occur. -/
example : let mag : Pt ℝ → ℝ := fun v => Real.sqrt (v.x * v.x + v.y * v.y)
    (square ℝ).intersects mag (Affine.scale 1 0) (.rect ⟨1, -1, 5, 1⟩) = some true ∧
    (square ℝ).intersects mag (Affine.scale 1 0) (.rect ⟨3, -1, 5, 1⟩) = some false := by
  intro mag
  have hm : IsMagnitude mag := fun v => ⟨Real.sqrt_nonneg _,
    Real.mul_self_sqrt (add_nonneg (mul_self_nonneg _) (mul_self_nonneg _))⟩
  constructor
  · obtain ⟨ans, h1, h2⟩ := C52_object_partial hm (square ℝ) square_built (Affine.scale 1 0)
      (fun _ => ⟨square_connected, square_kept⟩) (.rect ⟨1, -1, 5, 1⟩) (by norm_num [Proper])
    rw [h1, h2.2 ⟨⟨2, 0⟩, ⟨_, List.mem_singleton.2 rfl, ⟨⟨0, 0⟩, ⟨2, 0⟩, ⟨2, 2⟩⟩, by simp,
      (inTriangle_corners (⟨⟨0, 0⟩, ⟨2, 0⟩, ⟨2, 2⟩⟩ : Triangle ℝ)).2.1⟩, by norm_num [In, InRect, Affine.scale, Affine.apply]⟩]
  · obtain ⟨ans, h1, h2⟩ := C52_object_partial hm (square ℝ) square_built (Affine.scale 1 0)
      (fun _ => ⟨square_connected, square_kept⟩) (.rect ⟨3, -1, 5, 1⟩) (by norm_num [Proper])
    rw [h1, Option.some.injEq, Bool.eq_false_iff, Ne, h2]
    rintro ⟨p, ⟨m, hm, t, ht, a, b, c, a0, b0, c0, e, hx, hy⟩, hr, -⟩
    simp only [square, List.mem_singleton] at hm
    subst hm
    simp only [Affine.scale, Affine.apply] at hr
    simp only [List.mem_cons, List.not_mem_nil, or_false] at ht
    rcases ht with rfl | rfl <;> simp only at hx hy <;> linarith

/-- C52, what is missing: if the transform maps the diagonal of the bounds to a point, the shape is taken for that point. The
square between (0, 0) and (2, 2), under (x, y) ↦ (x - y, 0), is the segment from (-2, 0) to (2, 0): the point (2, 0) of the
square becomes the point (2, 0), but `Intersects` says that the transformed square does not contain it. -/
theorem C52_diagonal_counterexample (mag : Pt K → K) :
    Built (square K) ∧ Connected (square K) ∧ InMeshes ⟨2, 0⟩ (square K) ∧ (along K).apply ⟨2, 0⟩ = ⟨2, 0⟩ ∧
    (square K).intersects mag (along K) (.point ⟨2, 0⟩) = some false := by
  refine ⟨square_built, square_connected, ⟨_, List.mem_singleton.2 rfl, ⟨⟨0, 0⟩, ⟨2, 0⟩, ⟨2, 2⟩⟩, by simp,
    (inTriangle_corners (⟨⟨0, 0⟩, ⟨2, 0⟩, ⟨2, 2⟩⟩ : Triangle K)).2.1⟩, ?_, ?_⟩
  · simp [along, Affine.apply]
  · simp [ShapeK.intersects, square, along, Affine.inverse, ShapeK.bounds, ShapeK.addPoint, Rect.joinPoint,
      collapsedSegment, Affine.applySegment, Affine.apply, Segment.vector, Pt.sub, Pt.dot, Geo.intersects, intersectsPS]

/-- C52, what is missing: a shape with several pieces is taken for one piece. The point (2, 0) is in the gap between the
triangles, seen from the side. -/
theorem C52_pieces_counterexample (mag : Pt K → K) :
    Built (pieces K) ∧ (pieces K).intersects mag (Affine.scale 1 0) (.point ⟨2, 0⟩) = some true ∧
    ¬ ∃ p, InMeshes p (pieces K) ∧ (Affine.scale 1 0).apply p = ⟨2, 0⟩ := by
  refine ⟨pieces_built, ?_, ?_⟩
  · obtain ⟨ans, h1, h2⟩ := C52_collapsed_partial (mag := mag) (pieces K) (by simp [pieces]) pieces_built
      (Affine.scale 1 0) (by simp [Affine.inverse, Affine.scale]) pieces_kept (.point ⟨2, 0⟩) trivial
    rw [h1, h2.2]
    refine ⟨⟨2, 0⟩, ⟨⟨0, 0⟩, ⟨4, 0⟩, ?_, ?_, 1 / 2, by norm_num, by norm_num, ?_, ?_⟩, rfl⟩
    · exact ⟨_, List.mem_singleton.2 rfl, ⟨⟨0, 0⟩, ⟨1, 0⟩, ⟨0, 1⟩⟩, by simp,
        (inTriangle_corners (⟨⟨0, 0⟩, ⟨1, 0⟩, ⟨0, 1⟩⟩ : Triangle K)).1⟩
    · exact ⟨_, List.mem_singleton.2 rfl, ⟨⟨4, 0⟩, ⟨5, 0⟩, ⟨4, 1⟩⟩, by simp,
        (inTriangle_corners (⟨⟨4, 0⟩, ⟨5, 0⟩, ⟨4, 1⟩⟩ : Triangle K)).1⟩
    · simp only [Affine.scale, Affine.apply]; ring
    · simp only [Affine.scale, Affine.apply]; ring
  · rintro ⟨p, ⟨m, hm, t, ht, a, b, c, a0, b0, c0, h1, hx, hy⟩, e⟩
    simp only [pieces, List.mem_singleton] at hm
    subst hm
    have ex := congrArg Pt.x e
    simp only [Affine.scale, Affine.apply] at ex
    simp only [List.mem_cons, List.not_mem_nil, or_false] at ht
    rcases ht with rfl | rfl <;> simp only at hx hy <;> linarith

end Ex

end Verif.Geo
