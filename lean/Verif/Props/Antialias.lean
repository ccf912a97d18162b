import Verif.Lemmas.AntialiasOutset
import Verif.Lemmas.AntialiasInk
import Verif.Props.DerivativeCalculator

/-!
# C71: the anti-aliasing of strokes
-/

set_option autoImplicit false

namespace Verif.Antialias

open Geo Spec

open Verif.Derivative (Vertex Mesh updateMesh)
open Verif.Derivative.Spec (marginIn sideOf InRegion First Sorted Corners length)

/-- The pixels across a stroke are the distance on the canvas between the two lines at right angles to the derivative, through its start and
through its end; never more. -/
theorem C71_distance {v : Vertex} {m : Mat2} {o : Pt ℝ} {w : Varyings} (h : calculate v m = some (o, w)) :
    (∀ t, w.side ≤ length (onCanvas m (across v.sideDerivative t))) ∧
    (∀ t, w.forward ≤ length (onCanvas m (across v.forwardDerivative t))) ∧
    (0.000001 ≤ length (onCanvas m ⟨-v.sideDerivative.y, v.sideDerivative.x⟩) → ∃ t, w.side = length (onCanvas m (across v.sideDerivative t))) ∧
    (0.000001 ≤ length (onCanvas m ⟨-v.forwardDerivative.y, v.forwardDerivative.x⟩) →
      ∃ t, w.forward = length (onCanvas m (across v.forwardDerivative t))) := by
  unfold calculate at h
  dsimp only at h
  split_ifs at h
  simp only [Option.some.injEq, Prod.mk.injEq] at h
  obtain ⟨-, rfl⟩ := h
  exact ⟨(pixels_distance m _).1, (pixels_distance m _).1, (pixels_distance m _).2, (pixels_distance m _).2⟩

/-- No division by 0 happens exactly if the canvas keeps areas and both derivatives are other than 0. -/
theorem C71_defined (v : Vertex) (m : Mat2) :
    (calculate v m).isSome ↔ m.m00 * m.m11 - m.m10 * m.m01 ≠ 0 ∧ v.sideDerivative ≠ ⟨0, 0⟩ ∧ v.forwardDerivative ≠ ⟨0, 0⟩ :=
  calculate_isSome v m

/-- The outset of a vertex: outward along its derivatives, by no more than half of an edge in pixels and, unless the stroke is thinner than
half a pixel, by no more than its margin; what both outsets have in common is moved only once. -/
theorem C71_outset {v : Vertex} {m : Mat2} {o : Pt ℝ} {w : Varyings} (h : calculate v m = some (o, w))
    (hs : ∃ n : ℤ, v.sideLabel = (n : ℝ)) (hf : ∃ n : ℤ, v.forwardLabel = (n : ℝ)) :
    w.toEdge = edgesOf v.sideLabel v.forwardLabel ∧
    ∃ s f k : ℝ, ∃ side forward : Pt ℝ, side = outward v.sideLabel s v.sideDerivative ∧ forward = outward v.forwardLabel f v.forwardDerivative ∧
      0 ≤ s ∧ 0 ≤ f ∧ s * w.side ≤ halfEdge w.side ∧ f * w.forward ≤ halfEdge w.side ∧
      min (halfEdge w.side / w.side) (marginIn v.sideLabel) ≤ s ∧
      (1 / 2 ≤ w.side → s = min (halfEdge w.side / w.side) (marginIn v.sideLabel)) ∧
      (w.side ≤ 1 / 4 → s * w.side = halfEdge w.side) ∧
      f = min (halfEdge w.side / w.forward) (marginIn v.forwardLabel) ∧
      w.outset = ⟨if v.sideLabel < 0 then s * w.side else 0, if 0 < v.sideLabel then s * w.side else 0,
        if v.forwardLabel < 0 then f * w.forward else 0, if 0 < v.forwardLabel then f * w.forward else 0⟩ ∧
      o = ⟨side.x + (1 - k) * forward.x, side.y + (1 - k) * forward.y⟩ ∧ 0 ≤ k ∧ k ≤ 1 ∧
      (Spec.inner side forward ≤ 0 → k = 0) ∧
      (0.000001 ≤ Spec.inner forward forward → 0 ≤ Spec.inner side forward →
        Spec.inner o forward = max (Spec.inner forward forward) (Spec.inner side forward)) := by
  obtain ⟨-, -, -, -, h5, s, f, a1, a2, a3, a4, a0, a5, a6, a7, a8, a9⟩ := calculate_parts h hs hf
  obtain ⟨k, b1, b2, b3, b4, b5⟩ := common_part (outward v.sideLabel s v.sideDerivative) (outward v.forwardLabel f v.forwardDerivative)
  rw [b1] at a9
  refine ⟨h5, s, f, k, _, _, rfl, rfl, a1, a2, a3, a4, a0, a5, a6, a7, a8, a9, b2, b3, b4, fun c1 c2 => ?_⟩
  rw [a9]
  exact b5 c1 c2

/-- A vertex on the left or right side of a stroke of at least half a pixel is drawn within its region of each triangle that it is a corner
of, whatever the canvas. -/
theorem C71_region {left right : List ℕ} {mesh mesh' : Mesh} {n : ℕ} {i j : ℕ × ℕ × ℕ} {a b c : Vertex}
    (h : updateMesh left right mesh = some mesh') (hm : First left right n) (hs : Sorted n mesh.triangles) (hi : i ∈ mesh.triangles)
    (hc : Corners i j) (hj : j.1 ∈ left ∨ j.1 ∈ right) (ha : mesh'.vertices[j.1]? = some a) (hb : mesh'.vertices[j.2.1]? = some b)
    (hcc : mesh'.vertices[j.2.2]? = some c) (hz : sideOf a.position b.position c.position ≠ 0) (hf : a.forwardLabel = 0)
    {m : Mat2} {o : Pt ℝ} {w : Varyings} (hw : calculate a m = some (o, w)) (hside : 1 / 2 ≤ w.side) :
    InRegion a.position b.position c.position ⟨a.position.x + o.x, a.position.y + o.y⟩ := by
  obtain ⟨-, k2, k3⟩ := Derivative.C70_frame h
  have hlt : j.1 < mesh.vertices.length := by
    rw [← k2]
    exact (List.getElem?_eq_some_iff.1 ha).1
  obtain ⟨-, -, -, -, k⟩ := k3 j.1 _ a (List.getElem?_eq_getElem hlt) ha
  obtain ⟨z, hz', -⟩ := (k hj).2.2
  obtain ⟨-, s, f, k, S, F, rfl, rfl, b1, -, -, -, -, b5, -, -, -, b9, -⟩ := C71_outset hw ⟨z, hz'⟩ ⟨0, by rw [hf]; norm_num⟩
  have hle : s ≤ marginIn a.sideLabel := by
    rw [b5 hside]
    exact min_le_right _ _
  have := Derivative.C70_region h hm hs hi hc hj ha hb hcc hz b1 hle
  have e : Derivative.Spec.moved a s = ⟨a.position.x + o.x, a.position.y + o.y⟩ := by
    rw [b9]
    unfold Derivative.Spec.moved outward
    rw [hf]
    rcases Derivative.three a.sideLabel with ⟨p, q, r⟩ | ⟨p, q, r⟩ | ⟨p, q, r⟩ <;> simp [p, q, r]
  rw [← e]
  exact this

/-- Coverage is from 0 to 1. -/
theorem C71_range (v : Varyings) : 0 ≤ coverage v ∧ coverage v ≤ 1 := coverage_range v

/-- Where a triangle has no edge of the stroke, the coverage is 1, however small the triangle is. -/
theorem C71_interior (v : Varyings) (h : v.toEdge = ⟨1, 1, 1, 1⟩) : coverage v = 1 := by
  unfold coverage
  rw [h, coverageOf_interior, coverageOf_interior, mul_one]

/-- On the edge of the mesh that is drawn, the coverage is 0. -/
theorem C71_edge (v : Varyings)
    (h : (v.toEdge.left = 0 ∧ v.toEdge.right ≤ 1) ∨ (v.toEdge.right = 0 ∧ v.toEdge.left ≤ 1) ∨ (v.toEdge.front = 0 ∧ v.toEdge.back ≤ 1) ∨
      (v.toEdge.back = 0 ∧ v.toEdge.front ≤ 1)) : coverage v = 0 := by
  unfold coverage
  rcases h with ⟨a, b⟩ | ⟨a, b⟩ | ⟨a, b⟩ | ⟨a, b⟩
  · rw [a, coverageOf_left _ _ _ _ _ b, zero_mul]
  · rw [a, coverageOf_right _ _ _ _ _ b, zero_mul]
  · rw [a, coverageOf_left _ _ _ _ _ b, mul_zero]
  · rw [a, coverageOf_right _ _ _ _ _ b, mul_zero]

/-- What is drawn across a stroke, from a vertex on the left side to one on the right: both move outward, and the coverage at each place
rises with the pixels from each of the two edges and is full from the width of an edge on. -/
theorem C71_profile {a b : Vertex} {m : Mat2} {o o' : Pt ℝ} {w w' : Varyings} (ha : calculate a m = some (o, w)) (hb : calculate b m = some (o', w'))
    (hs : a.sideDerivative = b.sideDerivative) (hl : ∃ n : ℤ, a.sideLabel = (n : ℝ)) (hr : ∃ n : ℤ, b.sideLabel = (n : ℝ))
    (hl' : a.sideLabel < 0) (hr' : 0 < b.sideLabel) (hf : a.forwardLabel = 0) (hf' : b.forwardLabel = 0) :
    ∃ p q : ℝ, 0 ≤ p ∧ p ≤ halfEdge w.side ∧ 0 ≤ q ∧ q ≤ halfEdge w.side ∧ Across w.side p q w w' ∧
      o = ⟨-(p / w.side * a.sideDerivative.x), -(p / w.side * a.sideDerivative.y)⟩ ∧
      o' = ⟨q / w.side * a.sideDerivative.x, q / w.side * a.sideDerivative.y⟩ ∧
      (halfEdge w.side ≤ marginIn a.sideLabel * w.side ∨ w.side ≤ 1 / 4 → p = halfEdge w.side) ∧
      (halfEdge w.side ≤ marginIn b.sideLabel * w.side ∨ w.side ≤ 1 / 4 → q = halfEdge w.side) ∧
      ∀ x : ℝ, 0.000001 ≤ x → x ≤ 1 - 0.000001 → coverage (between x w w') =
        max (ramp (2 * halfEdge w.side) ((w.side + p + q) * x) + ramp (2 * halfEdge w.side) ((w.side + p + q) * (1 - x)) - 1) 0 := by
  have zf : ∃ n : ℤ, a.forwardLabel = (n : ℝ) := ⟨0, by rw [hf]; norm_num⟩
  have zf' : ∃ n : ℤ, b.forwardLabel = (n : ℝ) := ⟨0, by rw [hf']; norm_num⟩
  obtain ⟨p1, -, p3, -⟩ := calculate_parts ha hl zf
  obtain ⟨q1, -, q3, -⟩ := calculate_parts hb hr zf'
  have hside : w'.side = w.side := by rw [p1, q1, hs]
  have full : ∀ l s : ℝ, s * w.side ≤ halfEdge w.side → min (halfEdge w.side / w.side) l ≤ s → (w.side ≤ 1 / 4 → s * w.side = halfEdge w.side) →
      halfEdge w.side ≤ l * w.side ∨ w.side ≤ 1 / 4 → s * w.side = halfEdge w.side := by
    rintro l s e1 e2 e3 (e4 | e4)
    · refine le_antisymm e1 ?_
      rw [min_eq_left ((div_le_iff₀ p3).2 e4)] at e2
      exact (div_le_iff₀ p3).1 e2
    · exact e3 e4
  obtain ⟨a1, s, f, k, S, F, rfl, rfl, b1, -, b3, -, b4, -, b6, -, b8, b9, -⟩ := C71_outset ha hl zf
  obtain ⟨a1', s', f', k', S', F', rfl, rfl, b1', -, b3', -, b4', -, b6', -, b8', b9', -⟩ := C71_outset hb hr zf'
  rw [hside] at b3' b4' b6' b8'
  have hA : Across w.side (s * w.side) (s' * w.side) w w' := by
    refine ⟨rfl, hside, ?_, ?_, ?_, ?_, ?_, ?_⟩
    · rw [a1, hf]
      simp [edgesOf, hl', not_lt.2 hl'.le]
    · rw [a1', hf']
      simp [edgesOf, hr', not_lt.2 hr'.le]
    · rw [b8]
      simp [hl']
    · rw [b8]
      simp [not_lt.2 hl'.le]
    · rw [b8']
      simp [not_lt.2 hr'.le]
    · rw [b8']
      simp [hr']
  refine ⟨s * w.side, s' * w.side, mul_nonneg b1 p3.le, b3, mul_nonneg b1' p3.le, b3', hA, ?_, ?_, full _ _ b3 b4 b6, full _ _ b3' b4' b6',
    fun x h0 h1 => coverage_across hA b3 b3' h0 h1⟩
  · rw [b9, mul_div_cancel_right₀ _ p3.ne', hf]
    simp [outward, hl']
  · rw [b9', mul_div_cancel_right₀ _ p3.ne', hf', hs]
    simp [outward, hr', not_lt.2 hr'.le]

/-- The ink across a stroke, which is the sum of the coverage over the pixels that are drawn, is the width of the stroke in pixels, less what
the outsets fall short of half of an edge; it is the width itself if the margins allow the outsets or the stroke is thinner than a quarter
of a pixel. -/
theorem C71_ink {a b : Vertex} {m : Mat2} {o o' : Pt ℝ} {w w' : Varyings} (ha : calculate a m = some (o, w)) (hb : calculate b m = some (o', w'))
    (hs : a.sideDerivative = b.sideDerivative) (hl : ∃ n : ℤ, a.sideLabel = (n : ℝ)) (hr : ∃ n : ℤ, b.sideLabel = (n : ℝ))
    (hl' : a.sideLabel < 0) (hr' : 0 < b.sideLabel) (hf : a.forwardLabel = 0) (hf' : b.forwardLabel = 0) :
    ∃ p q : ℝ, 0 ≤ p ∧ p ≤ halfEdge w.side ∧ 0 ≤ q ∧ q ≤ halfEdge w.side ∧
      o = ⟨-(p / w.side * a.sideDerivative.x), -(p / w.side * a.sideDerivative.y)⟩ ∧
      o' = ⟨q / w.side * a.sideDerivative.x, q / w.side * a.sideDerivative.y⟩ ∧
      |(∫ x in (0 : ℝ)..1, coverage (between x w w')) * (w.side + p + q) - max (w.side - (halfEdge w.side - p) - (halfEdge w.side - q)) 0| ≤
        0.000002 * (w.side + p + q) ∧
      ((halfEdge w.side ≤ marginIn a.sideLabel * w.side ∧ halfEdge w.side ≤ marginIn b.sideLabel * w.side) ∨ w.side ≤ 1 / 4 →
        |(∫ x in (0 : ℝ)..1, coverage (between x w w')) * (w.side + p + q) - w.side| ≤ 0.000002 * (w.side + p + q)) := by
  obtain ⟨p, q, h1, h2, h3, h4, h5, h6, h7, h8, h9, -⟩ := C71_profile ha hb hs hl hr hl' hr' hf hf'
  have hw : 0 < w.side := (calculate_parts ha hl ⟨0, by rw [hf]; norm_num⟩).2.2.1
  have k := coverage_ink h5 hw.le h1 h3 h2 h4
  refine ⟨p, q, h1, h2, h3, h4, h6, h7, k, fun hm => ?_⟩
  have e1 : p = halfEdge w.side := h8 (hm.imp_left And.left)
  have e2 : q = halfEdge w.side := h9 (hm.imp_left And.right)
  have e3 : max (w.side - (halfEdge w.side - p) - (halfEdge w.side - q)) 0 = w.side := by
    rw [e1, e2, max_eq_left (by linarith)]
    ring
  rwa [e3] at k

/-- In a rectangle with four edges the coverage is the product of those across and along; the width of an edge is that of the side. -/
theorem C71_rectangle {width height p q r s : ℝ} {a b c : Varyings} (h : Rectangle width height p q r s a b c)
    (hp : p ≤ halfEdge width) (hq : q ≤ halfEdge width) (hr : r ≤ halfEdge width) (hs : s ≤ halfEdge width) {x y : ℝ}
    (hx : 0.000001 ≤ x) (hx' : x ≤ 1 - 0.000001) (hy : 0.000001 ≤ y) (hy' : y ≤ 1 - 0.000001) :
    coverage (within x y a b c) =
      max (ramp (2 * halfEdge width) ((width + p + q) * x) + ramp (2 * halfEdge width) ((width + p + q) * (1 - x)) - 1) 0 *
      max (ramp (2 * halfEdge width) ((height + r + s) * y) + ramp (2 * halfEdge width) ((height + r + s) * (1 - y)) - 1) 0 := by
  obtain ⟨rfl, rfl, rfl⟩ := h
  have hτ : 0 < halfEdge width := lt_of_lt_of_le (by norm_num) (halfEdge_bounds width).1
  rw [← coverageOf_between hτ hp hq hx hx', ← coverageOf_between hτ hr hs hy hy', ← target_eq]
  unfold coverage within Edges.within
  dsimp only
  congr 2 <;> ring_nf

/-- The corners of a rectangle are what the vertex shader gives: a square of two pixels with margins of 4. -/
example : Rectangle 2 2 0.707107 0.707107 0.707107 0.707107 ⟨2, 2, ⟨0, 1, 0, 1⟩, ⟨0.707107, 0, 0.707107, 0⟩⟩
    ⟨2, 2, ⟨1, 0, 0, 1⟩, ⟨0, 0.707107, 0.707107, 0⟩⟩ ⟨2, 2, ⟨0, 1, 1, 0⟩, ⟨0.707107, 0, 0, 0.707107⟩⟩ ∧ (0.707107 : ℝ) ≤ halfEdge 2 :=
  ⟨⟨rfl, rfl, rfl⟩, by norm_num [halfEdge]⟩

/-- A vertex with a derivative of 0, which is what the update of derivatives gives to one without vectors, is not drawn at a defined
place. -/
theorem C71_degenerate (v : Vertex) (m : Mat2) (h : v.sideDerivative = ⟨0, 0⟩ ∨ v.forwardDerivative = ⟨0, 0⟩) : calculate v m = none := by
  by_contra hn
  obtain ⟨-, h1, h2⟩ := (C71_defined v m).1 (Option.isSome_iff_ne_none.2 hn)
  exact h.elim h1 h2

/-! The theorems speak of something: a stroke two pixels wide. -/

theorem two : Real.sqrt 4 = 2 := by
  rw [show (4 : ℝ) = 2 ^ 2 by norm_num]
  exact Real.sqrt_sq (by norm_num)

/-- A vertex on the left side of a stroke two units wide, with a margin of 4 -/
def onLeft : Vertex := ⟨⟨0, 0⟩, ⟨0, 2⟩, -127, ⟨1, 0⟩, 0⟩

/-- A vertex opposite to it -/
def onRight : Vertex := ⟨⟨0, 2⟩, ⟨0, 2⟩, 127, ⟨1, 0⟩, 0⟩

example : (calculate onLeft ⟨1, 0, 0, 1⟩).isSome ∧ (calculate onRight ⟨1, 0, 0, 1⟩).isSome := by
  constructor <;> rw [C71_defined] <;> simp [onLeft, onRight]

example : ∃ o o' w w', calculate onLeft ⟨1, 0, 0, 1⟩ = some (o, w) ∧ calculate onRight ⟨1, 0, 0, 1⟩ = some (o', w') ∧
    onLeft.sideDerivative = onRight.sideDerivative ∧ (∃ n : ℤ, onLeft.sideLabel = (n : ℝ)) ∧ (∃ n : ℤ, onRight.sideLabel = (n : ℝ)) ∧
    onLeft.sideLabel < 0 ∧ 0 < onRight.sideLabel ∧ onLeft.forwardLabel = 0 ∧ onRight.forwardLabel = 0 ∧ w.side = 2 ∧
    halfEdge w.side ≤ marginIn onLeft.sideLabel * w.side := by
  have h1 : (calculate onLeft ⟨1, 0, 0, 1⟩).isSome := by rw [C71_defined]; simp [onLeft]
  have h2 : (calculate onRight ⟨1, 0, 0, 1⟩).isSome := by rw [C71_defined]; simp [onRight]
  obtain ⟨⟨o, w⟩, e1⟩ := Option.isSome_iff_exists.1 h1
  obtain ⟨⟨o', w'⟩, e2⟩ := Option.isSome_iff_exists.1 h2
  have hl : ∃ n : ℤ, onLeft.sideLabel = (n : ℝ) := ⟨-127, by simp [onLeft]⟩
  have hf : ∃ n : ℤ, onLeft.forwardLabel = (n : ℝ) := ⟨0, by simp [onLeft]⟩
  have hw : w.side = 2 := by
    rw [(calculate_parts e1 hl hf).1]
    unfold pixels len dot Mat2.mul orthogonal Mat2.det onLeft
    norm_num [two]
  refine ⟨o, o', w, w', e1, e2, rfl, hl, ⟨127, by simp [onRight]⟩, ?_, ?_, rfl, rfl, hw, ?_⟩
  · norm_num [onLeft]
  · norm_num [onRight]
  · rw [hw]
    norm_num [halfEdge, marginIn, onLeft]

/-- A triangle with two corners on the left side and one on the right -/
noncomputable def triangle : Mesh where
  vertices := [⟨⟨0, 1⟩, ⟨0, 0⟩, -1, ⟨0, 0⟩, 0⟩, ⟨⟨0, 0⟩, ⟨0, 0⟩, 1, ⟨0, 0⟩, 0⟩, ⟨⟨1, 1⟩, ⟨0, 0⟩, -1, ⟨0, 0⟩, -1⟩]
  triangles := [(0, 1, 2)]

/-- The hypotheses of `C71_region` are met by its first corner. -/
example : ∃ mesh' a b c o w, updateMesh [0] [1] triangle = some mesh' ∧ First [0] [1] 0 ∧ Sorted 0 triangle.triangles ∧
    mesh'.vertices[0]? = some a ∧ mesh'.vertices[1]? = some b ∧ mesh'.vertices[2]? = some c ∧
    sideOf a.position b.position c.position ≠ 0 ∧ a.forwardLabel = 0 ∧ calculate a ⟨1, 0, 0, 1⟩ = some (o, w) ∧ 1 / 2 ≤ w.side := by
  have hF : First [0] [1] 0 := by simp [First]
  have hS : Sorted 0 triangle.triangles := by
    rintro before i after - ⟨h, -⟩
    exact absurd h (Nat.not_lt_zero _)
  obtain ⟨mesh', h⟩ := Derivative.C70_total (left := [0]) (right := [1]) (mesh := triangle) (m := 0) hF (by
      intro i hi
      simp only [triangle, List.mem_cons, List.not_mem_nil, or_false] at hi
      subst hi
      simp [Derivative.Spec.Below, triangle]) (by
      intro i hi
      simp only [List.cons_append, List.nil_append, List.mem_cons, List.not_mem_nil, or_false] at hi
      rcases hi with rfl | rfl <;> simp [triangle])
  obtain ⟨-, hlen, hfr⟩ := Derivative.C70_frame h
  obtain ⟨run, v, a, r1, r2, r3, r4, r5, r6, r7⟩ := Derivative.C70_mean (j := 0) h hF hS (by simp)
  have hlen3 : mesh'.vertices.length = 3 := hlen
  have g1 : mesh'.vertices[1]? = some mesh'.vertices[1] := List.getElem?_eq_getElem (by omega)
  have g2 : mesh'.vertices[2]? = some mesh'.vertices[2] := List.getElem?_eq_getElem (by omega)
  have p0 := hfr 0 _ _ rfl r4
  have p1 := hfr 1 _ _ rfl g1
  have p2 := hfr 2 _ _ rfl g2
  generalize mesh'.vertices[1] = b at *
  generalize mesh'.vertices[2] = c at *
  have hrun : run = [0] := by
    rcases r1 with r1 | r1
    · have := r1.sublist
      rcases List.sublist_cons_iff.1 this with q | ⟨r, rfl, q⟩
      · rw [List.sublist_nil.1 q] at r2
        simp at r2
      · rw [List.sublist_nil.1 q]
    · have := r1.sublist.subset r2
      simp at this
  subst hrun
  have hc : ¬Derivative.Spec.Coincide ⟨⟨0, 1⟩, ⟨0, 0⟩, -1, ⟨0, 0⟩, 0⟩ ⟨⟨0, 0⟩, ⟨0, 0⟩, 1, ⟨0, 0⟩, 0⟩ ⟨⟨1, 1⟩, ⟨0, 0⟩, -1, ⟨0, 0⟩, -1⟩ := by
    simp [Derivative.Spec.Coincide]
  have s1 : ([0].flatMap (Derivative.Spec.vectorsAt Derivative.Spec.sideVectors triangle)) = [⟨0, -1⟩] := by
    simp only [Derivative.Spec.vectorsAt, triangle, List.flatMap_cons, List.flatMap_nil, List.reverse_cons, List.reverse_nil, List.nil_append,
      List.append_nil, List.getElem?_cons_zero, List.getElem?_cons_succ, true_or, if_true]
    unfold Derivative.Spec.sideVectors
    rw [if_neg hc, if_pos (by norm_num)]
    simp [Derivative.Spec.fromLine, Derivative.Spec.toLine]
  have s2 : ([0].flatMap (Derivative.Spec.vectorsAt Derivative.Spec.forwardVectors triangle)) = [⟨1, 0⟩] := by
    simp only [Derivative.Spec.vectorsAt, triangle, List.flatMap_cons, List.flatMap_nil, List.reverse_cons, List.reverse_nil, List.nil_append,
      List.append_nil, List.getElem?_cons_zero, List.getElem?_cons_succ, true_or, if_true]
    unfold Derivative.Spec.forwardVectors
    rw [if_neg hc]
    simp [Derivative.Spec.fromLine, Derivative.Spec.toLine, Derivative.Spec.SameSign]
  rw [s1] at r6
  rw [s2] at r7
  have l1 : length a.sideDerivative = 1 := by
    have := (r6.2 (by simp)).1
    rw [this]
    simp [length]
  have l2 : length a.forwardDerivative = 1 := by
    have := (r7.2 (by simp)).1
    rw [this]
    simp [length]
  have n1 : a.sideDerivative ≠ ⟨0, 0⟩ := fun q => by rw [q] at l1; simp [length] at l1
  have n2 : a.forwardDerivative ≠ ⟨0, 0⟩ := fun q => by rw [q] at l2; simp [length] at l2
  obtain ⟨⟨o, w⟩, hw⟩ := Option.isSome_iff_exists.1 ((C71_defined a ⟨1, 0, 0, 1⟩).2 ⟨by norm_num, n1, n2⟩)
  refine ⟨mesh', a, b, c, o, w, h, hF, hS, r4, g1, g2, ?_, p0.2.1, hw, ?_⟩
  · rw [p0.1, p1.1, p2.1]
    norm_num [sideOf]
  · have e : w.side = pixels ⟨1, 0, 0, 1⟩ a.sideDerivative := by
      obtain ⟨z, hz, -⟩ := (p0.2.2.2.2 (by simp)).2.2
      exact (calculate_parts hw ⟨z, hz⟩ ⟨0, by rw [p0.2.1]; norm_num⟩).1
    have d1 : a.sideDerivative.x * a.sideDerivative.x + a.sideDerivative.y * a.sideDerivative.y = 1 := by
      unfold length at l1
      rwa [Real.sqrt_eq_one] at l1
    rw [e]
    unfold pixels len dot Mat2.mul orthogonal Mat2.det
    dsimp only
    rw [show (1 * -a.sideDerivative.y + 0 * a.sideDerivative.x) * (1 * -a.sideDerivative.y + 0 * a.sideDerivative.x) +
      (0 * -a.sideDerivative.y + 1 * a.sideDerivative.x) * (0 * -a.sideDerivative.y + 1 * a.sideDerivative.x) = 1 by linarith, d1]
    norm_num

/-- Where the sides of a cap meet, both outsets count: a corner of a square. -/
example : ∃ o w, calculate ⟨⟨0, 0⟩, ⟨0, 2⟩, -127, ⟨2, 0⟩, -127⟩ ⟨1, 0, 0, 1⟩ = some (o, w) ∧ o.x < 0 ∧ o.y < 0 ∧ w.toEdge = ⟨0, 1, 0, 1⟩ := by
  have h1 : (calculate ⟨⟨0, 0⟩, ⟨0, 2⟩, -127, ⟨2, 0⟩, -127⟩ ⟨1, 0, 0, 1⟩).isSome := by rw [C71_defined]; simp
  obtain ⟨⟨o, w⟩, e1⟩ := Option.isSome_iff_exists.1 h1
  have hl : ∃ n : ℤ, (-127 : ℝ) = (n : ℝ) := ⟨-127, by simp⟩
  obtain ⟨k1, k2, -⟩ := calculate_parts e1 hl hl
  have hw : w.side = 2 := by
    rw [k1]
    unfold pixels len dot Mat2.mul orthogonal Mat2.det
    norm_num [two]
  have hw' : w.forward = 2 := by
    rw [k2]
    unfold pixels len dot Mat2.mul orthogonal Mat2.det
    norm_num [two]
  obtain ⟨a1, s, f, k, S, F, rfl, rfl, b1, b2, -, -, -, b5, -, b7, -, b9, -, -, b12, -⟩ := C71_outset e1 hl hl
  have hs : s = 0.707107 / 2 := by
    rw [b5 (by rw [hw]; norm_num), hw]
    norm_num [halfEdge, marginIn]
  have hf : f = 0.707107 / 2 := by
    rw [b7, hw, hw']
    norm_num [halfEdge, marginIn]
  have hk : k = 0 := b12 (by simp [outward, Spec.inner])
  refine ⟨o, w, e1, ?_, ?_, ?_⟩
  · rw [b9, hk, hs, hf]
    norm_num [outward]
  · rw [b9, hk, hs, hf]
    norm_num [outward]
  · rw [a1]
    norm_num [edgesOf]

end Verif.Antialias
