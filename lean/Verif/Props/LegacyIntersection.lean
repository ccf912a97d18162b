import Verif.Lemmas.LegacyIntersection
import Verif.Props.Geometry

/-!
# C74: the intersections that the triangulation of strokes uses
-/

set_option autoImplicit false

namespace Verif.Legacy

open Geo Geo.Spec Spec

variable {K : Type} [Field K] [LinearOrder K] [IsStrictOrderedRing K]

/-- An intersection is found exactly if the segments have a common point, whatever the scaling and the tolerance. -/
theorem C74_found {f : Format K} (hf : Exact f) (a b : Segment K) :
    (intersection f a b).isSome = true ↔ ∃ p, OnSegment p a ∧ OnSegment p b := by
  obtain ⟨g1, g2⟩ := intersection_spec hf a b
  unfold intersection
  cases h : segmentIntersection f a b with
  | none =>
    simp only [Option.map_none, Option.isSome_none, Bool.false_eq_true, false_iff]
    rintro ⟨p, hp, hq⟩
    obtain ⟨s, s0, s1, rfl⟩ := onSegment_iff.1 hp
    obtain ⟨t, t0, t1, e⟩ := onSegment_iff.1 hq
    exact g2 h s t s0 s1 t0 t1 e
  | some r =>
    simp only [Option.map_some, Option.isSome_some, true_iff]
    obtain ⟨⟨h1, h2, h3, h4, h5, h6, h7⟩, -, -⟩ := g1 r h
    exact ⟨along a r.s0, onSegment_iff.2 ⟨_, h1, h2.trans h3, rfl⟩, onSegment_iff.2 ⟨_, h4.1, h4.2, h6⟩⟩

/-- The intervals correspond to each other and are ordered along the first segment; the points of the segment between them are all
common points. -/
theorem C74_intervals {f : Format K} (hf : Exact f) {a b : Segment K} {r : Intersection K} (h : intersection f a b = some r) :
    Common a b r.toIntervals ∧ r.intx = ⟨along a r.s0, along a r.s1⟩ ∧ ∀ p, OnSegment p r.intx ↔ OnSegment p a ∧ OnSegment p b := by
  obtain ⟨g1, -⟩ := intersection_spec hf a b
  unfold intersection at h
  obtain ⟨i, hi, rfl⟩ := Option.map_eq_some_iff.1 h
  obtain ⟨⟨h1, h2, h3, h4, h5, h6, h7⟩, g, -⟩ := g1 i hi
  refine ⟨⟨h1, h2, h3, h4, h5, h6, h7⟩, by rw [lerp_eq_along, lerp_eq_along], fun p => ?_⟩
  dsimp only
  rw [lerp_eq_along, lerp_eq_along]
  constructor
  · intro hp
    obtain ⟨l, l0, l1, rfl⟩ := onSegment_iff.1 hp
    constructor
    · refine onSegment_iff.2 ⟨i.s0 + l * (i.s1 - i.s0), by nlinarith, by nlinarith, ?_⟩
      ext <;> (simp only [along]; ring)
    · rw [h6, h7]
      refine onSegment_iff.2 ⟨(1 - l) * i.t0 + l * i.t1, by nlinarith [h4.1, h5.1], ?_, ?_⟩
      · nlinarith [h4.2, h5.2]
      · ext <;> (simp only [along]; ring)
  · rintro ⟨ha, hb⟩
    obtain ⟨s, s0, s1, rfl⟩ := onSegment_iff.1 ha
    obtain ⟨t, t0, t1, e⟩ := onSegment_iff.1 hb
    by_cases hp : a.start = a.stop
    · refine onSegment_iff.2 ⟨0, le_rfl, zero_le_one, ?_⟩
      ext <;> (simp only [along]; rw [hp]; ring)
    · obtain ⟨b1, b2⟩ := g s t s0 s1 t0 t1 e hp
      rcases eq_or_lt_of_le h2 with q | q
      · have : s = i.s0 := le_antisymm (by rw [q]; exact b2) b1
        refine onSegment_iff.2 ⟨0, le_rfl, zero_le_one, ?_⟩
        rw [this]
        ext <;> (simp only [along]; ring)
      · have hd : i.s1 - i.s0 ≠ 0 := by linarith
        refine onSegment_iff.2 ⟨(s - i.s0) / (i.s1 - i.s0), div_nonneg (by linarith) (by linarith), (div_le_one (by linarith)).2 (by linarith), ?_⟩
        have e1 : (s - i.s0) / (i.s1 - i.s0) * (i.s1 - i.s0) = s - i.s0 := div_mul_cancel₀ _ hd
        ext
        · simp only [along]
          linear_combination (-(a.stop.x - a.start.x)) * e1
        · simp only [along]
          linear_combination (-(a.stop.y - a.start.y)) * e1

/-- If there is only one common point, the ends of each interval are equal, unless both segments are points. -/
theorem C74_single_partial {f : Format K} (hf : Exact f) {a b : Segment K} {r : Intersection K} (h : intersection f a b = some r)
    (hd : ¬(a.start = a.stop ∧ b.start = b.stop)) (hu : ∀ p q, OnSegment p a → OnSegment p b → OnSegment q a → OnSegment q b → p = q) :
    r.s0 = r.s1 ∧ r.t0 = r.t1 := by
  obtain ⟨g1, -⟩ := intersection_spec hf a b
  unfold intersection at h
  obtain ⟨i, hi, rfl⟩ := Option.map_eq_some_iff.1 h
  obtain ⟨⟨h1, h2, h3, h4, h5, h6, h7⟩, -, u⟩ := g1 i hi
  refine u hd (hu _ _ (onSegment_iff.2 ⟨_, h1, h2.trans h3, rfl⟩) (onSegment_iff.2 ⟨_, h4.1, h4.2, h6⟩)
    (onSegment_iff.2 ⟨_, h1.trans h2, h3, rfl⟩) (onSegment_iff.2 ⟨_, h5.1, h5.2, h7⟩))

/-- For two points that are the same the documented rule is broken. -/
theorem C74_single_counterexample (f : Format ℚ) :
    ∃ r, intersection f ⟨⟨1, 2⟩, ⟨1, 2⟩⟩ ⟨⟨1, 2⟩, ⟨1, 2⟩⟩ = some r ∧ r.s0 = 0 ∧ r.s1 = 1 := ⟨_, rfl, rfl, rfl⟩

omit [LinearOrder K] [IsStrictOrderedRing K] in
theorem det_sum (t : Triangle K) (p : Pt K) :
    (t.p1.sub t.p0).det (p.sub t.p0) + (t.p2.sub t.p1).det (p.sub t.p1) + (t.p0.sub t.p2).det (p.sub t.p2) = (t.p1.sub t.p0).det (t.p2.sub t.p1) := by
  simp only [Pt.det, Pt.sub]
  ring

/-- A proper triangle contains exactly its points. -/
theorem C74_contains {f : Format K} (hf : Exact f) (t : Triangle K) (ht : t.signedArea ≠ 0) (p : Pt K) :
    triangleContains f t p = true ↔ InTriangle p t := by
  have hD : (t.p1.sub t.p0).det (t.p2.sub t.p1) ≠ 0 := fun q => ht (by rw [Triangle.signedArea, q, zero_div])
  have n1 : t.p0 ≠ t.p1 := fun q => hD (by rw [q]; simp [Pt.det, Pt.sub])
  have n2 : t.p1 ≠ t.p2 := fun q => hD (by rw [q]; simp [Pt.det, Pt.sub])
  have n3 : t.p2 ≠ t.p0 := fun q => hD (by rw [q]; simp only [Pt.det, Pt.sub]; ring)
  have sum := det_sum t p
  have bx : (t.p1.sub t.p0).det (t.p2.sub t.p1) * p.x = (t.p2.sub t.p1).det (p.sub t.p1) * t.p0.x + (t.p0.sub t.p2).det (p.sub t.p2) * t.p1.x +
      (t.p1.sub t.p0).det (p.sub t.p0) * t.p2.x := by simp only [Pt.det, Pt.sub]; ring
  have by' : (t.p1.sub t.p0).det (t.p2.sub t.p1) * p.y = (t.p2.sub t.p1).det (p.sub t.p1) * t.p0.y + (t.p0.sub t.p2).det (p.sub t.p2) * t.p1.y +
      (t.p1.sub t.p0).det (p.sub t.p0) * t.p2.y := by simp only [Pt.det, Pt.sub]; ring
  unfold triangleContains
  by_cases hc : p = t.p0 ∨ p = t.p1 ∨ p = t.p2
  · rw [if_pos hc]
    simp only [true_iff]
    obtain ⟨c0, c1, c2⟩ := inTriangle_corners t
    rcases hc with rfl | rfl | rfl
    · exact c0
    · exact c1
    · exact c2
  rw [if_neg hc]
  dsimp only
  rw [position_exact hf, position_exact hf, position_exact hf, if_neg n1, if_neg n2, if_neg n3]
  simp only [opposite_iff, ne_eq]
  have comb : InTriangle p t ↔ 0 ≤ (t.p1.sub t.p0).det (t.p2.sub t.p1) * (t.p1.sub t.p0).det (p.sub t.p0) ∧
      0 ≤ (t.p1.sub t.p0).det (t.p2.sub t.p1) * (t.p2.sub t.p1).det (p.sub t.p1) ∧
      0 ≤ (t.p1.sub t.p0).det (t.p2.sub t.p1) * (t.p0.sub t.p2).det (p.sub t.p2) := by
    constructor
    · rintro ⟨a, b, c, ha, hb, hc, hs, h1, h2⟩
      have hsq := mul_self_nonneg ((t.p1.sub t.p0).det (t.p2.sub t.p1))
      have e0 : (t.p1.sub t.p0).det (p.sub t.p0) = c * (t.p1.sub t.p0).det (t.p2.sub t.p1) := by
        obtain rfl : a = 1 - b - c := by linarith
        simp only [Pt.det, Pt.sub]
        rw [h1, h2]
        ring
      have e1 : (t.p2.sub t.p1).det (p.sub t.p1) = a * (t.p1.sub t.p0).det (t.p2.sub t.p1) := by
        obtain rfl : a = 1 - b - c := by linarith
        simp only [Pt.det, Pt.sub]
        rw [h1, h2]
        ring
      have e2 : (t.p0.sub t.p2).det (p.sub t.p2) = b * (t.p1.sub t.p0).det (t.p2.sub t.p1) := by
        obtain rfl : a = 1 - b - c := by linarith
        simp only [Pt.det, Pt.sub]
        rw [h1, h2]
        ring
      rw [e0, e1, e2]
      generalize (t.p1.sub t.p0).det (t.p2.sub t.p1) = D at *
      refine ⟨?_, ?_, ?_⟩
      · have := mul_nonneg hc hsq; linarith
      · have := mul_nonneg ha hsq; linarith
      · have := mul_nonneg hb hsq; linarith
    · rintro ⟨h0, h1, h2⟩
      generalize (t.p1.sub t.p0).det (t.p2.sub t.p1) = D at *
      generalize (t.p1.sub t.p0).det (p.sub t.p0) = d0 at *
      generalize (t.p2.sub t.p1).det (p.sub t.p1) = d1 at *
      generalize (t.p0.sub t.p2).det (p.sub t.p2) = d2 at *
      have hsq : 0 < D * D := mul_self_pos.2 hD
      have q : ∀ d, 0 ≤ D * d → 0 ≤ d / D := fun d hd => by
        have : d / D = D * d / (D * D) := by field_simp
        rw [this]
        exact div_nonneg hd hsq.le
      refine ⟨d1 / D, d2 / D, d0 / D, q _ h1, q _ h2, q _ h0, ?_, ?_, ?_⟩
      · rw [← add_div, ← add_div, div_eq_one_iff_eq hD]
        linarith
      · field_simp
        linarith
      · field_simp
        linarith
  rw [comb]
  have two : ∀ a b c : K, a = 0 → b = 0 → a + b + c = (t.p1.sub t.p0).det (t.p2.sub t.p1) → c = (t.p1.sub t.p0).det (t.p2.sub t.p1) :=
    fun a b c ha hb h => by rw [ha, hb] at h; linarith
  generalize (t.p1.sub t.p0).det (t.p2.sub t.p1) = D at *
  generalize (t.p1.sub t.p0).det (p.sub t.p0) = d0 at *
  generalize (t.p2.sub t.p1).det (p.sub t.p1) = d1 at *
  generalize (t.p0.sub t.p2).det (p.sub t.p2) = d2 at *
  have z01 : ¬(d0 = 0 ∧ d1 = 0) := by
    rintro ⟨rfl, rfl⟩
    obtain rfl : d2 = D := by linarith
    refine hc (Or.inr (Or.inl (Pt.ext (mul_left_cancel₀ hD ?_) (mul_left_cancel₀ hD ?_)))) <;> linarith
  have z02 : ¬(d0 = 0 ∧ d2 = 0) := by
    rintro ⟨rfl, rfl⟩
    obtain rfl : d1 = D := by linarith
    refine hc (Or.inl (Pt.ext (mul_left_cancel₀ hD ?_) (mul_left_cancel₀ hD ?_))) <;> linarith
  have z12 : ¬(d1 = 0 ∧ d2 = 0) := by
    rintro ⟨rfl, rfl⟩
    obtain rfl : d0 = D := by linarith
    refine hc (Or.inr (Or.inr (Pt.ext (mul_left_cancel₀ hD ?_) (mul_left_cancel₀ hD ?_)))) <;> linarith
  simp only [z01, z02, z12, or_false, not_lt]
  have sgn : (0 ≤ D * d0 ∧ 0 ≤ D * d1 ∧ 0 ≤ D * d2) ↔ 0 ≤ d0 * d1 ∧ 0 ≤ d0 * d2 ∧ 0 ≤ d1 * d2 := by
    constructor
    · rintro ⟨h0, h1, h2⟩
      rcases lt_or_gt_of_ne hD with q | q
      · have w0 : d0 ≤ 0 := by by_contra w; push Not at w; linarith [mul_neg_of_neg_of_pos q w]
        have w1 : d1 ≤ 0 := by by_contra w; push Not at w; linarith [mul_neg_of_neg_of_pos q w]
        have w2 : d2 ≤ 0 := by by_contra w; push Not at w; linarith [mul_neg_of_neg_of_pos q w]
        exact ⟨mul_nonneg_of_nonpos_of_nonpos w0 w1, mul_nonneg_of_nonpos_of_nonpos w0 w2, mul_nonneg_of_nonpos_of_nonpos w1 w2⟩
      · have w0 : 0 ≤ d0 := by by_contra w; push Not at w; linarith [mul_neg_of_pos_of_neg q w]
        have w1 : 0 ≤ d1 := by by_contra w; push Not at w; linarith [mul_neg_of_pos_of_neg q w]
        have w2 : 0 ≤ d2 := by by_contra w; push Not at w; linarith [mul_neg_of_pos_of_neg q w]
        exact ⟨mul_nonneg w0 w1, mul_nonneg w0 w2, mul_nonneg w1 w2⟩
    · rintro ⟨h0, h1, h2⟩
      rw [← sum]
      refine ⟨?_, ?_, ?_⟩
      · linarith [mul_self_nonneg d0]
      · linarith [mul_self_nonneg d1]
      · linarith [mul_self_nonneg d2]
  rw [sgn]
  by_cases h : d0 * d1 < 0
  · rw [if_pos h]
    simp only [Bool.false_eq_true, false_iff]
    exact fun q => absurd h (not_lt.2 q.1)
  · rw [if_neg h]
    simp only [decide_eq_true_eq]
    exact ⟨fun q => ⟨not_lt.1 h, q⟩, fun q => q.2⟩

/-- A triangle without area contains only its corners, although it has other points. -/
theorem C74_contains_flat {f : Format K} (hf : Exact f) (t : Triangle K) (ht : t.signedArea = 0) (p : Pt K) :
    triangleContains f t p = true ↔ p = t.p0 ∨ p = t.p1 ∨ p = t.p2 := by
  have hD : (t.p1.sub t.p0).det (t.p2.sub t.p1) = 0 := by
    have : (t.p1.sub t.p0).det (t.p2.sub t.p1) / 2 = 0 := ht
    linarith
  unfold triangleContains
  by_cases hc : p = t.p0 ∨ p = t.p1 ∨ p = t.p2
  · rw [if_pos hc]
    simp [hc]
  rw [if_neg hc]
  simp only [hc, iff_false]
  have sum := det_sum t p
  rw [hD] at sum
  rw [position_exact hf, position_exact hf, position_exact hf]
  by_cases n1 : t.p0 = t.p1
  · rw [if_pos n1]
    have s0 : (t.p1.sub t.p0).det (p.sub t.p0) = 0 := by rw [n1]; simp [Pt.det, Pt.sub]
    by_cases n2 : t.p1 = t.p2
    · rw [if_pos n2]
      simp [RelativePos.reverse]
    · have n3 : ¬t.p2 = t.p0 := fun q => n2 (by rw [← n1, q])
      rw [if_neg n2, if_neg n3]
      simp only [opposite_iff, ne_eq]
      have : (t.p0.sub t.p2).det (p.sub t.p2) = -(t.p2.sub t.p1).det (p.sub t.p1) := by rw [s0] at sum; linarith
      rw [this]
      generalize (t.p2.sub t.p1).det (p.sub t.p1) = d
      have : d * -d < 0 ∨ d = 0 ∧ -d = 0 := by
        rcases eq_or_ne d 0 with q | q
        · exact Or.inr ⟨q, by rw [q, neg_zero]⟩
        · exact Or.inl (by have := mul_self_pos.2 q; linarith)
      simp [this]
  rw [if_neg n1]
  by_cases n2 : t.p1 = t.p2
  · rw [if_pos n2]
    have n3 : ¬t.p2 = t.p0 := fun q => n1 (by rw [n2, q])
    rw [if_neg n3]
    simp only [opposite_iff, ne_eq]
    have s0 : (t.p2.sub t.p1).det (p.sub t.p1) = 0 := by rw [n2]; simp [Pt.det, Pt.sub]
    have : (t.p0.sub t.p2).det (p.sub t.p2) = -(t.p1.sub t.p0).det (p.sub t.p0) := by rw [s0] at sum; linarith
    rw [this]
    generalize (t.p1.sub t.p0).det (p.sub t.p0) = d
    have : d * -d < 0 ∨ d = 0 ∧ -d = 0 := by
      rcases eq_or_ne d 0 with q | q
      · exact Or.inr ⟨q, by rw [q, neg_zero]⟩
      · exact Or.inl (by have := mul_self_pos.2 q; linarith)
    simp only [this]
    split_ifs <;> simp
  rw [if_neg n2]
  by_cases n3 : t.p2 = t.p0
  · rw [if_pos n3]
    simp only [opposite_iff]
    have s0 : (t.p0.sub t.p2).det (p.sub t.p2) = 0 := by rw [n3]; simp [Pt.det, Pt.sub]
    have : (t.p2.sub t.p1).det (p.sub t.p1) = -(t.p1.sub t.p0).det (p.sub t.p0) := by rw [s0] at sum; linarith
    rw [this]
    generalize (t.p1.sub t.p0).det (p.sub t.p0) = d
    have : d * -d < 0 ∨ d = 0 ∧ -d = 0 := by
      rcases eq_or_ne d 0 with q | q
      · exact Or.inr ⟨q, by rw [q, neg_zero]⟩
      · exact Or.inl (by have := mul_self_pos.2 q; linarith)
    simp [this]
  rw [if_neg n3]
  simp only [opposite_iff, ne_eq]
  generalize (t.p1.sub t.p0).det (p.sub t.p0) = d0 at *
  generalize (t.p2.sub t.p1).det (p.sub t.p1) = d1 at *
  generalize (t.p0.sub t.p2).det (p.sub t.p2) = d2 at *
  by_cases q1 : d0 * d1 < 0 ∨ d0 = 0 ∧ d1 = 0
  · simp [q1]
  · simp only [q1, if_false, decide_eq_true_eq]
    push Not at q1
    rintro ⟨q2, q3⟩
    push Not at q2 q3
    have r1 := q1.1
    have r2 := q2.1
    have r3 := q3.1
    obtain rfl : d2 = -d0 - d1 := by linarith
    have e0 : d0 = 0 := mul_self_eq_zero.1 (le_antisymm (by nlinarith) (mul_self_nonneg _))
    have e1 : d1 = 0 := mul_self_eq_zero.1 (le_antisymm (by nlinarith) (mul_self_nonneg _))
    exact q1.2 e0 e1

/-- Numbers without rounding, with some scaling and a tolerance. -/
def exactFormat : Format ℚ := ⟨1 / 8388608, id, id, fun _ _ => -3⟩

example : Exact exactFormat := ⟨fun _ => rfl, fun _ => rfl⟩

example : (intersection exactFormat ⟨⟨0, 0⟩, ⟨4, 4⟩⟩ ⟨⟨3, 1⟩, ⟨1, 3⟩⟩).map (fun r => (r.s0, r.s1, r.t0, r.t1, r.intx)) =
    some (1 / 2, 1 / 2, 1 / 2, 1 / 2, ⟨⟨2, 2⟩, ⟨2, 2⟩⟩) := by decide +kernel

example : (intersection exactFormat ⟨⟨0, 0⟩, ⟨4, 0⟩⟩ ⟨⟨5, 0⟩, ⟨1, 0⟩⟩).map (fun r => (r.s0, r.s1, r.t0, r.t1)) = some (1 / 4, 1, 1, 1 / 4) := by
  decide +kernel

example : (⟨⟨0, 0⟩, ⟨1, 0⟩, ⟨0, 1⟩⟩ : Triangle ℚ).signedArea ≠ 0 := by decide +kernel

end Verif.Legacy
