import Verif.Spec.BrushTipShape
import Verif.Lemmas.Circle
import Mathlib.Analysis.LocallyConvex.Separation
import Mathlib.Analysis.LocallyConvex.WithSeminorms
import Mathlib.Analysis.Convex.Topology
import Mathlib.Analysis.Normed.Module.Convex
import Mathlib.Topology.Order.LeftRightNhds
import Mathlib.Analysis.SpecialFunctions.Trigonometric.Complex
import Mathlib.Topology.Order.IntermediateValue

/-!
# Lemmas about the shapes of brush tips
-/

set_option autoImplicit false

namespace Verif.RealGeom

open Spec Real Filter Topology

/-! ## Angles -/

theorem SameAngle.refl (a : ℝ) : SameAngle a a := ⟨0, by simp⟩

theorem SameAngle.add {a b : ℝ} (h : SameAngle a b) (x : ℝ) : SameAngle (a + x) (b + x) := by
  obtain ⟨k, e⟩ := h
  exact ⟨k, by rw [e]; ring⟩

/-- Two angles of the same turn. -/
theorem sameTurn {x a b : ℝ} (ha : x ≤ a) (ha' : a < x + 2 * π) (hb : x ≤ b) (hb' : b < x + 2 * π) (h : SameAngle a b) : a = b := by
  obtain ⟨k, e⟩ := h
  have hpi := Real.pi_pos
  have h1 : (k : ℝ) * (2 * π) < 1 * (2 * π) := by linarith
  have h2 : (-1 : ℝ) * (2 * π) < k * (2 * π) := by linarith
  have h3 := lt_of_mul_lt_mul_right h1 (by linarith)
  have h4 := lt_of_mul_lt_mul_right h2 (by linarith)
  have h5 : k < 1 := by exact_mod_cast h3
  have h6 : -1 < k := by exact_mod_cast h4
  have : k = 0 := by omega
  rw [e, this]; simp

/-- Any angle is of the turn. -/
theorem exists_turn (x a : ℝ) : ∃ u, 0 ≤ u ∧ u < 2 * π ∧ SameAngle a (x + u) := by
  have hpi : 0 < 2 * π := by linarith [Real.pi_pos]
  refine ⟨toIcoMod hpi 0 (a - x), ?_, ?_, ?_⟩
  · exact (toIcoMod_mem_Ico hpi 0 (a - x)).1
  · have := (toIcoMod_mem_Ico hpi 0 (a - x)).2; linarith
  · refine ⟨toIcoDiv hpi 0 (a - x), ?_⟩
    have := toIcoMod_add_toIcoDiv_zsmul hpi 0 (a - x)
    rw [zsmul_eq_mul] at this
    linarith

/-- The test of the angle of a tangent. -/
theorem angle_test {inc out α δ : ℝ} (hi : Normal inc) (ho : Normal out) (ha : Normal α) (hδ : 0 < δ) (hδ' : δ ≤ π)
    (h : SameAngle out (inc + δ)) :
    ((if α < inc then α + 2 * π else α) < if out < inc then out + 2 * π else out) ↔ ∃ u, 0 ≤ u ∧ u < δ ∧ SameAngle α (inc + u) := by
  have hpi := Real.pi_pos
  have lift : ∀ a, Normal a → inc ≤ (if a < inc then a + 2 * π else a) ∧ (if a < inc then a + 2 * π else a) < inc + 2 * π ∧
      SameAngle (if a < inc then a + 2 * π else a) a := by
    intro a hn
    by_cases hl : a < inc
    · rw [if_pos hl]
      exact ⟨by linarith [hn.1, hi.2], by linarith, ⟨1, by push_cast; ring⟩⟩
    · rw [if_neg hl]
      exact ⟨not_lt.1 hl, by linarith [hn.2, hi.1], SameAngle.refl _⟩
  obtain ⟨a1, a2, a3⟩ := lift α ha
  obtain ⟨o1, o2, o3⟩ := lift out ho
  have hout := sameTurn o1 o2 (b := inc + δ) (by linarith) (by linarith) (SameAngle.trans o3 h)
  rw [hout]
  constructor
  · intro hlt
    refine ⟨(if α < inc then α + 2 * π else α) - inc, by linarith, by linarith, ?_⟩
    rw [add_sub_cancel]
    exact SameAngle.symm a3
  · rintro ⟨u, u1, u2, u3⟩
    have := sameTurn a1 a2 (b := inc + u) (by linarith) (by linarith) (SameAngle.trans a3 u3)
    rw [this]; linarith

/-! ## Edges -/

/-- The right tangent angle of two circles of the same size. -/
noncomputable def beta (e : ℂ) : ℝ := Angle.normalizedAboutZero (Vec.direction e - π / 2)

theorem tangent_beta (a b : ℂ) (r : ℝ) : Circle.guaranteedRightTangentAngle ⟨a, r⟩ ⟨b, r⟩ = beta (b - a) := by
  unfold Circle.guaranteedRightTangentAngle beta
  simp only [sub_self, zero_div, Real.arccos_zero]

theorem along_sin (θ : ℝ) (e : ℂ) : along θ e = ‖e‖ * Real.sin (θ - beta e) := by
  have h : SameAngle (θ - beta e) (θ - (Vec.direction e - π / 2)) := by
    obtain ⟨k, hk⟩ := (normalized_spec (Vec.direction e - π / 2)).2
    exact ⟨-k, by unfold beta; rw [hk]; push_cast; ring⟩
  rw [SameAngle.sin h, along_eq, show θ - (Vec.direction e - π / 2) = (θ - Vec.direction e) + π / 2 by ring, Real.sin_add_pi_div_two]

theorem along_sub (θ : ℝ) (p q : ℂ) : along θ (p - q) = along θ p - along θ q := by
  unfold along; rw [Complex.sub_re, Complex.sub_im]; ring

theorem along_continuous (p : ℂ) : Continuous fun θ => along θ p := by
  unfold along; fun_prop

/-- The direction of an edge turns to the left, by at most half a turn. -/
theorem turn_delta {a b : ℂ} (h : 0 < Vec.determinant a b ∨ (b = -a ∧ a ≠ 0)) :
    ∃ δ, 0 < δ ∧ δ ≤ π ∧ SameAngle (beta b) (beta a + δ) := by
  obtain ⟨⟨n1, n2⟩, n3⟩ := normalized_spec (Vec.direction b - Vec.direction a)
  refine ⟨Angle.normalizedAboutZero (Vec.direction b - Vec.direction a), ?_, n2, ?_⟩
  · have hs := det_eq a b
    rw [← sin_normalized] at hs
    rcases h with h | ⟨rfl, h⟩
    · by_contra hn
      have : Real.sin (Angle.normalizedAboutZero (Vec.direction b - Vec.direction a)) ≤ 0 :=
        Real.sin_nonpos_of_nonpos_of_neg_pi_le (not_lt.1 hn) n1.le
      have := mul_nonpos_of_nonneg_of_nonpos (mul_nonneg (norm_nonneg a) (norm_nonneg b)) this
      linarith
    · have hd := dot_eq a (-a)
      rw [← cos_normalized] at hd
      have hp : 0 < ‖a‖ := norm_pos_iff.2 h
      have he : Vec.dotProduct a (-a) = -(‖a‖ * ‖a‖) := by
        unfold Vec.dotProduct
        rw [Complex.neg_re, Complex.neg_im, Complex.norm_mul_self_eq_normSq, Complex.normSq_apply]; ring
      rw [he, norm_neg] at hd
      have hc : Real.cos (Angle.normalizedAboutZero (Vec.direction (-a) - Vec.direction a)) = -1 := by
        have : ‖a‖ * ‖a‖ * (Real.cos (Angle.normalizedAboutZero (Vec.direction (-a) - Vec.direction a)) + 1) = 0 := by linarith
        rcases mul_eq_zero.1 this with h | h
        · exact absurd h (mul_pos hp hp).ne'
        · linarith
      by_contra hn
      have hcos := Real.cos_lt_cos_of_nonneg_of_le_pi (x := -Angle.normalizedAboutZero (Vec.direction (-a) - Vec.direction a))
        (y := π) (by linarith) (le_refl _) (by linarith)
      rw [Real.cos_pi, Real.cos_neg, hc] at hcos
      exact lt_irrefl _ hcos
  · obtain ⟨k, hk⟩ := (normalized_spec (Vec.direction b - π / 2)).2
    obtain ⟨l, hl⟩ := (normalized_spec (Vec.direction a - π / 2)).2
    obtain ⟨m, hm⟩ := n3
    refine ⟨k - l - m, ?_⟩
    unfold beta
    rw [hk, hl, hm]; push_cast; ring

/-! ## Corners -/

/-- The corners of a convex polygon, counter-clockwise: all are on the left of each edge, and at each corner the boundary turns to
the left. -/
structure Corners {ι : Type} (c : ι → ℂ) (pv nx : ι → ι) : Prop where
  left : ∀ i j, 0 ≤ Vec.determinant (c (nx i) - c i) (c j - c i)
  inv : ∀ i, nx (pv i) = i
  turn : ∀ i, 0 < Vec.determinant (c i - c (pv i)) (c (nx i) - c i) ∨
    (c (nx i) - c i = -(c i - c (pv i)) ∧ c i - c (pv i) ≠ 0 ∧ ∀ j, c j = c i ∨ c j = c (pv i))

/-- A circle is found outside of a corner. -/
def Detects (corner test : Circle) (inc out : ℝ) : Prop :=
  ¬corner.Contains test ∧ (test.Contains corner ∨
    (if corner.guaranteedRightTangentAngle test < inc then corner.guaranteedRightTangentAngle test + 2 * π
      else corner.guaranteedRightTangentAngle test) < if out < inc then out + 2 * π else out)

section
variable {ι : Type} {c : ι → ℂ} {pv nx : ι → ι}

theorem Corners.ne_in (h : Corners c pv nx) (i : ι) : c i - c (pv i) ≠ 0 := by
  rcases h.turn i with g | g
  · intro e
    rw [e] at g
    simp [Vec.determinant] at g
  · exact g.2.1

theorem Corners.ne_out (h : Corners c pv nx) (i : ι) : c (nx i) - c i ≠ 0 := by
  rcases h.turn i with g | g
  · intro e
    rw [e] at g
    simp [Vec.determinant] at g
  · rw [g.1]; exact neg_ne_zero.2 g.2.1

/-- The normal of an edge. -/
theorem along_beta (e v : ℂ) : along (beta e) v * ‖e‖ = -Vec.determinant e v := by
  have hc : Real.cos (beta e) = Real.sin (Vec.direction e) := by
    unfold beta; rw [cos_normalized, Real.cos_sub_pi_div_two]
  have hs : Real.sin (beta e) = -Real.cos (Vec.direction e) := by
    unfold beta; rw [sin_normalized, Real.sin_sub_pi_div_two]
  unfold along Vec.determinant
  rw [hc, hs]
  conv_rhs => rw [re_eq e, im_eq e]
  ring

/-- In the directions between those of the edges, the corner is the farthest. -/
theorem Corners.farthest (h : Corners c pv nx) (i j : ι) {δ u : ℝ} (hδ : 0 < δ) (hδ' : δ ≤ π)
    (hs : SameAngle (beta (c (nx i) - c i)) (beta (c i - c (pv i)) + δ)) (hu : 0 ≤ u) (hu' : u ≤ δ) :
    along (beta (c i - c (pv i)) + u) (c j - c i) ≤ 0 := by
  have hin : along (beta (c i - c (pv i))) (c j - c i) ≤ 0 := by
    have h1 := along_beta (c i - c (pv i)) (c j - c i)
    have h2 := h.left (pv i) j
    rw [h.inv] at h2
    have h3 : Vec.determinant (c i - c (pv i)) (c j - c (pv i)) = Vec.determinant (c i - c (pv i)) (c j - c i) := by
      unfold Vec.determinant; simp only [Complex.sub_re, Complex.sub_im]; ring
    rw [h3] at h2
    have hp := norm_pos_iff.2 (h.ne_in i)
    nlinarith
  have hout : along (beta (c i - c (pv i)) + δ) (c j - c i) ≤ 0 := by
    have e : along (beta (c i - c (pv i)) + δ) (c j - c i) = along (beta (c (nx i) - c i)) (c j - c i) := by
      unfold along; rw [SameAngle.cos hs, SameAngle.sin hs]
    rw [e]
    have h1 := along_beta (c (nx i) - c i) (c j - c i)
    have h2 := h.left i j
    have hp := norm_pos_iff.2 (h.ne_out i)
    nlinarith
  rcases lt_or_eq_of_le hδ' with hlt | heq
  · have key : Real.sin δ * along (beta (c i - c (pv i)) + u) (c j - c i) =
        Real.sin (δ - u) * along (beta (c i - c (pv i))) (c j - c i) + Real.sin u * along (beta (c i - c (pv i)) + δ) (c j - c i) := by
      generalize beta (c i - c (pv i)) = b
      generalize c j - c i = v
      unfold along
      rw [Real.cos_add, Real.sin_add, Real.cos_add, Real.sin_add, Real.sin_sub]
      have q1 := Real.sin_sq_add_cos_sq u
      ring
    have s1 := Real.sin_pos_of_pos_of_lt_pi hδ hlt
    have s2 := Real.sin_nonneg_of_nonneg_of_le_pi (x := δ - u) (by linarith) (by linarith)
    have s3 := Real.sin_nonneg_of_nonneg_of_le_pi hu (by linarith)
    by_contra hn
    have := mul_pos s1 (not_le.1 hn)
    have := mul_nonpos_of_nonneg_of_nonpos s2 hin
    have := mul_nonpos_of_nonneg_of_nonpos s3 hout
    linarith
  · -- half a turn: all the corners are on one line
    rcases h.turn i with g | ⟨g1, g2, g3⟩
    · exfalso
      have h1 := along_beta (c i - c (pv i)) (c (nx i) - c i)
      have h2 : along (beta (c (nx i) - c i)) (c (nx i) - c i) = 0 := by rw [along_sin, sub_self, Real.sin_zero, mul_zero]
      have h3 : along (beta (c (nx i) - c i)) (c (nx i) - c i) = -along (beta (c i - c (pv i))) (c (nx i) - c i) := by
        conv_lhs => unfold along
        rw [SameAngle.cos hs, SameAngle.sin hs, heq, Real.cos_add_pi, Real.sin_add_pi]
        unfold along; ring
      rw [h2] at h3
      rw [show along (beta (c i - c (pv i))) (c (nx i) - c i) = 0 by linarith, zero_mul] at h1
      linarith
    · rcases g3 j with e | e
      · rw [e, sub_self]; simp [along]
      · have e' : along (beta (c i - c (pv i)) + u) (c j - c i) = -along (beta (c i - c (pv i)) + u) (c i - c (pv i)) := by
          rw [e, along_sub, along_sub]; ring
        rw [e', along_sin, add_sub_cancel_left]
        have := mul_nonneg (norm_nonneg (c i - c (pv i))) (Real.sin_nonneg_of_nonneg_of_le_pi hu (by linarith))
        linarith

theorem Corners.delta (h : Corners c pv nx) (i : ι) :
    ∃ δ, 0 < δ ∧ δ ≤ π ∧ SameAngle (beta (c (nx i) - c i)) (beta (c i - c (pv i)) + δ) := by
  refine turn_delta ?_
  rcases h.turn i with g | g
  · exact Or.inl g
  · exact Or.inr ⟨g.1, g.2.1⟩

/-- The right tangent of two circles, where none contains the other. -/
theorem right_angle {a b : Circle} (h1 : ¬a.Contains b) (h2 : ¬b.Contains a) : ∃ γ, 0 < γ ∧ γ < π ∧ 0 < ‖b.center - a.center‖ ∧
    ‖b.center - a.center‖ * Real.cos γ = a.radius - b.radius ∧
    SameAngle (a.guaranteedRightTangentAngle b) (Vec.direction (b.center - a.center) - γ) := by
  unfold Circle.Contains at h1 h2
  rw [magnitude_eq] at h1 h2
  rw [norm_sub_rev] at h2
  have hp : 0 < ‖b.center - a.center‖ := by
    rcases (norm_nonneg (b.center - a.center)).lt_or_eq with h | h
    · exact h
    · rw [← h] at h1 h2; linarith
  have r1 : -1 < (a.radius - b.radius) / ‖b.center - a.center‖ := by rw [lt_div_iff₀ hp]; linarith
  have r2 : (a.radius - b.radius) / ‖b.center - a.center‖ < 1 := by rw [div_lt_one hp]; linarith
  refine ⟨Real.arccos ((a.radius - b.radius) / ‖b.center - a.center‖), Real.arccos_pos.2 r2, ?_, hp, ?_, ?_⟩
  · rcases lt_or_eq_of_le (Real.arccos_le_pi ((a.radius - b.radius) / ‖b.center - a.center‖)) with h | h
    · exact h
    · rw [Real.arccos_eq_pi] at h; linarith
  · rw [Real.cos_arccos r1.le r2.le]; field_simp
  · unfold Circle.guaranteedRightTangentAngle
    dsimp only
    rw [magnitude_eq]
    exact (normalized_spec _).2

theorem guaranteed_normal (a b : Circle) : Normal (a.guaranteedRightTangentAngle b) := (normalized_spec _).1

theorem beta_normal (e : ℂ) : Normal (beta e) := (normalized_spec _).1

/-- A circle found outside of a corner pokes out of a half plane with all of the shape. -/
theorem Corners.sound (h : Corners c pv nx) {r : ℝ} {t : Circle} (i : ι)
    (hd : Detects ⟨c i, r⟩ t (beta (c i - c (pv i))) (beta (c (nx i) - c i))) :
    ∃ θ, ∀ j, along θ (c j) + r < along θ t.center + t.radius := by
  obtain ⟨δ, d1, d2, d3⟩ := h.delta i
  -- it is enough to be out in a direction in which the corner is the farthest
  suffices ∃ u, 0 ≤ u ∧ u ≤ δ ∧ r - t.radius < along (beta (c i - c (pv i)) + u) (t.center - c i) by
    obtain ⟨u, u1, u2, u3⟩ := this
    refine ⟨beta (c i - c (pv i)) + u, fun j => ?_⟩
    have := h.farthest i j d1 d2 d3 u1 u2
    rw [along_sub] at this u3
    linarith
  obtain ⟨q1, q2⟩ := hd
  by_cases hc : t.Contains ⟨c i, r⟩
  · -- it is larger
    unfold Circle.Contains at hc q1
    rw [magnitude_eq] at hc q1
    rw [norm_sub_rev] at hc
    dsimp only at hc q1
    by_cases hcos : -1 < Real.cos (beta (c i - c (pv i)) - Vec.direction (t.center - c i))
    · refine ⟨0, le_refl _, d1.le, ?_⟩
      rw [add_zero, along_eq]
      rcases (norm_nonneg (t.center - c i)).lt_or_eq with h0 | h0
      · nlinarith
      · rw [← h0] at q1 ⊢; linarith
    · have hm : Real.cos (beta (c i - c (pv i)) - Vec.direction (t.center - c i)) = -1 :=
        le_antisymm (not_lt.1 hcos) (Real.neg_one_le_cos _)
      have hsin : Real.sin (beta (c i - c (pv i)) - Vec.direction (t.center - c i)) = 0 := by
        have := Real.sin_sq_add_cos_sq (beta (c i - c (pv i)) - Vec.direction (t.center - c i))
        rw [hm] at this
        nlinarith
      refine ⟨δ / 2, by linarith, by linarith, ?_⟩
      rw [along_eq, show beta (c i - c (pv i)) + δ / 2 - Vec.direction (t.center - c i) =
        (beta (c i - c (pv i)) - Vec.direction (t.center - c i)) + δ / 2 by ring, Real.cos_add, hm, hsin]
      have hcd : Real.cos (δ / 2) < 1 := by
        have := Real.cos_lt_cos_of_nonneg_of_le_pi (x := 0) (y := δ / 2) (le_refl _) (by linarith) (by linarith)
        rwa [Real.cos_zero] at this
      rcases (norm_nonneg (t.center - c i)).lt_or_eq with h0 | h0
      · nlinarith
      · rw [← h0] at q1 ⊢; linarith
  · obtain ⟨γ, g1, g2, g3, g4, g5⟩ := right_angle q1 hc
    have q3 := q2.resolve_left hc
    rw [angle_test (beta_normal _) (beta_normal _) (guaranteed_normal _ _) d1 d2 d3] at q3
    obtain ⟨u, u1, u2, u3⟩ := q3
    dsimp only at g3 g4 g5
    have hε : 0 < min (δ - u) γ := lt_min (by linarith) g1
    refine ⟨u + min (δ - u) γ, by linarith, by linarith [min_le_left (δ - u) γ], ?_⟩
    rw [along_eq]
    have hs : SameAngle (beta (c i - c (pv i)) + (u + min (δ - u) γ) - Vec.direction (t.center - c i)) (min (δ - u) γ - γ) := by
      obtain ⟨k, hk⟩ := SameAngle.trans (SameAngle.symm u3) g5
      exact ⟨k, by linarith⟩
    rw [SameAngle.cos hs, ← Real.cos_neg, neg_sub]
    have : Real.cos γ < Real.cos (γ - min (δ - u) γ) :=
      Real.cos_lt_cos_of_nonneg_of_le_pi (by linarith [min_le_right (δ - u) γ]) g2.le (by linarith)
    nlinarith

/-! ### The other direction -/

theorem freq_sin {θ a : ℝ} (h : ∃ᶠ t in 𝓝[>] θ, 0 ≤ Real.sin (t - a)) : ∃ u, 0 ≤ u ∧ u < π ∧ SameAngle θ (a + u) := by
  obtain ⟨u, u1, u2, u3⟩ := exists_turn a θ
  refine ⟨u, u1, ?_, u3⟩
  by_contra hn
  refine h ?_
  have hm : Set.Ioo θ (θ + (2 * π - u)) ∈ 𝓝[>] θ := Ioo_mem_nhdsGT (by linarith)
  filter_upwards [hm] with t ht
  rw [not_le]
  have hs : SameAngle (t - a) (u + (t - θ) - 2 * π) := by
    obtain ⟨k, hk⟩ := u3
    exact ⟨k + 1, by push_cast; linarith⟩
  rw [SameAngle.sin hs]
  exact Real.sin_neg_of_neg_of_neg_pi_lt (by linarith [ht.2]) (by linarith [ht.1, not_lt.1 hn])

theorem freq_cos {θ φ γ : ℝ} (g1 : 0 < γ) (g2 : γ < π) (h0 : Real.cos (θ - φ) = Real.cos γ)
    (h : ∃ᶠ t in 𝓝[>] θ, Real.cos γ < Real.cos (t - φ)) : SameAngle θ (φ - γ) := by
  rw [Real.cos_eq_cos_iff] at h0
  obtain ⟨k, hk | hk⟩ := h0
  · exfalso
    refine h ?_
    have hm : Set.Ioo θ (θ + (π - γ)) ∈ 𝓝[>] θ := Ioo_mem_nhdsGT (by linarith)
    filter_upwards [hm] with t ht
    rw [not_lt]
    have hs : SameAngle (t - φ) (γ + (t - θ)) := ⟨-k, by push_cast; linarith⟩
    rw [SameAngle.cos hs]
    exact Real.cos_le_cos_of_nonneg_of_le_pi g1.le (by linarith [ht.2]) (by linarith [ht.1])
  · exact ⟨k, by linarith⟩

theorem Corners.complete [Finite ι] [Nonempty ι] (h : Corners c pv nx) {r : ℝ} {t : Circle} {θ0 : ℝ}
    (hb : ∃ j, along 0 t.center + t.radius ≤ along 0 (c j) + r)
    (ho : ∀ j, along θ0 (c j) + r < along θ0 t.center + t.radius) :
    ∃ i, Detects ⟨c i, r⟩ t (beta (c i - c (pv i))) (beta (c (nx i) - c i)) := by
  -- the direction is of the first turn
  obtain ⟨u0, v1, v2, v3⟩ := exists_turn 0 θ0
  rw [zero_add] at v3
  have ho' : ∀ j, along u0 (c j) + r < along u0 t.center + t.radius := by
    intro j
    have := ho j
    unfold along at this ⊢
    rwa [SameAngle.cos v3, SameAngle.sin v3] at this
  -- the last direction before in which it is not out
  let S : Set ℝ := Set.Icc 0 u0 ∩ {θ | ∃ j, along θ t.center + t.radius ≤ along θ (c j) + r}
  have hcl : IsClosed {θ | ∃ j, along θ t.center + t.radius ≤ along θ (c j) + r} := by
    have e : {θ | ∃ j, along θ t.center + t.radius ≤ along θ (c j) + r} =
        ⋃ j, {θ | along θ t.center + t.radius ≤ along θ (c j) + r} := by
      ext θ; simp
    rw [e]
    refine isClosed_iUnion_of_finite fun j => ?_
    exact isClosed_le ((along_continuous _).add continuous_const) ((along_continuous _).add continuous_const)
  have hS : IsCompact S := isCompact_Icc.inter_right hcl
  have hne : S.Nonempty := ⟨0, ⟨le_refl _, v1⟩, hb⟩
  have hmem := hS.sSup_mem hne
  have hmax : ∀ θ ∈ S, θ ≤ sSup S := fun θ hθ => le_csSup hS.bddAbove hθ
  generalize sSup S = θ1 at hmem hmax
  obtain ⟨⟨m1, m2⟩, ⟨j0, m3⟩⟩ := hmem
  have hlt : θ1 < u0 := by
    rcases m2.lt_or_eq with h | h
    · exact h
    · rw [h] at m3; exact absurd m3 (not_le.2 (ho' j0))
  have hafter : ∀ θ ∈ Set.Ioo θ1 u0, ∀ j, along θ (c j) + r < along θ t.center + t.radius := by
    intro θ hθ j
    by_contra hn
    have := hmax θ ⟨⟨by linarith [hθ.1], hθ.2.le⟩, ⟨j, not_lt.1 hn⟩⟩
    linarith [hθ.1]
  -- a corner that is the farthest one right after it
  have hi : ∃ i, ∃ᶠ θ in 𝓝[>] θ1, (∀ j, along θ (c j) ≤ along θ (c i)) ∧ along θ (c i) + r < along θ t.center + t.radius := by
    by_contra hn
    push Not at hn
    have hall : ∀ᶠ θ in 𝓝[>] θ1, ∀ i, ¬((∀ j, along θ (c j) ≤ along θ (c i)) ∧ along θ (c i) + r < along θ t.center + t.radius) := by
      rw [Filter.eventually_all]
      intro i
      exact (hn i).mono fun θ hθ hh => absurd hh.2 (not_lt.2 (hθ hh.1))
    have hm : Set.Ioo θ1 u0 ∈ 𝓝[>] θ1 := Ioo_mem_nhdsGT hlt
    obtain ⟨θ, g1, g2⟩ := (hall.and hm).exists
    obtain ⟨i, hi⟩ := Finite.exists_max fun j => along θ (c j)
    exact g1 i ⟨hi, hafter θ g2 i⟩
  obtain ⟨i, hi⟩ := hi
  have tend : ∀ p, Tendsto (fun θ => along θ p) (𝓝[>] θ1) (𝓝 (along θ1 p)) := fun p =>
    ((along_continuous p).tendsto θ1).mono_left nhdsWithin_le_nhds
  have far : ∀ j, along θ1 (c j) ≤ along θ1 (c i) := fun j =>
    le_of_tendsto_of_tendsto_of_frequently (tend _) (tend _) (hi.mono fun θ hh => hh.1 j)
  have hge : along θ1 (c i) + r ≤ along θ1 t.center + t.radius :=
    le_of_tendsto_of_tendsto_of_frequently ((tend _).add tendsto_const_nhds) ((tend _).add tendsto_const_nhds)
      (hi.mono fun θ hh => hh.2.le)
  have heq : along θ1 (t.center - c i) = r - t.radius := by
    rw [along_sub]; linarith [far j0]
  refine ⟨i, ?_, ?_⟩
  · intro hc
    obtain ⟨θ, hh⟩ := hi.exists
    unfold Circle.Contains at hc
    rw [magnitude_eq] at hc
    dsimp only at hc
    have := along_le θ (t.center - c i)
    rw [along_sub] at this
    linarith [hh.2]
  · by_cases hc : t.Contains ⟨c i, r⟩
    · exact Or.inl hc
    right
    obtain ⟨δ, d1, d2, d3⟩ := h.delta i
    rw [angle_test (beta_normal _) (beta_normal _) (guaranteed_normal _ _) d1 d2 d3]
    have hnc : ¬Circle.Contains ⟨c i, r⟩ t := by
      intro hc
      obtain ⟨θ, hh⟩ := hi.exists
      unfold Circle.Contains at hc
      rw [magnitude_eq] at hc
      dsimp only at hc
      have := along_le θ (t.center - c i)
      rw [along_sub] at this
      linarith [hh.2]
    obtain ⟨γ, g1, g2, g3, g4, g5⟩ := right_angle hnc hc
    dsimp only at g3 g4 g5
    have hα : SameAngle θ1 (Vec.direction (t.center - c i) - γ) := by
      refine freq_cos g1 g2 ?_ (hi.mono fun θ hh => ?_)
      · rw [along_eq, ← g4] at heq
        exact mul_left_cancel₀ g3.ne' heq
      · have : r - t.radius < along θ (t.center - c i) := by rw [along_sub]; linarith [hh.2]
        rw [along_eq, ← g4] at this
        exact lt_of_mul_lt_mul_left this g3.le
    have hin : ∃ᶠ θ in 𝓝[>] θ1, 0 ≤ Real.sin (θ - beta (c i - c (pv i))) := hi.mono fun θ hh => by
      have h1 : 0 ≤ along θ (c i - c (pv i)) := by rw [along_sub]; linarith [hh.1 (pv i)]
      rw [along_sin] at h1
      exact nonneg_of_mul_nonneg_right h1 (norm_pos_iff.2 (h.ne_in i))
    have hout : ∃ᶠ θ in 𝓝[>] θ1, 0 ≤ Real.sin (θ - (beta (c (nx i) - c i) - π)) := hi.mono fun θ hh => by
      have h1 : along θ (c (nx i) - c i) ≤ 0 := by rw [along_sub]; linarith [hh.1 (nx i)]
      rw [along_sin] at h1
      rw [show θ - (beta (c (nx i) - c i) - π) = θ - beta (c (nx i) - c i) + π by ring, Real.sin_add_pi]
      have hp := norm_pos_iff.2 (h.ne_out i)
      by_contra hn
      have := mul_pos hp (show 0 < Real.sin (θ - beta (c (nx i) - c i)) by linarith [not_le.1 hn])
      linarith
    obtain ⟨u, u1, u2, u3⟩ := freq_sin hin
    obtain ⟨w, w1, w2, w3⟩ := freq_sin hout
    refine ⟨u, u1, ?_, SameAngle.trans g5 (SameAngle.trans (SameAngle.symm hα) u3)⟩
    -- `u` is `w + δ - π`
    have hs : SameAngle u (w + δ - π) := by
      obtain ⟨a, ha⟩ := u3
      obtain ⟨b, hb⟩ := w3
      obtain ⟨k, hk⟩ := d3
      exact ⟨b - a + k, by push_cast; linarith⟩
    have := sameTurn (x := -π) (by linarith) (by linarith) (by linarith) (by linarith) hs
    linarith

end

/-! ## Regions -/

theorem convex_along (θ k : ℝ) : Convex ℝ {p | along θ p < k} := by
  refine convex_halfSpace_lt ⟨along_add θ, ?_⟩ k
  intro a p
  unfold along
  simp only [Complex.smul_re, Complex.smul_im, smul_eq_mul]; ring

theorem convex_along_le (θ k : ℝ) : Convex ℝ {p | along θ p ≤ k} := by
  refine convex_halfSpace_le ⟨along_add θ, ?_⟩ k
  intro a p
  unfold along
  simp only [Complex.smul_re, Complex.smul_im, smul_eq_mul]; ring

theorem getPoint_in {c : Circle} (h : 0 ≤ c.radius) (θ : ℝ) : InDisc c (c.getPoint θ) := by
  unfold InDisc Circle.getPoint
  rw [add_sub_cancel_left, norm_from, abs_of_nonneg h]

theorem disc_region {s : TipShape} {c : Circle} {p : ℂ} (hc : c ∈ s.circles) (hp : InDisc c p) : p ∈ region s :=
  subset_convexHull ℝ _ ⟨c, hc, hp⟩

/-- A real functional of the plane is a multiple of a coordinate in a direction. -/
theorem functional (f : ℂ →L[ℝ] ℝ) : ∃ M θ, 0 ≤ M ∧ ∀ v, f v = M * along θ v := by
  refine ⟨‖(⟨f 1, f Complex.I⟩ : ℂ)‖, Vec.direction ⟨f 1, f Complex.I⟩, norm_nonneg _, fun v => ?_⟩
  have e : v = v.re • (1 : ℂ) + v.im • Complex.I := by
    apply Complex.ext <;> simp
  conv_lhs => rw [e, map_add, map_smul, map_smul]
  have h1 := re_eq (⟨f 1, f Complex.I⟩ : ℂ)
  have h2 := im_eq (⟨f 1, f Complex.I⟩ : ℂ)
  dsimp only at h1 h2
  unfold along
  rw [smul_eq_mul, smul_eq_mul]
  linear_combination v.re * h1 + v.im * h2

theorem region_separated {s : TipShape} {r : ℝ} (hr : 0 ≤ r) (hs : ∀ c ∈ s.circles, c.radius = r) {p : ℂ}
    (hp : p ∉ region s) : ∃ θ, ∀ c ∈ s.circles, along θ c.center + r < along θ p := by
  have hfin : {q | ∃ c ∈ s.circles, q = c.center}.Finite := by
    have : {q | ∃ c ∈ s.circles, q = c.center} = ((s.circles.map fun c => c.center).toFinset : Set ℂ) := by
      ext q; simp [eq_comm]
    rw [this]; exact Finset.finite_toSet _
  have hH : IsCompact (convexHull ℝ {q | ∃ c ∈ s.circles, q = c.center}) := hfin.isCompact_convexHull ℝ
  have hK : Metric.cthickening r (convexHull ℝ {q | ∃ c ∈ s.circles, q = c.center}) ⊆ region s := by
    rw [hH.cthickening_eq_biUnion_closedBall hr]
    intro x hx
    simp only [Set.mem_iUnion, Metric.mem_closedBall, exists_prop] at hx
    obtain ⟨q, hq, hd⟩ := hx
    have hsub : convexHull ℝ {q | ∃ c ∈ s.circles, q = c.center} ⊆ (fun z => (x - q) + z) ⁻¹' region s := by
      refine convexHull_min ?_ (Convex.translate_preimage_right (convex_convexHull ℝ _) _)
      rintro _ ⟨c, hc, rfl⟩
      refine disc_region hc ?_
      unfold InDisc
      rw [add_sub_cancel_right, hs c hc, ← dist_eq_norm]
      exact hd
    have := hsub hq
    rwa [Set.mem_preimage, sub_add_cancel] at this
  have hconv : Convex ℝ (Metric.cthickening r (convexHull ℝ {q | ∃ c ∈ s.circles, q = c.center})) :=
    (convex_convexHull ℝ _).cthickening r
  obtain ⟨f, u, f1, f2⟩ := geometric_hahn_banach_closed_point hconv Metric.isClosed_cthickening (fun h => hp (hK h))
  obtain ⟨M, θ, M0, hM⟩ := functional f
  have hin : ∀ c ∈ s.circles, c.center + Vec.fromDirectionAndMagnitude θ r ∈
      Metric.cthickening r (convexHull ℝ {q | ∃ c ∈ s.circles, q = c.center}) := by
    intro c hc
    rw [hH.cthickening_eq_biUnion_closedBall hr]
    simp only [Set.mem_iUnion, Metric.mem_closedBall, exists_prop]
    refine ⟨c.center, subset_convexHull ℝ _ ⟨c, hc, rfl⟩, ?_⟩
    rw [dist_eq_norm, add_sub_cancel_left, norm_from, abs_of_nonneg hr]
  have hlt : ∀ c ∈ s.circles, M * (along θ c.center + r) < M * along θ p := by
    intro c hc
    have h1 := f1 _ (hin c hc)
    rw [hM] at h1
    rw [hM] at f2
    have h2 := along_getPoint ⟨c.center, r⟩ θ
    unfold Circle.getPoint at h2
    dsimp only at h2
    rw [h2] at h1
    linarith
  refine ⟨θ, fun c hc => lt_of_mul_lt_mul_left (hlt c hc) M0⟩

theorem region_subset_iff {s o : TipShape} {r : ℝ} (hr : 0 ≤ r) (hs : ∀ c ∈ s.circles, c.radius = r)
    (ho : ∀ c ∈ o.circles, 0 ≤ c.radius) :
    region o ⊆ region s ↔ ¬∃ θ, ∃ t ∈ o.circles, ∀ c ∈ s.circles, along θ c.center + r < along θ t.center + t.radius := by
  constructor
  · rintro h ⟨θ, t, ht, hlt⟩
    have h1 := h (disc_region ht (getPoint_in (ho t ht) θ))
    have h2 : region s ⊆ {p | along θ p < along θ t.center + t.radius} := by
      refine convexHull_min ?_ (convex_along _ _)
      rintro p ⟨c, hc, hp⟩
      have := along_disc θ hp
      rw [hs c hc] at this
      exact lt_of_le_of_lt this (hlt c hc)
    have := h2 h1
    rw [Set.mem_ofPred_eq, along_getPoint] at this
    exact lt_irrefl _ this
  · intro h p hp
    by_contra hn
    obtain ⟨θ, hθ⟩ := region_separated hr hs hn
    have h2 : region o ⊆ {q | along θ q < along θ p} := by
      refine convexHull_min ?_ (convex_along _ _)
      rintro q ⟨t, ht, hq⟩
      have h3 : ¬∀ c ∈ s.circles, along θ c.center + r < along θ t.center + t.radius := fun hall => h ⟨θ, t, ht, hall⟩
      push Not at h3
      obtain ⟨c, hc, h3⟩ := h3
      have := along_disc θ hq
      have := hθ c hc
      show along θ q < along θ p
      linarith
    have h4 : along θ p < along θ p := h2 hp
    exact lt_irrefl _ h4

/-! ## Bounds -/

theorem boundsLoop_spec (cs : List Circle) : ∀ b : RealRect,
    (b.xMax ≤ (TipShape.boundsLoop b cs).xMax ∧ (∀ c ∈ cs, c.center.re + c.radius ≤ (TipShape.boundsLoop b cs).xMax) ∧
      ((TipShape.boundsLoop b cs).xMax = b.xMax ∨ ∃ c ∈ cs, (TipShape.boundsLoop b cs).xMax = c.center.re + c.radius)) ∧
    (b.yMax ≤ (TipShape.boundsLoop b cs).yMax ∧ (∀ c ∈ cs, c.center.im + c.radius ≤ (TipShape.boundsLoop b cs).yMax) ∧
      ((TipShape.boundsLoop b cs).yMax = b.yMax ∨ ∃ c ∈ cs, (TipShape.boundsLoop b cs).yMax = c.center.im + c.radius)) ∧
    ((TipShape.boundsLoop b cs).xMin ≤ b.xMin ∧ (∀ c ∈ cs, (TipShape.boundsLoop b cs).xMin ≤ c.center.re - c.radius) ∧
      ((TipShape.boundsLoop b cs).xMin = b.xMin ∨ ∃ c ∈ cs, (TipShape.boundsLoop b cs).xMin = c.center.re - c.radius)) ∧
    ((TipShape.boundsLoop b cs).yMin ≤ b.yMin ∧ (∀ c ∈ cs, (TipShape.boundsLoop b cs).yMin ≤ c.center.im - c.radius) ∧
      ((TipShape.boundsLoop b cs).yMin = b.yMin ∨ ∃ c ∈ cs, (TipShape.boundsLoop b cs).yMin = c.center.im - c.radius)) := by
  induction cs with
  | nil => intro b; simp [TipShape.boundsLoop]
  | cons c cs ih =>
    intro b
    have e : TipShape.boundsLoop b (c :: cs) =
        TipShape.boundsLoop (b.join (RealRect.fromCenterAndDimensions c.center (2 * c.radius) (2 * c.radius))) cs := rfl
    rw [e]
    obtain ⟨⟨a1, a2, a3⟩, ⟨b1, b2, b3⟩, ⟨c1, c2, c3⟩, ⟨d1, d2, d3⟩⟩ :=
      ih (b.join (RealRect.fromCenterAndDimensions c.center (2 * c.radius) (2 * c.radius)))
    have hd : 2 * c.radius / 2 = c.radius := by ring
    simp only [RealRect.join, RealRect.fromCenterAndDimensions, hd] at a1 a2 a3 b1 b2 b3 c1 c2 c3 d1 d2 d3 ⊢
    simp only [List.forall_mem_cons, List.exists_mem_cons_iff]
    refine ⟨⟨(le_max_left _ _).trans a1, ⟨(le_max_right _ _).trans a1, a2⟩, ?_⟩, ⟨(le_max_left _ _).trans b1, ⟨(le_max_right _ _).trans b1, b2⟩, ?_⟩,
      ⟨c1.trans (min_le_left _ _), ⟨c1.trans (min_le_right _ _), c2⟩, ?_⟩, ⟨d1.trans (min_le_left _ _), ⟨d1.trans (min_le_right _ _), d2⟩, ?_⟩⟩
    · rcases a3 with h | h
      · rcases max_choice b.xMax (c.center.re + c.radius) with g | g
        · left; rw [h, g]
        · right; left; rw [h, g]
      · right; right; exact h
    · rcases b3 with h | h
      · rcases max_choice b.yMax (c.center.im + c.radius) with g | g
        · left; rw [h, g]
        · right; left; rw [h, g]
      · right; right; exact h
    · rcases c3 with h | h
      · rcases min_choice b.xMin (c.center.re - c.radius) with g | g
        · left; rw [h, g]
        · right; left; rw [h, g]
      · right; right; exact h
    · rcases d3 with h | h
      · rcases min_choice b.yMin (c.center.im - c.radius) with g | g
        · left; rw [h, g]
        · right; left; rw [h, g]
      · right; right; exact h

/-- The sides of the bounds are the farthest of the sides of circles. -/
theorem bounds_spec {s : TipShape} (h : s.circles ≠ []) : ∃ b, s.bounds = some b ∧
    ((∀ c ∈ s.circles, c.center.re + c.radius ≤ b.xMax) ∧ ∃ c ∈ s.circles, b.xMax = c.center.re + c.radius) ∧
    ((∀ c ∈ s.circles, c.center.im + c.radius ≤ b.yMax) ∧ ∃ c ∈ s.circles, b.yMax = c.center.im + c.radius) ∧
    ((∀ c ∈ s.circles, b.xMin ≤ c.center.re - c.radius) ∧ ∃ c ∈ s.circles, b.xMin = c.center.re - c.radius) ∧
    ((∀ c ∈ s.circles, b.yMin ≤ c.center.im - c.radius) ∧ ∃ c ∈ s.circles, b.yMin = c.center.im - c.radius) := by
  unfold TipShape.bounds
  cases hc : s.circles with
  | nil => exact absurd hc h
  | cons c cs =>
    obtain ⟨⟨a1, a2, a3⟩, ⟨b1, b2, b3⟩, ⟨c1, c2, c3⟩, ⟨d1, d2, d3⟩⟩ :=
      boundsLoop_spec cs (RealRect.fromCenterAndDimensions c.center (2 * c.radius) (2 * c.radius))
    refine ⟨_, rfl, ?_⟩
    have hd : 2 * c.radius / 2 = c.radius := by ring
    simp only [RealRect.fromCenterAndDimensions, hd] at a1 a2 a3 b1 b2 b3 c1 c2 c3 d1 d2 d3 ⊢
    simp only [List.forall_mem_cons, List.exists_mem_cons_iff]
    exact ⟨⟨⟨a1, a2⟩, a3⟩, ⟨⟨b1, b2⟩, b3⟩, ⟨⟨c1, c2⟩, c3⟩, ⟨⟨d1, d2⟩, d3⟩⟩

theorem along_zero (p : ℂ) : along 0 p = p.re := by simp [along]
theorem along_pi (p : ℂ) : along π p = -p.re := by simp [along]
theorem along_half (p : ℂ) : along (π / 2) p = p.im := by simp [along]
theorem along_neg_half (p : ℂ) : along (-(π / 2)) p = -p.im := by simp [along]

theorem bounds_min {s : TipShape} (h : s.circles ≠ []) (hr : ∀ c ∈ s.circles, 0 ≤ c.radius) :
    ∃ b, s.bounds = some b ∧ MinRect b (region s) := by
  obtain ⟨b, hb, ⟨a1, c1, a2, a3⟩, ⟨b1, c2, b2, b3⟩, ⟨d1, c3, d2, d3⟩, ⟨e1, c4, e2, e3⟩⟩ := bounds_spec h
  refine ⟨b, hb, ?_, ?_⟩
  · intro p hp
    have side : ∀ θ k, (∀ c ∈ s.circles, along θ c.center + c.radius ≤ k) → along θ p ≤ k := by
      intro θ k hk
      have : region s ⊆ {q | along θ q ≤ k} := by
        refine convexHull_min ?_ (convex_along_le _ _)
        rintro q ⟨c, hc, hq⟩
        exact (along_disc θ hq).trans (hk c hc)
      exact this hp
    have s1 := side 0 b.xMax (by simpa only [along_zero] using a1)
    have s2 := side (π / 2) b.yMax (by simpa only [along_half] using b1)
    have s3 := side π (-b.xMin) (fun c hc => by rw [along_pi]; linarith [d1 c hc])
    have s4 := side (-(π / 2)) (-b.yMin) (fun c hc => by rw [along_neg_half]; linarith [e1 c hc])
    rw [along_zero] at s1
    rw [along_half] at s2
    rw [along_pi] at s3
    rw [along_neg_half] at s4
    exact ⟨by linarith, s1, by linarith, s2⟩
  · intro r' h'
    have pt : ∀ c ∈ s.circles, ∀ θ, InRect r' (c.getPoint θ) := fun c hc θ => h' _ (disc_region hc (getPoint_in (hr c hc) θ))
    have p1 := along_getPoint c1 0
    have p2 := along_getPoint c2 (π / 2)
    have p3 := along_getPoint c3 π
    have p4 := along_getPoint c4 (-(π / 2))
    rw [along_zero, along_zero] at p1
    rw [along_half, along_half] at p2
    rw [along_pi, along_pi] at p3
    rw [along_neg_half, along_neg_half] at p4
    obtain ⟨-, q1, -, -⟩ := pt c1 a2 0
    obtain ⟨-, -, -, q2⟩ := pt c2 b2 (π / 2)
    obtain ⟨q3, -, -, -⟩ := pt c3 d2 π
    obtain ⟨-, -, q4, -⟩ := pt c4 e2 (-(π / 2))
    exact ⟨by linarith, by linarith, by linarith, by linarith⟩

/-! ## `Contains` -/

theorem outsideLoop_iff (corner : Circle) (inc out : ℝ) (ts : List Circle) :
    TipShape.outsideLoop corner inc (if out < inc then out + 2 * π else out) ts = true ↔ ∃ t ∈ ts, Detects corner t inc out := by
  induction ts with
  | nil => simp [TipShape.outsideLoop]
  | cons t ts ih =>
    rw [List.exists_mem_cons_iff, ← ih]
    rw [TipShape.outsideLoop]
    unfold Detects
    by_cases h1 : corner.Contains t
    · rw [if_pos h1]; simp [h1]
    · rw [if_neg h1]
      by_cases h2 : t.Contains corner
      · rw [if_pos h2]; simp [h1, h2]
      · rw [if_neg h2]
        dsimp only
        by_cases h3 : (if corner.guaranteedRightTangentAngle t < inc then corner.guaranteedRightTangentAngle t + 2 * π
          else corner.guaranteedRightTangentAngle t) < if out < inc then out + 2 * π else out
        · rw [if_pos h3]; simp [h1, h2, h3]
        · rw [if_neg h3]; simp [h1, h2, h3]

theorem outside_iff (o : TipShape) (corner : Circle) (inc out : ℝ) :
    TipShape.shapeIsOutsideOfCorner o corner inc out = true ↔ ∃ t ∈ o.circles, Detects corner t inc out :=
  outsideLoop_iff corner inc out o.circles

open Classical in
theorem containsLoop_spec (s o : TipShape) (C N : ℕ → Circle) (inc : ℕ → ℝ) (k : ℕ) : ∀ i,
    (∀ j, i ≤ j → j < i + k → s.circles[j]? = some (C j) ∧ s.circles[s.nextCcw j]? = some (N j) ∧
      inc (j + 1) = (C j).guaranteedRightTangentAngle (N j)) →
    TipShape.containsLoop s o (inc i) i k =
      some (decide (∀ j, i ≤ j → j < i + k → ¬∃ t ∈ o.circles, Detects (C j) t (inc j) (inc (j + 1)))) := by
  induction k with
  | zero =>
    intro i _
    rw [TipShape.containsLoop, decide_eq_true]
    intro j h1 h2; omega
  | succ k ih =>
    intro i h
    obtain ⟨h1, h2, h3⟩ := h i (le_refl _) (by omega)
    rw [TipShape.containsLoop, h1, h2]
    dsimp only
    rw [← h3]
    by_cases hd : ∃ t ∈ o.circles, Detects (C i) t (inc i) (inc (i + 1))
    · rw [if_pos ((outside_iff o _ _ _).2 hd), decide_eq_false]
      intro hall
      exact hall i (le_refl _) (by omega) hd
    · rw [if_neg (fun h => hd ((outside_iff o _ _ _).1 h)), ih (i + 1) (fun j h1 h2 => h j (by omega) (by omega))]
      congr 1
      rw [decide_eq_decide]
      constructor
      · intro hall j h1 h2
        rcases Nat.eq_or_lt_of_le h1 with e | e
        · subst e; exact hd
        · exact hall j e (by omega)
      · intro hall j h1 h2
        exact hall j (by omega) (by omega)

/-- A shape with at least two corners. -/
def Polygonal (s : TipShape) (r : ℝ) : Prop :=
  ∃ (m : ℕ) (c : Fin (m + 2) → ℂ), s.circles = List.ofFn (fun i => (⟨c i, r⟩ : Circle)) ∧ Corners c (fun i => i - 1) fun i => i + 1

open Classical in
theorem contains_polygonal {s o : TipShape} {r : ℝ} (hr : 0 ≤ r) (hs : Polygonal s r) (ho : ∀ c ∈ o.circles, 0 ≤ c.radius)
    (hne : o.circles ≠ []) : s.contains o = some (decide (region o ⊆ region s)) := by
  obtain ⟨m, c, hc, hcor⟩ := hs
  have hlen : s.circles.length = m + 2 := by rw [hc, List.length_ofFn]
  have hsne : s.circles ≠ [] := by intro e; rw [e] at hlen; simp at hlen
  have hrad : ∀ d ∈ s.circles, d.radius = r := by
    intro d hd
    rw [hc, List.mem_ofFn] at hd
    obtain ⟨i, rfl⟩ := hd; rfl
  have hmem : ∀ i, (⟨c i, r⟩ : Circle) ∈ s.circles := by
    intro i; rw [hc, List.mem_ofFn]; exact ⟨i, rfl⟩
  obtain ⟨q, hq⟩ : ∃ q : ℕ → Fin (m + 2), q = Fin.ofNat (m + 2) := ⟨_, rfl⟩
  have hq1 : ∀ j, q (j + 1) = q j + 1 := by
    intro j; rw [hq]; ext; simp [Fin.val_add]
  have hqv : ∀ j (h : j < m + 2), q j = ⟨j, h⟩ := by
    intro j hj; rw [hq]; ext; simp [Nat.mod_eq_of_lt hj]
  have hqn : q (m + 2) = q 0 := by rw [hq]; ext; simp
  have hget : ∀ j (h : j < m + 2), s.circles[j]? = some ⟨c (q j), r⟩ := by
    intro j hj
    rw [hc, List.getElem?_ofFn, dif_pos hj, hqv j hj]
  obtain ⟨b, hb, hbm⟩ := bounds_min hsne (fun d hd => by rw [hrad d hd]; exact hr)
  obtain ⟨b', hb', hbm'⟩ := bounds_min hne ho
  unfold TipShape.contains
  rw [hb, hb']
  dsimp only
  by_cases hcon : b.Contains b'
  · rw [if_neg (not_not.2 hcon)]
    have hmatch : ∀ x : Circle, s.circles ≠ [x] := by
      intro x e; rw [e] at hlen; simp at hlen
    have e1 : s.nextCw 0 = m + 1 := by unfold TipShape.nextCw; rw [if_pos rfl, hlen]; rfl
    have last : s.circles[s.nextCw 0]? = some ⟨c (q 0 - 1), r⟩ := by
      have e2 : q 0 = q (m + 1) + 1 := by rw [← hq1]; exact hqn.symm
      rw [e1, hget _ (by omega), e2, add_sub_cancel_right]
    have first := hget 0 (by omega)
    split
    · rename_i x hx; exact absurd hx (hmatch x)
    rw [last, first, hlen]
    dsimp only
    rw [tangent_beta]
    rw [containsLoop_spec s o (fun j => ⟨c (q j), r⟩) (fun j => ⟨c (q j + 1), r⟩)
      (fun j => beta (c (q j) - c (q j - 1))) (m + 2) 0]
    · congr 1
      rw [decide_eq_decide, region_subset_iff hr hrad ho]
      constructor
      · rintro hall ⟨θ, t, ht, hout⟩
        obtain ⟨i, hi⟩ := hcor.complete (r := r) (t := t) (θ0 := θ) (by
          obtain ⟨b2, hb2, ⟨-, c1, k1, k2⟩, -⟩ := bounds_spec hsne
          obtain ⟨b3, hb3, ⟨k3, -⟩, -⟩ := bounds_spec hne
          rw [hb] at hb2; rw [hb'] at hb3
          obtain rfl := Option.some.inj hb2
          obtain rfl := Option.some.inj hb3
          have k4 := k1
          rw [hc, List.mem_ofFn] at k4
          obtain ⟨i, rfl⟩ := k4
          refine ⟨i, ?_⟩
          rw [along_zero, along_zero]
          have := hcon.2.1
          have := k3 t ht
          dsimp only at k2
          linarith) (fun j => hout _ (hmem j))
        refine hall i.val (Nat.zero_le _) (by omega) ⟨t, ht, ?_⟩
        have ei : q i.val = i := hqv _ i.isLt
        rw [hq1, ei, add_sub_cancel_right]
        exact hi
      · rintro hn j - hj ⟨t, ht, hd⟩
        rw [hq1, add_sub_cancel_right] at hd
        obtain ⟨θ, hθ⟩ := hcor.sound (q j) hd
        refine hn ⟨θ, t, ht, ?_⟩
        intro d hd
        rw [hc, List.mem_ofFn] at hd
        obtain ⟨i, rfl⟩ := hd
        exact hθ i
    · intro j _ hj
      refine ⟨hget j (by omega), ?_, ?_⟩
      · unfold TipShape.nextCcw
        rw [hlen]
        by_cases h : j + 1 ≥ m + 2
        · rw [if_pos h, hget 0 (by omega)]
          rw [← hq1, show j + 1 = m + 2 by omega, hqn]
        · rw [if_neg h, hget _ (by omega), hq1]
      · rw [tangent_beta, hq1, add_sub_cancel_right]
  · rw [if_pos hcon, decide_eq_false]
    intro hsub
    have := hbm'.2 b fun p hp => hbm.1 p (hsub hp)
    exact hcon ⟨this.1, this.2.1, this.2.2.1, this.2.2.2⟩

open Classical in
theorem contains_single {s o : TipShape} {d : Circle} (hd : 0 ≤ d.radius) (hs : s.circles = [d]) (ho : ∀ c ∈ o.circles, 0 ≤ c.radius)
    (hne : o.circles ≠ []) : s.contains o = some (decide (region o ⊆ region s)) := by
  have hsne : s.circles ≠ [] := by rw [hs]; simp
  obtain ⟨b, hb, hbm⟩ := bounds_min hsne (fun c hc => by rw [hs, List.mem_singleton] at hc; rw [hc]; exact hd)
  obtain ⟨b', hb', hbm'⟩ := bounds_min hne ho
  have hreg : region s = {p | InDisc d p} := by
    have e : {p | ∃ c ∈ s.circles, InDisc c p} = {p | InDisc d p} := by
      ext p; rw [hs]; simp
    have e' : {p | InDisc d p} = Metric.closedBall d.center d.radius := by
      ext p; rw [Metric.mem_closedBall, dist_eq_norm]; rfl
    unfold region
    rw [e, e']
    exact (convex_closedBall _ _).convexHull_eq
  unfold TipShape.contains
  rw [hb, hb', hs]
  dsimp only
  by_cases hcon : b.Contains b'
  · rw [if_neg (not_not.2 hcon)]
    congr 1
    rw [Bool.eq_iff_iff, List.all_eq_true, decide_eq_true_iff, hreg]
    constructor
    · intro hall
      have hc : Convex ℝ {p | InDisc d p} := by rw [← hreg]; exact convex_convexHull ℝ _
      refine convexHull_min ?_ hc
      rintro p ⟨c, hc, hp⟩
      exact (contains_iff (ho c hc)).1 (decide_eq_true_iff.1 (hall c hc)) p hp
    · intro hsub c hc
      rw [decide_eq_true_iff, contains_iff (ho c hc)]
      intro p hp
      exact hsub (disc_region hc hp)
  · rw [if_pos hcon, decide_eq_false]
    intro hsub
    have := hbm'.2 b fun p hp => hbm.1 p (hsub hp)
    exact hcon ⟨this.1, this.2.1, this.2.2.1, this.2.2.2⟩

/-! ## The constructor -/

theorem floatMin_pos : 0 < TipShape.floatMin := by unfold TipShape.floatMin; positivity

theorem sep_pos (m : ℝ) : 0 < max m TipShape.floatMin := lt_of_lt_of_le floatMin_pos (le_max_right _ _)

/-- The circles of a valid tip. -/
theorem make_cases {s : TipState} (h : ValidTip s) (m : ℝ) : ∃ t r x y, TipShape.make s m = some t ∧ t.center = s.position ∧
    r = TipShape.calculateCircleRadius s.percentRadius (1 / 2 * s.width) (1 / 2 * s.height) (max m TipShape.floatMin) ∧
    0 ≤ r ∧ (r = 0 ∨ max m TipShape.floatMin ≤ r) ∧
    (x = 0 ∨ max m TipShape.floatMin ≤ 2 * x) ∧ (y = 0 ∨ max m TipShape.floatMin ≤ 2 * y) ∧
    2 * (x + r) ≤ s.width ∧ s.width - max m TipShape.floatMin < 2 * (x + r) ∧
    2 * (y + r) ≤ s.height ∧ s.height - max m TipShape.floatMin < 2 * (y + r) ∧
    ((t.circles = [⟨s.position, r⟩] ∧ x = 0 ∧ y = 0) ∨
     (t.circles = [TipShape.makeCircle s r x 0, TipShape.makeCircle s r (-x) 0] ∧ 0 < x ∧ y = 0) ∨
     (t.circles = [TipShape.makeCircle s r 0 y, TipShape.makeCircle s r 0 (-y)] ∧ x = 0 ∧ 0 < y) ∨
     (t.circles = [TipShape.makeCircle s r x y, TipShape.makeCircle s r (-x) y, TipShape.makeCircle s r 0 (-y)] ∧ 0 < x ∧ 0 < y) ∨
     ∃ x', t.circles = [TipShape.makeCircle s r x y, TipShape.makeCircle s r (-x) y, TipShape.makeCircle s r (-x') (-y),
        TipShape.makeCircle s r x' (-y)] ∧ 0 < x ∧ 0 < y ∧ x' ≤ x ∧ max m TipShape.floatMin ≤ 2 * x') := by
  obtain ⟨h1, h2, h3, h4, h5, h6⟩ := h
  have hM := sep_pos m
  unfold TipShape.make
  generalize max m TipShape.floatMin = M at *
  unfold TipShape.makeShapeControlCircles
  rw [if_pos ⟨h1, h2, h3, h4, h5, h6⟩]
  dsimp only
  have hr : ∃ r, r = TipShape.calculateCircleRadius s.percentRadius (1 / 2 * s.width) (1 / 2 * s.height) M ∧ 0 ≤ r ∧ (r = 0 ∨ M ≤ r) ∧
      r ≤ 1 / 2 * s.width ∧ r ≤ 1 / 2 * s.height := by
    refine ⟨_, rfl, ?_⟩
    unfold TipShape.calculateCircleRadius
    dsimp only
    have hmin : 0 ≤ min (1 / 2 * s.width) (1 / 2 * s.height) := le_min (by linarith) (by linarith)
    have hle : s.percentRadius * min (1 / 2 * s.width) (1 / 2 * s.height) ≤ min (1 / 2 * s.width) (1 / 2 * s.height) := by nlinarith
    split_ifs with hlt
    · exact ⟨le_refl _, Or.inl rfl, by linarith, by linarith⟩
    · exact ⟨mul_nonneg h3 hmin, Or.inr (not_lt.1 hlt), hle.trans (min_le_left _ _), hle.trans (min_le_right _ _)⟩
  obtain ⟨r, hr, r0, r1, r2, r3⟩ := hr
  rw [← hr]
  have hx : ∃ x, x = (if 2 * (1 / 2 * s.width - r) < M then 0 else 1 / 2 * s.width - r) ∧ (x = 0 ∨ M ≤ 2 * x) ∧ 2 * (x + r) ≤ s.width ∧
      s.width - M < 2 * (x + r) := by
    refine ⟨_, rfl, ?_⟩
    split_ifs with hlt
    · exact ⟨Or.inl rfl, by linarith, by linarith⟩
    · exact ⟨Or.inr (not_lt.1 hlt), by linarith, by linarith⟩
  have hy : ∃ y, y = (if 2 * (1 / 2 * s.height - r) < M then 0 else 1 / 2 * s.height - r) ∧ (y = 0 ∨ M ≤ 2 * y) ∧ 2 * (y + r) ≤ s.height ∧
      s.height - M < 2 * (y + r) := by
    refine ⟨_, rfl, ?_⟩
    split_ifs with hlt
    · exact ⟨Or.inl rfl, by linarith, by linarith⟩
    · exact ⟨Or.inr (not_lt.1 hlt), by linarith, by linarith⟩
  obtain ⟨x, hx, x1, x2, x3⟩ := hx
  obtain ⟨y, hy, y1, y2, y3⟩ := hy
  rw [← hx, ← hy]
  by_cases hxy : x = 0 ∧ y = 0
  · rw [if_pos hxy]
    exact ⟨_, r, x, y, rfl, rfl, rfl, r0, r1, x1, y1, x2, x3, y2, y3, Or.inl ⟨rfl, hxy⟩⟩
  rw [if_neg hxy]
  by_cases hy0 : y = 0
  · rw [if_pos hy0]
    refine ⟨_, r, x, y, rfl, rfl, rfl, r0, r1, x1, y1, x2, x3, y2, y3, Or.inr (Or.inl ⟨rfl, ?_, hy0⟩)⟩
    rcases x1 with e | e
    · exact absurd ⟨e, hy0⟩ hxy
    · linarith
  rw [if_neg hy0]
  have y4 : 0 < y := by have := y1.resolve_left hy0; linarith
  by_cases hx0 : x = 0
  · rw [if_pos hx0]
    exact ⟨_, r, x, y, rfl, rfl, rfl, r0, r1, x1, y1, x2, x3, y2, y3, Or.inr (Or.inr (Or.inl ⟨rfl, hx0, y4⟩))⟩
  rw [if_neg hx0]
  have x4 : 0 < x := by have := x1.resolve_left hx0; linarith
  by_cases hp : 2 * ((1 - s.pinch) * x) < M
  · rw [if_pos hp]
    exact ⟨_, r, x, y, rfl, rfl, rfl, r0, r1, x1, y1, x2, x3, y2, y3, Or.inr (Or.inr (Or.inr (Or.inl ⟨rfl, x4, y4⟩)))⟩
  · rw [if_neg hp]
    exact ⟨_, r, x, y, rfl, rfl, rfl, r0, r1, x1, y1, x2, x3, y2, y3,
      Or.inr (Or.inr (Or.inr (Or.inr ⟨_, rfl, x4, y4, by nlinarith, not_lt.1 hp⟩)))⟩

theorem makeCircle_radius (s : TipState) (r x y : ℝ) : (TipShape.makeCircle s r x y).radius = r := rfl

/-- The circles are rotated and sheared. -/
theorem makeCircle_sub (s : TipState) (r x y x' y' : ℝ) :
    (TipShape.makeCircle s r x y).center - (TipShape.makeCircle s r x' y').center =
      TipShape.rotate s.rotation ⟨(x - x') - Real.sin s.slant * (y - y'), Real.cos s.slant * (y - y')⟩ := by
  unfold TipShape.makeCircle TipShape.rotate
  apply Complex.ext <;> simp <;> ring

theorem makeCircle_pos (s : TipState) (r x y : ℝ) : (TipShape.makeCircle s r x y).center - s.position =
      TipShape.rotate s.rotation ⟨x - Real.sin s.slant * y, Real.cos s.slant * y⟩ := by
  unfold TipShape.makeCircle TipShape.rotate
  apply Complex.ext <;> simp only [Complex.sub_re, Complex.add_re, Complex.sub_im, Complex.add_im] <;> ring

theorem det_rotate (a : ℝ) (u v : ℂ) : Vec.determinant (TipShape.rotate a u) (TipShape.rotate a v) = Vec.determinant u v := by
  unfold Vec.determinant TipShape.rotate
  have := Real.sin_sq_add_cos_sq a
  dsimp only
  linear_combination (u.re * v.im - u.im * v.re) * this

theorem det_makeCircle (s : TipState) (r x y x' y' x2 y2 x3 y3 : ℝ) :
    Vec.determinant ((TipShape.makeCircle s r x y).center - (TipShape.makeCircle s r x' y').center)
      ((TipShape.makeCircle s r x2 y2).center - (TipShape.makeCircle s r x3 y3).center) =
    Real.cos s.slant * ((x - x') * (y2 - y3) - (y - y') * (x2 - x3)) := by
  rw [makeCircle_sub, makeCircle_sub, det_rotate]
  unfold Vec.determinant
  dsimp only
  ring

theorem norm_rotate (a : ℝ) (u : ℂ) : ‖TipShape.rotate a u‖ = ‖u‖ := by
  rw [Complex.norm_def, Complex.norm_def, Complex.normSq_apply, Complex.normSq_apply]
  unfold TipShape.rotate
  congr 1
  have := Real.sin_sq_add_cos_sq a
  dsimp only
  linear_combination (u.re * u.re + u.im * u.im) * this

theorem cos_slant {s : TipState} (h : Slanted s) : 0 < Real.cos s.slant := by
  obtain ⟨h1, h2⟩ := abs_lt.1 h
  exact Real.cos_pos_of_mem_Ioo ⟨by linarith, h2⟩

/-! ### Corners of shapes -/

theorem corners2 {a b : ℂ} (h : a ≠ b) : Corners ![a, b] (fun i => i - 1) fun i => i + 1 := by
  refine ⟨?_, fun i => by rw [sub_add_cancel], ?_⟩
  · intro i j
    fin_cases i <;> fin_cases j <;> simp [Vec.determinant] <;> ring_nf <;> exact le_refl _
  · intro i
    right
    fin_cases i
    · refine ⟨by simp, by simpa [sub_eq_zero] using h, fun j => ?_⟩
      fin_cases j <;> simp
    · refine ⟨by simp, by simpa [sub_eq_zero] using h.symm, fun j => ?_⟩
      fin_cases j <;> simp

theorem corners3 {a b c : ℂ} (h : 0 < Vec.determinant (b - a) (c - a)) : Corners ![a, b, c] (fun i => i - 1) fun i => i + 1 := by
  have e0 : (0 : Fin 3) - 1 = 2 := rfl
  have e1 : (1 : Fin 3) + 1 = 2 := rfl
  have e2 : (2 : Fin 3) + 1 = 0 := rfl
  have e3 : (2 : Fin 3) - 1 = 1 := rfl
  unfold Vec.determinant at h
  simp only [Complex.sub_re, Complex.sub_im] at h
  refine ⟨?_, fun i => by rw [sub_add_cancel], ?_⟩
  · intro i j
    fin_cases i <;> fin_cases j <;> simp [Vec.determinant, e1, e2] <;> linarith
  · intro i
    left
    fin_cases i <;> simp [Vec.determinant, e0, e1, e2, e3] <;> linarith

theorem corners4 {a b c d : ℂ} (h1 : 0 < Vec.determinant (b - a) (c - a)) (h2 : 0 < Vec.determinant (b - a) (d - a))
    (h3 : 0 < Vec.determinant (c - b) (d - b)) (h4 : 0 < Vec.determinant (c - a) (d - a)) :
    Corners ![a, b, c, d] (fun i => i - 1) fun i => i + 1 := by
  have e0 : (0 : Fin 4) - 1 = 3 := rfl
  have e1 : (1 : Fin 4) + 1 = 2 := rfl
  have e2 : (2 : Fin 4) + 1 = 3 := rfl
  have e3 : (3 : Fin 4) + 1 = 0 := rfl
  have e4 : (2 : Fin 4) - 1 = 1 := rfl
  have e5 : (3 : Fin 4) - 1 = 2 := rfl
  unfold Vec.determinant at h1 h2 h3 h4
  simp only [Complex.sub_re, Complex.sub_im] at h1 h2 h3 h4
  refine ⟨?_, fun i => by rw [sub_add_cancel], ?_⟩
  · intro i j
    fin_cases i <;> fin_cases j <;> simp [Vec.determinant, e1, e2, e3] <;> linarith
  · intro i
    left
    fin_cases i <;> simp [Vec.determinant, e0, e1, e2, e3, e4, e5] <;> linarith

/-- A shape is a circle or has corners, if it is not slanted too far. -/
theorem make_polygonal {s : TipState} {t : TipShape} {m : ℝ} (h : ValidTip s) (hs : Slanted s) (ht : TipShape.make s m = some t) :
    ∃ r, 0 ≤ r ∧ (t.circles = [⟨s.position, r⟩] ∨ Polygonal t r) := by
  obtain ⟨t', r, x, y, h1, -, -, h2, -, x1, y1, -, -, -, -, hc⟩ := make_cases h m
  rw [ht] at h1
  obtain rfl := Option.some.inj h1
  have hcos := cos_slant hs
  have hM := sep_pos m
  refine ⟨r, h2, ?_⟩
  rcases hc with ⟨hc, -⟩ | ⟨hc, hx, -⟩ | ⟨hc, -, hy⟩ | ⟨hc, hx, hy⟩ | ⟨x', hc, hx, hy, hx', hm⟩
  · exact Or.inl hc
  · right
    refine ⟨0, ![(TipShape.makeCircle s r x 0).center, (TipShape.makeCircle s r (-x) 0).center],
      by rw [hc]; rfl, corners2 ?_⟩
    intro e
    have := makeCircle_sub s r x 0 (-x) 0
    rw [e, sub_self] at this
    have hn := congrArg norm this
    rw [norm_rotate, norm_zero, eq_comm, norm_eq_zero] at hn
    have := congrArg Complex.re hn
    simp only [Complex.zero_re] at this
    linarith
  · right
    refine ⟨0, ![(TipShape.makeCircle s r 0 y).center, (TipShape.makeCircle s r 0 (-y)).center],
      by rw [hc]; rfl, corners2 ?_⟩
    intro e
    have := makeCircle_sub s r 0 y 0 (-y)
    rw [e, sub_self] at this
    have hn := congrArg norm this
    rw [norm_rotate, norm_zero, eq_comm, norm_eq_zero] at hn
    have := congrArg Complex.im hn
    simp only [Complex.zero_im] at this
    have h4 : 0 < Real.cos s.slant * (y - -y) := mul_pos hcos (by linarith)
    linarith
  · right
    refine ⟨1, ![(TipShape.makeCircle s r x y).center, (TipShape.makeCircle s r (-x) y).center, (TipShape.makeCircle s r 0 (-y)).center],
      by rw [hc]; rfl, corners3 ?_⟩
    rw [det_makeCircle]
    refine mul_pos hcos ?_
    nlinarith [mul_pos hx hy]
  · right
    have h3 : 0 < x' := by linarith
    have p1 := mul_pos hx hy
    have p2 := mul_pos h3 hy
    refine ⟨2, ![(TipShape.makeCircle s r x y).center, (TipShape.makeCircle s r (-x) y).center, (TipShape.makeCircle s r (-x') (-y)).center, (TipShape.makeCircle s r x' (-y)).center],
      by rw [hc]; rfl, corners4 ?_ ?_ ?_ ?_⟩ <;> rw [det_makeCircle] <;> refine mul_pos hcos ?_ <;> nlinarith

theorem make_radius {s : TipState} {t : TipShape} {m : ℝ} (ht : TipShape.make s m = some t) :
    ValidTip s ∧ t.center = s.position ∧ t.circles ≠ [] ∧ t.circles.length ≤ 4 ∧ ∃ r, 0 ≤ r ∧ (r = 0 ∨ max m TipShape.floatMin ≤ r) ∧
      r = TipShape.calculateCircleRadius s.percentRadius (1 / 2 * s.width) (1 / 2 * s.height) (max m TipShape.floatMin) ∧
      ∀ c ∈ t.circles, c.radius = r := by
  have hv : ValidTip s := by
    unfold TipShape.make TipShape.makeShapeControlCircles at ht
    by_contra hn
    have hn' : ¬(s.width ≥ 0 ∧ s.height ≥ 0 ∧ s.percentRadius ≥ 0 ∧ s.percentRadius ≤ 1 ∧ s.pinch ≥ 0 ∧ s.pinch ≤ 1) := hn
    rw [if_neg hn'] at ht
    cases ht
  obtain ⟨t', r, x, y, h1, h2, h3, h4, h5, -, -, -, -, -, -, hc⟩ := make_cases hv m
  rw [ht] at h1
  obtain rfl := Option.some.inj h1
  refine ⟨hv, h2, ?_, ?_, r, h4, h5, h3, ?_⟩ <;>
    rcases hc with ⟨hc, -⟩ | ⟨hc, -⟩ | ⟨hc, -⟩ | ⟨hc, -⟩ | ⟨x', hc, -⟩ <;> rw [hc] <;> simp [makeCircle_radius]

end Verif.RealGeom
