import Verif.Spec.Antialias
import Verif.Lemmas.DerivativeLargest
import Mathlib.Analysis.SpecialFunctions.Integrals.Basic

/-!
# Lemmas on anti-aliasing
-/

set_option autoImplicit false

namespace Verif.Antialias

open Geo Spec

open Verif.Derivative (Vertex three)
open Verif.Derivative.Spec (marginIn)

theorem saturate_nonneg (x : ℝ) : 0 ≤ saturate x := le_max_left _ _
theorem saturate_le (x : ℝ) : saturate x ≤ 1 := max_le zero_le_one (min_le_left _ _)

theorem saturate_of {x : ℝ} (h0 : 0 ≤ x) (h1 : x ≤ 1) : saturate x = x := by
  unfold saturate
  rw [min_eq_right h1, max_eq_right h0]

theorem saturate_low {x : ℝ} (h : x ≤ 0) : saturate x = 0 := by
  unfold saturate
  exact max_eq_left ((min_le_right _ _).trans h)

theorem saturate_high {x : ℝ} (h : 1 ≤ x) : saturate x = 1 := by
  unfold saturate
  rw [min_eq_left h]
  exact max_eq_right zero_le_one

theorem saturate_ramp {w : ℝ} (hw : 0 < w) (d : ℝ) : saturate (d / w) = ramp w d := by
  unfold ramp
  split_ifs with h1 h2
  · exact saturate_low (div_nonpos_of_nonpos_of_nonneg h1 hw.le)
  · exact saturate_high ((one_le_div hw).2 h2)
  · push Not at h1 h2
    exact saturate_of (div_nonneg h1.le hw.le) ((div_le_one hw).2 h2.le)

theorem target_eq (w : ℝ) : target w = halfEdge w := by
  unfold target halfEdge mix
  split_ifs with h1 h2
  · rw [saturate_low (by norm_num at *; linarith)]; norm_num
  · rw [saturate_high (by norm_num at *; linarith)]; norm_num
  · push Not at h1 h2
    rw [saturate_of (by norm_num at *; linarith) (by norm_num at *; linarith)]
    ring

theorem halfEdge_bounds (w : ℝ) : 0.5 ≤ halfEdge w ∧ halfEdge w ≤ 0.707107 := by
  unfold halfEdge
  split_ifs with h1 h2
  · norm_num
  · norm_num
  · push Not at h1 h2
    constructor <;> nlinarith

theorem dot_self_nonneg (v : Pt ℝ) : 0 ≤ dot v v := by
  unfold dot
  nlinarith [mul_self_nonneg v.x, mul_self_nonneg v.y]

theorem dot_self_zero (v : Pt ℝ) : dot v v = 0 ↔ v = ⟨0, 0⟩ := by
  unfold dot
  constructor
  · intro h
    have h1 : v.x * v.x = 0 := by nlinarith [mul_self_nonneg v.x, mul_self_nonneg v.y]
    have h2 : v.y * v.y = 0 := by nlinarith [mul_self_nonneg v.x, mul_self_nonneg v.y]
    cases v
    simp only [Pt.mk.injEq]
    exact ⟨mul_self_eq_zero.1 h1, mul_self_eq_zero.1 h2⟩
  · rintro rfl
    norm_num

theorem pixels_nonneg (m : Mat2) (v : Pt ℝ) : 0 ≤ pixels m v := by
  unfold pixels
  refine div_nonneg (mul_nonneg (abs_nonneg _) (dot_self_nonneg v)) ?_
  exact le_trans (by norm_num) (le_max_left _ _)

theorem pixels_zero (m : Mat2) (v : Pt ℝ) : pixels m v = 0 ↔ m.det = 0 ∨ v = ⟨0, 0⟩ := by
  unfold pixels
  have hpos : max (0.000001 : ℝ) (len (m.mul (orthogonal v))) ≠ 0 := (lt_of_lt_of_le (by norm_num) (le_max_left _ _)).ne'
  rw [div_eq_zero_iff, or_iff_left hpos, mul_eq_zero, abs_eq_zero, dot_self_zero]

/-- The pixels are at most the distance from the line, and equal to it unless the canvas shrinks the line to a point. -/
theorem pixels_distance (m : Mat2) (v : Pt ℝ) :
    (∀ t, pixels m v ≤ Derivative.Spec.length (onCanvas m (across v t))) ∧
    (0.000001 ≤ Derivative.Spec.length (onCanvas m ⟨-v.y, v.x⟩) → ∃ t, pixels m v = Derivative.Spec.length (onCanvas m (across v t))) := by
  have e1 : len (m.mul (orthogonal v)) = Derivative.Spec.length (onCanvas m ⟨-v.y, v.x⟩) := rfl
  unfold pixels
  rw [e1]
  generalize hw : onCanvas m ⟨-v.y, v.x⟩ = w
  have hwx : w.x = m.m00 * -v.y + m.m10 * v.x := by rw [← hw]; rfl
  have hwy : w.y = m.m01 * -v.y + m.m11 * v.x := by rw [← hw]; rfl
  -- the area of the parallelogram does not depend on the point of the line
  have area : ∀ t, (onCanvas m (across v t)).x * w.y - (onCanvas m (across v t)).y * w.x = m.det * dot v v := by
    intro t
    rw [hwx, hwy]
    unfold onCanvas across Mat2.det dot
    ring
  have sq : ∀ u : Pt ℝ, Derivative.Spec.length u ^ 2 = u.x * u.x + u.y * u.y := fun u => by
    unfold Derivative.Spec.length
    exact Real.sq_sqrt (by nlinarith [mul_self_nonneg u.x, mul_self_nonneg u.y])
  have hn := Derivative.length_nonneg
  have habs : |m.det| * dot v v = |m.det * dot v v| := by rw [abs_mul, abs_of_nonneg (dot_self_nonneg v)]
  rw [habs]
  have hM : (0 : ℝ) < max 0.000001 (Derivative.Spec.length w) := lt_of_lt_of_le (by norm_num) (le_max_left _ _)
  constructor
  · intro t
    rw [div_le_iff₀ hM, ← area t]
    refine le_trans ?_ (mul_le_mul_of_nonneg_left (le_max_right _ _) (hn _))
    apply abs_le_of_sq_le_sq _ (mul_nonneg (hn _) (hn _))
    rw [mul_pow, sq, sq]
    generalize onCanvas m (across v t) = u
    nlinarith [mul_self_nonneg (u.x * w.x + u.y * w.y)]
  · intro hl
    rw [max_eq_right hl]
    have hpos : 0 < Derivative.Spec.length w := lt_of_lt_of_le (by norm_num) hl
    have hww : w.x * w.x + w.y * w.y ≠ 0 := by rw [← sq]; positivity
    refine ⟨-((onCanvas m (across v 0)).x * w.x + (onCanvas m (across v 0)).y * w.y) / (w.x * w.x + w.y * w.y), ?_⟩
    generalize ht : -((onCanvas m (across v 0)).x * w.x + (onCanvas m (across v 0)).y * w.y) / (w.x * w.x + w.y * w.y) = t
    have hx : (onCanvas m (across v t)).x = (onCanvas m (across v 0)).x + t * w.x := by rw [hwx]; unfold onCanvas across; ring
    have hy : (onCanvas m (across v t)).y = (onCanvas m (across v 0)).y + t * w.y := by rw [hwy]; unfold onCanvas across; ring
    have hperp : (onCanvas m (across v t)).x * w.x + (onCanvas m (across v t)).y * w.y = 0 := by
      rw [hx, hy]
      have : t * (w.x * w.x + w.y * w.y) = -((onCanvas m (across v 0)).x * w.x + (onCanvas m (across v 0)).y * w.y) := by
        rw [← ht, div_mul_cancel₀ _ hww]
      linarith
    rw [← area t, div_eq_iff hpos.ne']
    have : |(onCanvas m (across v t)).x * w.y - (onCanvas m (across v t)).y * w.x| ^ 2 = (Derivative.Spec.length (onCanvas m (across v t)) * Derivative.Spec.length w) ^ 2 := by
      rw [sq_abs, mul_pow, sq, sq]
      generalize onCanvas m (across v t) = u at hperp
      linear_combination (-(u.x * w.x + u.y * w.y)) * hperp
    exact (sq_eq_sq₀ (abs_nonneg _) (mul_nonneg (hn _) (hn _))).1 this

theorem sign_smul (label t : ℝ) (d : Pt ℝ) : Pt.smul (sign label * t) d = outward label t d := by
  unfold sign outward Pt.smul
  rcases three label with ⟨a, b, c⟩ | ⟨a, b, c⟩ | ⟨a, b, c⟩ <;> simp [a, b, c]

theorem decodeMargin_int {x : ℝ} (h : ∃ n : ℤ, x = (n : ℝ)) : decodeMargin x = marginIn x := by
  obtain ⟨n, rfl⟩ := h
  unfold decodeMargin marginIn
  split_ifs with hz
  · rw [hz]; norm_num
  · have : (1 : ℝ) ≤ |(n : ℝ)| := by
      have hn : n ≠ 0 := fun q => hz (by rw [q]; norm_num)
      have : 1 ≤ |n| := Int.one_le_abs hn
      rw [← Int.cast_abs]
      exact_mod_cast this
    rw [max_eq_left (by linarith)]
    ring

theorem decodeMargin_nonneg (x : ℝ) : 0 ≤ decodeMargin x := by
  unfold decodeMargin
  exact mul_nonneg (by norm_num) (le_max_right _ _)

theorem edges_int {x y : ℝ} (hx : ∃ n : ℤ, x = (n : ℝ)) (hy : ∃ n : ℤ, y = (n : ℝ)) :
    (⟨number (x > -0.005), number (x < 0.005), number (y > -0.005), number (y < 0.005)⟩ : Edges) = edgesOf x y := by
  have key : ∀ n : ℤ, number ((n : ℝ) > -0.005) = (if (n : ℝ) < 0 then 0 else 1) ∧ number ((n : ℝ) < 0.005) = if 0 < (n : ℝ) then 0 else 1 := by
    intro n
    unfold number
    rcases lt_trichotomy n 0 with h | h | h
    · have : (n : ℝ) ≤ -1 := by exact_mod_cast (show n ≤ -1 by omega)
      rw [if_neg (by norm_num; linarith), if_pos (by linarith), if_pos (by norm_num; linarith), if_neg (by linarith)]
      exact ⟨rfl, rfl⟩
    · subst h; norm_num
    · have : (1 : ℝ) ≤ n := by exact_mod_cast (show 1 ≤ n by omega)
      rw [if_pos (by norm_num; linarith), if_neg (by linarith), if_neg (by norm_num; linarith), if_pos (by linarith)]
      exact ⟨rfl, rfl⟩
  obtain ⟨n, rfl⟩ := hx
  obtain ⟨k, rfl⟩ := hy
  unfold edgesOf
  rw [(key n).1, (key n).2, (key k).1, (key k).2]

theorem coverageOf_range (τ w a b p q : ℝ) : 0 ≤ coverageOf τ w a b p q ∧ coverageOf τ w a b p q ≤ 1 := by
  unfold coverageOf mix step
  dsimp only
  generalize (w + min (p / max (1 - a) 0.000001) τ + min (q / max (1 - b) 0.000001) τ) = W
  have h1 := saturate_le (W * a / (2 * τ))
  have h2 := saturate_le (W * b / (2 * τ))
  split_ifs
  · constructor
    · have := le_max_right (saturate (W * a / (2 * τ)) + saturate (W * b / (2 * τ)) - 1) 0
      linarith
    · have := max_le (show saturate (W * a / (2 * τ)) + saturate (W * b / (2 * τ)) - 1 ≤ 1 by linarith) zero_le_one
      linarith
  · norm_num

theorem coverageOf_interior (τ w p q : ℝ) : coverageOf τ w 1 1 p q = 1 := by
  unfold coverageOf mix step
  dsimp only
  rw [if_neg (by norm_num)]
  ring

theorem coverageOf_left (τ w b p q : ℝ) (hb : b ≤ 1) : coverageOf τ w 0 b p q = 0 := by
  unfold coverageOf mix step
  dsimp only
  rw [if_pos (by norm_num; linarith), mul_zero, zero_div, saturate_low le_rfl, max_eq_right]
  · ring
  · have := saturate_le ((w + min (p / max (1 - 0) 0.000001) τ + min (q / max (1 - b) 0.000001) τ) * b / (2 * τ))
    linarith

theorem coverageOf_right (τ w a p q : ℝ) (ha : a ≤ 1) : coverageOf τ w a 0 p q = 0 := by
  unfold coverageOf mix step
  dsimp only
  rw [if_pos (by norm_num; linarith), mul_zero, zero_div, saturate_low (x := 0) le_rfl, max_eq_right]
  · ring
  · have := saturate_le ((w + min (p / max (1 - a) 0.000001) τ + min (q / max (1 - 0) 0.000001) τ) * a / (2 * τ))
    linarith

/-- The coverage across a stroke. -/
theorem coverage_across {width p q : ℝ} {a b : Varyings} (h : Across width p q a b) (hp : p ≤ halfEdge width)
    (hq : q ≤ halfEdge width) {x : ℝ} (h0 : 0.000001 ≤ x) (h1 : x ≤ 1 - 0.000001) :
    coverage (between x a b) =
      max (ramp (2 * halfEdge width) ((width + p + q) * x) + ramp (2 * halfEdge width) ((width + p + q) * (1 - x)) - 1) 0 := by
  obtain ⟨e1, e2, e3, e4, e5, e6, e7, e8⟩ := h
  have hτ := (halfEdge_bounds width).1
  have hside : (between x a b).side = width := by simp only [between, e1, e2]; ring
  have hl : (between x a b).toEdge.left = x := by simp only [between, Edges.between, e3, e4]; ring
  have hr : (between x a b).toEdge.right = 1 - x := by simp only [between, Edges.between, e3, e4]; ring
  have hf : (between x a b).toEdge.front = 1 := by simp only [between, Edges.between, e3, e4]; ring
  have hb : (between x a b).toEdge.back = 1 := by simp only [between, Edges.between, e3, e4]; ring
  have ol : (between x a b).outset.left = (1 - x) * p := by simp only [between, Edges.between, e5, e7]; ring
  have orr : (between x a b).outset.right = x * q := by simp only [between, Edges.between, e6, e8]; ring
  unfold coverage
  rw [hside, hl, hr, hf, hb, ol, orr, coverageOf_interior, mul_one, target_eq]
  generalize halfEdge width = τ at *
  unfold coverageOf mix step
  dsimp only
  have x1 : (0 : ℝ) < x := lt_of_lt_of_le (by norm_num) h0
  have x2 : (0 : ℝ) < 1 - x := by norm_num at h1 ⊢; linarith
  rw [max_eq_left (show (0.000001 : ℝ) ≤ 1 - x by linarith), mul_div_cancel_left₀ _ x2.ne',
    show (1 : ℝ) - (1 - x) = x by ring, max_eq_left h0, mul_div_cancel_left₀ _ x1.ne', min_eq_left hp, min_eq_left hq,
    saturate_ramp (by linarith), saturate_ramp (by linarith), if_pos (by norm_num)]
  ring

/-- The coverage in one dimension, at a place between two edges. -/
theorem coverageOf_between {τ width p q x : ℝ} (hτ : 0 < τ) (hp : p ≤ τ) (hq : q ≤ τ) (h0 : 0.000001 ≤ x) (h1 : x ≤ 1 - 0.000001) :
    coverageOf τ width x (1 - x) ((1 - x) * p) (x * q) =
      max (ramp (2 * τ) ((width + p + q) * x) + ramp (2 * τ) ((width + p + q) * (1 - x)) - 1) 0 := by
  unfold coverageOf mix step
  dsimp only
  have x1 : (0 : ℝ) < x := lt_of_lt_of_le (by norm_num) h0
  have x2 : (0 : ℝ) < 1 - x := by norm_num at h1 ⊢; linarith
  rw [max_eq_left (show (0.000001 : ℝ) ≤ 1 - x by linarith), mul_div_cancel_left₀ _ x2.ne',
    show (1 : ℝ) - (1 - x) = x by ring, max_eq_left h0, mul_div_cancel_left₀ _ x1.ne', min_eq_left hp, min_eq_left hq,
    saturate_ramp (by linarith), saturate_ramp (by linarith), if_pos (by norm_num)]
  ring

end Verif.Antialias
