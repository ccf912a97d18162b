import Verif.Lemmas.Antialias
import Mathlib.MeasureTheory.Integral.IntervalIntegral.Basic

/-!
# Lemmas on the ink across a stroke
-/

set_option autoImplicit false

namespace Verif.Antialias

open Geo Spec

theorem saturate_continuous : Continuous saturate := by
  unfold saturate
  fun_prop

theorem ramp_continuous {w : ℝ} (hw : 0 < w) : Continuous (ramp w) := by
  have : ramp w = fun d => saturate (d / w) := funext fun d => (saturate_ramp hw d).symm
  rw [this]
  exact saturate_continuous.comp (continuous_id.div_const w)

theorem ramp_integral {w W : ℝ} (hw : 0 < w) (h : w ≤ W) : ∫ d in (0 : ℝ)..W, ramp w d = W - w / 2 := by
  have hi : ∀ a b, IntervalIntegrable (ramp w) MeasureTheory.volume a b := fun a b => (ramp_continuous hw).intervalIntegrable a b
  rw [← intervalIntegral.integral_add_adjacent_intervals (hi 0 w) (hi w W)]
  have e1 : ∫ d in (0 : ℝ)..w, ramp w d = ∫ d in (0 : ℝ)..w, d / w := by
    apply intervalIntegral.integral_congr
    intro d hd
    rw [Set.uIcc_of_le hw.le] at hd
    dsimp only
    unfold ramp
    split_ifs with a b
    · rw [le_antisymm a hd.1, zero_div]
    · rw [le_antisymm hd.2 b, div_self hw.ne']
    · rfl
  have e2 : ∫ d in w..W, ramp w d = ∫ _ in w..W, (1 : ℝ) := by
    apply intervalIntegral.integral_congr
    intro d hd
    rw [Set.uIcc_of_le h] at hd
    dsimp only
    unfold ramp
    rw [if_neg (by linarith [hd.1]), if_pos hd.1]
  rw [e1, e2, intervalIntegral.integral_div, integral_id, intervalIntegral.integral_const]
  simp only [smul_eq_mul]
  field_simp
  ring

theorem ramp_bounds (w d : ℝ) (hw : 0 < w) : 0 ≤ ramp w d ∧ ramp w d ≤ 1 := by
  rw [← saturate_ramp hw]
  exact ⟨saturate_nonneg _, saturate_le _⟩

theorem ramp_le {w d : ℝ} (hw : 0 < w) (hd : 0 ≤ d) : ramp w d ≤ d / w := by
  unfold ramp
  split_ifs with a b
  · exact div_nonneg hd hw.le
  · exact (one_le_div hw).2 b
  · exact le_rfl

theorem ramp_sum {w W x : ℝ} (hw : 0 < w) (h : w ≤ W) (hx : 0 ≤ x) (hx1 : x ≤ 1) : 1 ≤ ramp w (W * x) + ramp w (W * (1 - x)) := by
  have hW : 0 < W := by linarith
  by_cases a : w ≤ W * x
  · have : ramp w (W * x) = 1 := by
      unfold ramp
      rw [if_neg (by linarith), if_pos a]
    have := (ramp_bounds w (W * (1 - x)) hw).1
    linarith
  by_cases b : w ≤ W * (1 - x)
  · have : ramp w (W * (1 - x)) = 1 := by
      unfold ramp
      rw [if_neg (by linarith), if_pos b]
    have := (ramp_bounds w (W * x) hw).1
    linarith
  have key : ∀ y, 0 ≤ y → ¬w ≤ W * y → ramp w (W * y) = W * y / w := fun y hy q => by
    unfold ramp
    split_ifs with r
    · have : W * y = 0 := le_antisymm r (mul_nonneg hW.le hy)
      rw [this, zero_div]
    · rfl
  rw [key x hx a, key (1 - x) (by linarith) b, ← add_div, show W * x + W * (1 - x) = W by ring]
  exact (one_le_div hw).2 h

/-- The ink of two ramps. -/
theorem profile_integral {w W : ℝ} (hw : 0 < w) (hW : 0 ≤ W) :
    (∫ x in (0 : ℝ)..1, max (ramp w (W * x) + ramp w (W * (1 - x)) - 1) 0) * W = max (W - w) 0 := by
  rcases lt_or_ge W w with h | h
  · have e : ∫ x in (0 : ℝ)..1, max (ramp w (W * x) + ramp w (W * (1 - x)) - 1) 0 = ∫ _ in (0 : ℝ)..1, (0 : ℝ) := by
      apply intervalIntegral.integral_congr
      intro x hx
      rw [Set.uIcc_of_le zero_le_one] at hx
      dsimp only
      apply max_eq_right
      have h1 := ramp_le hw (mul_nonneg hW hx.1)
      have h2 := ramp_le hw (mul_nonneg hW (show 0 ≤ 1 - x by linarith [hx.2]))
      have : W * x / w + W * (1 - x) / w = W / w := by ring
      have : W / w < 1 := (div_lt_one hw).2 h
      linarith
    rw [e, max_eq_right (by linarith)]
    simp
  · have hWpos : 0 < W := by linarith
    have e : ∫ x in (0 : ℝ)..1, max (ramp w (W * x) + ramp w (W * (1 - x)) - 1) 0 =
        ∫ x in (0 : ℝ)..1, (ramp w (W * x) + ramp w (W * (1 - x)) - 1) := by
      apply intervalIntegral.integral_congr
      intro x hx
      rw [Set.uIcc_of_le zero_le_one] at hx
      dsimp only
      apply max_eq_left
      linarith [ramp_sum hw h hx.1 hx.2]
    have hc := ramp_continuous hw
    have c1 : Continuous fun x : ℝ => ramp w (W * x) := hc.comp (by fun_prop)
    have c2 : Continuous fun x : ℝ => ramp w (W * (1 - x)) := hc.comp (by fun_prop)
    have i2 : ∫ x in (0 : ℝ)..1, ramp w (W * (1 - x)) = ∫ x in (0 : ℝ)..1, ramp w (W * x) := by
      have := intervalIntegral.integral_comp_sub_left (a := 0) (b := 1) (fun x => ramp w (W * x)) 1
      rw [this]
      norm_num
    have i1 : W * ∫ x in (0 : ℝ)..1, ramp w (W * x) = W - w / 2 := by
      have := intervalIntegral.mul_integral_comp_mul_left (a := 0) (b := 1) (f := ramp w) W
      rw [this, mul_zero, mul_one, ramp_integral hw h]
    have c3 : Continuous fun x : ℝ => ramp w (W * x) + ramp w (W * (1 - x)) := c1.add c2
    rw [e, intervalIntegral.integral_sub (c3.intervalIntegrable _ _) (continuous_const.intervalIntegrable _ _),
      intervalIntegral.integral_add (c1.intervalIntegrable _ _) (c2.intervalIntegrable _ _), i2, intervalIntegral.integral_const,
      max_eq_left (by linarith)]
    simp only [smul_eq_mul]
    linear_combination 2 * i1

/-- The coverage between two vertices on the edges is continuous. -/
theorem coverage_continuous {width p q : ℝ} {a b : Varyings} (h : Across width p q a b) : Continuous fun x => coverage (between x a b) := by
  obtain ⟨e1, e2, e3, e4, e5, e6, e7, e8⟩ := h
  have key : (fun x => coverage (between x a b)) = fun x =>
      max (saturate ((width + min ((1 - x) * p / max (1 - x) 0.000001) (target width) + min (x * q / max (1 - (1 - x)) 0.000001) (target width)) * x / (2 * target width)) +
        saturate ((width + min ((1 - x) * p / max (1 - x) 0.000001) (target width) + min (x * q / max (1 - (1 - x)) 0.000001) (target width)) * (1 - x) / (2 * target width)) - 1) 0 := by
    funext x
    have hside : (between x a b).side = width := by simp only [between, e1, e2]; ring
    have hl : (between x a b).toEdge.left = x := by simp only [between, Edges.between, e3, e4]; ring
    have hr : (between x a b).toEdge.right = 1 - x := by simp only [between, Edges.between, e3, e4]; ring
    have hf : (between x a b).toEdge.front = 1 := by simp only [between, Edges.between, e3, e4]; ring
    have hb : (between x a b).toEdge.back = 1 := by simp only [between, Edges.between, e3, e4]; ring
    have ol : (between x a b).outset.left = (1 - x) * p := by simp only [between, Edges.between, e5, e7]; ring
    have orr : (between x a b).outset.right = x * q := by simp only [between, Edges.between, e6, e8]; ring
    unfold coverage
    rw [hside, hl, hr, hf, hb, ol, orr, coverageOf_interior, mul_one]
    unfold coverageOf mix step
    dsimp only
    rw [if_pos (by norm_num)]
    ring
  rw [key]
  have n1 : ∀ x : ℝ, max (1 - x) 0.000001 ≠ 0 := fun x => (lt_of_lt_of_le (by norm_num) (le_max_right _ _)).ne'
  have n2 : ∀ x : ℝ, max (1 - (1 - x)) 0.000001 ≠ 0 := fun x => (lt_of_lt_of_le (by norm_num) (le_max_right _ _)).ne'
  have d1 : Continuous fun x : ℝ => (1 - x) * p / max (1 - x) 0.000001 := Continuous.div (by fun_prop) (by fun_prop) n1
  have d2 : Continuous fun x : ℝ => x * q / max (1 - (1 - x)) 0.000001 := Continuous.div (by fun_prop) (by fun_prop) n2
  have d3 : Continuous fun x : ℝ => width + min ((1 - x) * p / max (1 - x) 0.000001) (target width) + min (x * q / max (1 - (1 - x)) 0.000001) (target width) :=
    (continuous_const.add (d1.min continuous_const)).add (d2.min continuous_const)
  refine Continuous.max (Continuous.sub (Continuous.add (saturate_continuous.comp ?_) (saturate_continuous.comp ?_)) continuous_const) continuous_const
  · exact (d3.mul continuous_id).div_const _
  · exact (d3.mul (continuous_const.sub continuous_id)).div_const _

theorem coverage_range (v : Varyings) : 0 ≤ coverage v ∧ coverage v ≤ 1 := by
  unfold coverage
  obtain ⟨a, b⟩ := coverageOf_range (target v.side) v.side v.toEdge.left v.toEdge.right v.outset.left v.outset.right
  obtain ⟨c, d⟩ := coverageOf_range (target v.side) v.forward v.toEdge.front v.toEdge.back v.outset.front v.outset.back
  exact ⟨mul_nonneg a c, mul_le_one₀ b c d⟩

theorem small_ends {g : ℝ → ℝ} (hc : Continuous g) (hb : ∀ x, |g x| ≤ 1) (hz : ∀ x, 0.000001 ≤ x → x ≤ 1 - 0.000001 → g x = 0) :
    |∫ x in (0 : ℝ)..1, g x| ≤ 0.000002 := by
  have hi : ∀ a b, IntervalIntegrable g MeasureTheory.volume a b := fun a b => hc.intervalIntegrable a b
  rw [← intervalIntegral.integral_add_adjacent_intervals (hi 0 0.000001) (hi 0.000001 1),
    ← intervalIntegral.integral_add_adjacent_intervals (hi 0.000001 (1 - 0.000001)) (hi (1 - 0.000001) 1)]
  have e : ∫ x in (0.000001 : ℝ)..(1 - 0.000001), g x = ∫ _ in (0.000001 : ℝ)..(1 - 0.000001), (0 : ℝ) := by
    apply intervalIntegral.integral_congr
    intro x hx
    rw [Set.uIcc_of_le (by norm_num)] at hx
    exact hz x hx.1 hx.2
  have k1 := intervalIntegral.norm_integral_le_of_norm_le_const (a := 0) (b := 0.000001) (f := g) (C := 1) fun x _ => hb x
  have k2 := intervalIntegral.norm_integral_le_of_norm_le_const (a := 1 - 0.000001) (b := 1) (f := g) (C := 1) fun x _ => hb x
  rw [Real.norm_eq_abs] at k1 k2
  rw [e, intervalIntegral.integral_zero, zero_add]
  refine (abs_add_le _ _).trans ((add_le_add k1 k2).trans ?_)
  rw [abs_of_nonneg, abs_of_nonneg] <;> norm_num

/-- The ink across a stroke is its width, less what the outsets fall short of half of an edge. -/
theorem coverage_ink {width p q : ℝ} {a b : Varyings} (h : Across width p q a b) (hw : 0 ≤ width) (hp : 0 ≤ p) (hq : 0 ≤ q)
    (hp' : p ≤ halfEdge width) (hq' : q ≤ halfEdge width) :
    |(∫ x in (0 : ℝ)..1, coverage (between x a b)) * (width + p + q) - max (width - (halfEdge width - p) - (halfEdge width - q)) 0| ≤
      0.000002 * (width + p + q) := by
  have hτ : 0 < 2 * halfEdge width := by linarith [lt_of_lt_of_le (show (0 : ℝ) < 0.5 by norm_num) (halfEdge_bounds width).1]
  have hW : 0 ≤ width + p + q := by linarith
  rw [show width - (halfEdge width - p) - (halfEdge width - q) = width + p + q - 2 * halfEdge width by ring, ← profile_integral hτ hW, ← sub_mul]
  rw [abs_mul, abs_of_nonneg hW]
  refine mul_le_mul_of_nonneg_right ?_ hW
  have c := coverage_continuous h
  have hr := ramp_continuous hτ
  have c' : Continuous fun x => max (ramp (2 * halfEdge width) ((width + p + q) * x) + ramp (2 * halfEdge width) ((width + p + q) * (1 - x)) - 1) 0 :=
    Continuous.max (((hr.comp (by fun_prop)).add (hr.comp (by fun_prop))).sub continuous_const) continuous_const
  rw [← intervalIntegral.integral_sub (c.intervalIntegrable _ _) (c'.intervalIntegrable _ _)]
  refine small_ends (c.sub c') (fun x => ?_) fun x a b => sub_eq_zero.2 (coverage_across h hp' hq' a b)
  obtain ⟨r1, r2⟩ := coverage_range (between x a b)
  obtain ⟨-, s1⟩ := ramp_bounds _ ((width + p + q) * x) hτ
  obtain ⟨-, s2⟩ := ramp_bounds _ ((width + p + q) * (1 - x)) hτ
  have t1 := le_max_right (ramp (2 * halfEdge width) ((width + p + q) * x) + ramp (2 * halfEdge width) ((width + p + q) * (1 - x)) - 1) 0
  have t2 := max_le (show ramp (2 * halfEdge width) ((width + p + q) * x) + ramp (2 * halfEdge width) ((width + p + q) * (1 - x)) - 1 ≤ 1 by linarith) zero_le_one
  rw [abs_le]
  constructor <;> linarith

end Verif.Antialias
