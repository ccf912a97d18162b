import Verif.Spec.ColorSpace

/-!
# Lemmas on the gamma curve
-/

set_option autoImplicit false

namespace Verif.ColorCurve

open Spec

theorem C_pos : 0 < kSrgbC := by norm_num [kSrgbC]
theorem A_pos : 0 < kSrgbA := by norm_num [kSrgbA]
theorem B_pos : 0 < kSrgbB := by norm_num [kSrgbB]
theorem D_pos : 0 < kSrgbD := by norm_num [kSrgbD]
theorem G_pos : 0 < kSrgbG := by norm_num [kSrgbG]

/-- The power branch. -/
noncomputable def powDecode (x : ℝ) : ℝ := (kSrgbA * x + kSrgbB) ^ kSrgbG
noncomputable def powEncode (y : ℝ) : ℝ := (y ^ (1 / kSrgbG) - kSrgbB) / kSrgbA

theorem base_nonneg {x : ℝ} (hx : 0 ≤ x) : 0 ≤ kSrgbA * x + kSrgbB := add_nonneg (mul_nonneg A_pos.le hx) B_pos.le

theorem powEncode_decode {x : ℝ} (hx : 0 ≤ x) : powEncode (powDecode x) = x := by
  unfold powEncode powDecode
  rw [← Real.rpow_mul (base_nonneg hx), mul_one_div_cancel G_pos.ne', Real.rpow_one, add_sub_cancel_right, mul_div_cancel_left₀ _ A_pos.ne']

theorem powDecode_encode {y : ℝ} (hy : 0 ≤ y) : powDecode (powEncode y) = y := by
  unfold powEncode powDecode
  rw [mul_div_cancel₀ _ A_pos.ne', sub_add_cancel, ← Real.rpow_mul hy, one_div_mul_cancel G_pos.ne', Real.rpow_one]

theorem powDecode_lt {x y : ℝ} (hx : 0 ≤ x) (h : x < y) : powDecode x < powDecode y := by
  unfold powDecode
  refine Real.rpow_lt_rpow (base_nonneg hx) ?_ G_pos
  have := mul_lt_mul_of_pos_left h A_pos
  linarith

theorem powEncode_lt {x y : ℝ} (hx : 0 ≤ x) (h : x < y) : powEncode x < powEncode y := by
  unfold powEncode
  refine div_lt_div_of_pos_right ?_ A_pos
  have := Real.rpow_lt_rpow hx h (one_div_pos.2 G_pos)
  linarith

theorem powEncode_le {x y : ℝ} (hx : 0 ≤ x) (h : x ≤ y) : powEncode x ≤ powEncode y := by
  rcases h.eq_or_lt with rfl | h
  · exact le_rfl
  · exact (powEncode_lt hx h).le

/-- Comparing with the twelfth and the fifth power. -/
theorem lt_powDecode {x y : ℝ} (hx : 0 ≤ x) (h : y ^ 5 < (kSrgbA * x + kSrgbB) ^ 12) : y < powDecode x := by
  have e : powDecode x ^ 5 = (kSrgbA * x + kSrgbB) ^ 12 := by
    unfold powDecode
    rw [← Real.rpow_natCast, ← Real.rpow_mul (base_nonneg hx), ← Real.rpow_natCast]
    norm_num [kSrgbG]
  rw [← e] at h
  exact lt_of_pow_lt_pow_left₀ 5 (Real.rpow_nonneg (base_nonneg hx) _) h

theorem powDecode_lt_of {x y : ℝ} (hx : 0 ≤ x) (hy : 0 ≤ y) (h : (kSrgbA * x + kSrgbB) ^ 12 < y ^ 5) : powDecode x < y := by
  have e : powDecode x ^ 5 = (kSrgbA * x + kSrgbB) ^ 12 := by
    unfold powDecode
    rw [← Real.rpow_natCast, ← Real.rpow_mul (base_nonneg hx), ← Real.rpow_natCast]
    norm_num [kSrgbG]
  rw [← e] at h
  exact lt_of_pow_lt_pow_left₀ 5 hy h

/-- The jump of the curve. -/
theorem jump : kSrgbC * kSrgbD < powDecode kSrgbD := by
  apply lt_powDecode D_pos.le
  norm_num [kSrgbA, kSrgbB, kSrgbC, kSrgbD]

theorem jump_small : powDecode kSrgbD < kSrgbC * kSrgbD + 0.00000001 := by
  apply powDecode_lt_of D_pos.le (by have := mul_nonneg C_pos.le D_pos.le; linarith)
  norm_num [kSrgbA, kSrgbB, kSrgbC, kSrgbD]

theorem encode_low : kSrgbD - 0.0000001 < powEncode (kSrgbC * kSrgbD) := by
  have h0 : (0 : ℝ) ≤ kSrgbD - 0.0000001 := by norm_num [kSrgbD]
  have hy : 0 ≤ kSrgbC * kSrgbD := mul_nonneg C_pos.le D_pos.le
  rw [← powEncode_decode h0]
  apply powEncode_lt (Real.rpow_nonneg (base_nonneg h0) _)
  apply powDecode_lt_of h0 hy
  norm_num [kSrgbA, kSrgbB, kSrgbC, kSrgbD]

theorem encode_jump : powEncode (kSrgbC * kSrgbD) < kSrgbD := by
  have := powEncode_lt (mul_nonneg C_pos.le D_pos.le) jump
  rwa [powEncode_decode D_pos.le] at this

theorem encode_decode (x : ℝ) : gammaEncode (gammaDecode x) = x := by
  unfold gammaDecode
  split_ifs with h
  · unfold gammaEncode
    rw [if_pos (mul_lt_mul_of_pos_left h C_pos), mul_div_cancel_left₀ _ C_pos.ne']
  · push Not at h
    have hx := D_pos.le.trans h
    have hle : powDecode kSrgbD ≤ powDecode x := by
      rcases h.eq_or_lt with q | q
      · rw [q]
      · exact (powDecode_lt D_pos.le q).le
    change gammaEncode (powDecode x) = x
    unfold gammaEncode
    rw [if_neg (not_lt.2 (jump.le.trans hle))]
    exact powEncode_decode hx

theorem decode_strictMono : StrictMono gammaDecode := by
  intro x y h
  unfold gammaDecode
  by_cases h1 : x < kSrgbD
  · rw [if_pos h1]
    by_cases h2 : y < kSrgbD
    · rw [if_pos h2]
      exact mul_lt_mul_of_pos_left h C_pos
    · rw [if_neg h2]
      push Not at h2
      refine (mul_lt_mul_of_pos_left h1 C_pos).trans_le (jump.le.trans ?_)
      rcases h2.eq_or_lt with q | q
      · rw [q]; exact le_rfl
      · exact (powDecode_lt D_pos.le q).le
  · push Not at h1
    rw [if_neg (not_lt.2 h1), if_neg (not_lt.2 (h1.trans h.le))]
    exact powDecode_lt (D_pos.le.trans h1) h

/-- A relative error is not increased by much. -/
theorem powEncode_error {d δ : ℝ} (hd : 0 ≤ d) (h0 : 0 ≤ δ) :
    powEncode (d * (1 + δ)) ≤ powEncode d + 1.055 * d ^ (1 / kSrgbG) * δ := by
  unfold powEncode
  rw [Real.mul_rpow hd (by linarith)]
  have h1 : (1 + δ) ^ (1 / kSrgbG) ≤ 1 + δ := by
    calc (1 + δ) ^ (1 / kSrgbG) ≤ (1 + δ) ^ (1 : ℝ) := Real.rpow_le_rpow_of_exponent_le (by linarith) (by norm_num [kSrgbG])
      _ = 1 + δ := Real.rpow_one _
  have h2 := mul_le_mul_of_nonneg_left h1 (Real.rpow_nonneg hd (1 / kSrgbG))
  have e : ∀ z : ℝ, (z - kSrgbB) / kSrgbA = 1.055 * z - 0.055 := fun z => by unfold kSrgbA kSrgbB; ring
  rw [e, e]
  nlinarith

theorem root_le {d : ℝ} (h0 : 0 ≤ d) (h2 : d ≤ 2) : d ^ (1 / kSrgbG) ≤ 2 := by
  calc d ^ (1 / kSrgbG) ≤ 2 ^ (1 / kSrgbG) := Real.rpow_le_rpow h0 h2 (by norm_num [kSrgbG])
    _ ≤ 2 ^ (1 : ℝ) := Real.rpow_le_rpow_of_exponent_le (by norm_num) (by norm_num [kSrgbG])
    _ = 2 := Real.rpow_one 2

theorem powEncode_error' {d δ : ℝ} (hd : 0 ≤ d) (h2 : d ≤ 2) (h0 : 0 ≤ δ) : powEncode (d * (1 + δ)) ≤ powEncode d + 3 * δ := by
  refine (powEncode_error hd h0).trans ?_
  have := mul_le_mul_of_nonneg_right (root_le hd h2) h0
  nlinarith

theorem powDecode_one : powDecode 1 = 1 := by
  unfold powDecode
  rw [show kSrgbA * 1 + kSrgbB = 1 by norm_num [kSrgbA, kSrgbB], Real.one_rpow]

/-- A relative error before encoding. -/
theorem encode_near {x y ε : ℝ} (h0 : 0 ≤ x) (h1 : x ≤ 1) (e0 : 0 ≤ ε) (e1 : ε ≤ 1 / 100) (hy : |y - gammaDecode x| ≤ gammaDecode x * ε) :
    |gammaEncode y - x| ≤ 10 * ε + 0.0000001 := by
  obtain ⟨hy1, hy2⟩ := abs_le.1 hy
  have hCD : 0 < kSrgbC * kSrgbD := mul_pos C_pos D_pos
  have hCD1 : kSrgbC * kSrgbD ≤ 1 := by norm_num [kSrgbC, kSrgbD]
  have hD1 : kSrgbD ≤ 1 := by norm_num [kSrgbD]
  have hjump := encode_jump.le
  have hlow := encode_low
  by_cases hx : x < kSrgbD
  · have hd : gammaDecode x = kSrgbC * x := if_pos hx
    rw [hd] at hy1 hy2
    by_cases hc : y < kSrgbC * kSrgbD
    · have : gammaEncode y = y / kSrgbC := if_pos hc
      rw [this]
      have u : y / kSrgbC ≤ x * (1 + ε) := by rw [div_le_iff₀ C_pos]; nlinarith
      have l : x * (1 - ε) ≤ y / kSrgbC := by rw [le_div_iff₀ C_pos]; nlinarith
      rw [abs_le]
      constructor <;> nlinarith
    · have : gammaEncode y = powEncode y := if_neg hc
      rw [this]
      push Not at hc
      have hxD : kSrgbD ≤ x * (1 + ε) := by
        have : kSrgbC * kSrgbD ≤ kSrgbC * (x * (1 + ε)) := by nlinarith
        exact le_of_mul_le_mul_left this C_pos
      have up : powEncode y ≤ kSrgbD + 3 * ε := by
        have hle : y ≤ kSrgbC * kSrgbD * (1 + ε) := by
          have : kSrgbC * x ≤ kSrgbC * kSrgbD := mul_le_mul_of_nonneg_left hx.le C_pos.le
          nlinarith
        have := powEncode_le (hCD.le.trans hc) hle
        have := powEncode_error' hCD.le (by linarith) e0
        linarith
      have lo := powEncode_le hCD.le hc
      rw [abs_le]
      constructor <;> nlinarith
  · have hd : gammaDecode x = powDecode x := if_neg hx
    rw [hd] at hy1 hy2
    push Not at hx
    have d1 : powDecode x ≤ 1 := by
      rcases h1.eq_or_lt with q | q
      · rw [q, powDecode_one]
      · rw [← powDecode_one]
        exact (powDecode_lt h0 q).le
    have dD : kSrgbC * kSrgbD ≤ powDecode x := by
      refine jump.le.trans ?_
      rcases hx.eq_or_lt with q | q
      · rw [q]
      · exact (powDecode_lt D_pos.le q).le
    have dpos : 0 < powDecode x := hCD.trans_le dD
    have ypos : 0 ≤ y := by nlinarith
    have y2 : y ≤ 2 := by nlinarith
    have hdy : powDecode x ≤ y * (1 + 2 * ε) := by nlinarith [mul_nonneg dpos.le e0, mul_nonneg ypos e0]
    have ex := powEncode_decode h0
    by_cases hc : y < kSrgbC * kSrgbD
    · have : gammaEncode y = y / kSrgbC := if_pos hc
      rw [this]
      have u : y / kSrgbC ≤ kSrgbD := by rw [div_le_iff₀ C_pos]; nlinarith
      have l : kSrgbD * (1 - ε) ≤ y / kSrgbC := by rw [le_div_iff₀ C_pos]; nlinarith
      have hxu : x ≤ kSrgbD + 6 * ε := by
        have k1 : powDecode x ≤ kSrgbC * kSrgbD * (1 + 2 * ε) := by nlinarith
        have k2 := powEncode_le dpos.le k1
        have k3 := powEncode_error' hCD.le (by linarith) (show 0 ≤ 2 * ε by linarith)
        linarith
      rw [abs_le]
      constructor <;> nlinarith
    · have : gammaEncode y = powEncode y := if_neg hc
      rw [this]
      have k1 := powEncode_le ypos (show y ≤ powDecode x * (1 + ε) by linarith)
      have k2 := powEncode_error' dpos.le (by linarith) e0
      have k3 := powEncode_le dpos.le hdy
      have k4 := powEncode_error' ypos y2 (show 0 ≤ 2 * ε by linarith)
      rw [abs_le]
      constructor <;> linarith

end Verif.ColorCurve
