import Verif.Lemmas.Interpolation
import Verif.Lemmas.Shader

/-!
# C80: interpolation
-/

set_option autoImplicit false
set_option exponentiation.threshold 400

namespace Verif

open F32 Spec Interp

/-! ## Positions between two numbers -/

/-- C80: the position of a number between two others is from 0 to 1, in either order of the two; it is 0 at the first of them and 1 at the second,
and, if the first is less than the second, a greater number does not have a lesser position. -/
theorem C80_inverse (a b v : F32) (ha : Moderate a) (hb : Moderate b) (hv : Moderate v) :
    (BetweenQ (toRat a) (toRat b) (toRat v) → UnitInterval (inverseLerpF a b v)) ∧
    (toRat v = toRat a → toRat (inverseLerpF a b v) = 0) ∧
    (toRat v = toRat b → toRat a ≠ toRat b → toRat (inverseLerpF a b v) = 1) ∧
    (∀ w, Moderate w → toRat a < toRat b → toRat v ≤ toRat w → le (inverseLerpF a b v) (inverseLerpF a b w) = true) := by
  refine ⟨inverse_unit ha hb hv, ?_, ?_, ?_⟩
  · intro h
    by_cases hab : toRat a = toRat b
    · unfold inverseLerpF
      rw [if_pos ((feq_sub_zero ha.1 hb.1 (sub_lt ha hb)).2 hab), toRat_zero]
    · have z : rnd (toRat v - toRat a) / rnd (toRat b - toRat a) = 0 := by rw [h, sub_self, rnd_zero, zero_div]
      rw [(inverse_value ha hb hv hab (by rw [z]; exact small_unit le_rfl zero_le_one)).2, z, rnd_zero]
  · intro h hab
    have o : rnd (toRat v - toRat a) / rnd (toRat b - toRat a) = 1 := by rw [h, div_self (rnd_sub_ne hab)]
    rw [(inverse_value ha hb hv hab (by rw [o]; exact small_unit zero_le_one le_rfl)).2, o, ← toRat_one', rnd_toRat]
  · intro w hw hab hvw
    have ho := sub_lt ha hb
    have hz : ¬ feq (sub b a) zero = true := by rw [feq_sub_zero ha.1 hb.1 ho]; exact hab.ne
    unfold inverseLerpF
    rw [if_neg hz, if_neg hz]
    refine div_le_div_right (isFinite_sub hb.1 ha.1 ho) ?_ (sub_le_sub_right hv.1 hw.1 ha.1 ((le_iff hv.1 hw.1).2 hvw))
    rw [toRat_sub hb.1 ha.1 ho]
    exact rnd_sub_pos hab

/-- C80: between two equal finite numbers the position of everything, even of NaN, is 0. -/
theorem C80_inverse_equal (a b v : F32) (ha : a.isFinite = true) (hb : b.isFinite = true) (h : toRat a = toRat b) :
    inverseLerpF a b v = zero := by
  unfold inverseLerpF
  have ov : (0 : ℚ) < ovf := by have := ovf_big; have : (0 : ℚ) < 2 ^ 127 := by norm_num
                                linarith
  rw [if_pos ((feq_sub_zero ha hb (by rw [h, sub_self, abs_zero]; exact ov)).2 h)]

/-- C80: of two finite numbers whose difference overflows, the second does not have the position 1 but NaN; and between two equal infinities
the position is not 0 but NaN. -/
theorem C80_inverse_counterexample :
    inverseLerpF (ofBits 0xff7fffff) (ofBits 0x7f7fffff) (ofBits 0x7f7fffff) = nan ∧
    inverseLerpF (inf false) (inf false) (ofBits 0x3f800000) = nan := by
  decide +kernel

example : Moderate (ofBits 0xc2140000) ∧ Moderate (ofBits 0x4b7fffde) := by
  refine ⟨⟨by decide, ?_⟩, ⟨by decide, ?_⟩⟩ <;> decide +kernel

/-! ## Interpolation of numbers -/

/-- C80: interpolation of numbers with a parameter from 0 to 1 is `a + t·(b-a)` up to rounding; it is `a` for the parameter 0, and for every finite
parameter if both numbers are equal; with a greater parameter it moves from `a` towards `b`, not back. -/
theorem C80_lerp (a b t : F32) (ha : Moderate a) (hb : Moderate b) :
    (UnitInterval t → Interpolates a b t (lerpF a b t)) ∧
    (t.isFinite = true → toRat t = 0 ∨ toRat a = toRat b → SameValue (lerpF a b t) a) ∧
    (∀ t', t.isFinite = true → t'.isFinite = true → toRat t ≤ toRat t' →
      (toRat a ≤ toRat b → le (lerpF a b t) (lerpF a b t') = true) ∧
      (toRat b ≤ toRat a → le (lerpF a b t') (lerpF a b t) = true)) :=
  ⟨lerp_interpolates ha hb, fun ht h => lerp_start ha hb ht h, fun _ ht ht' h => lerp_mono ha hb ht ht' h⟩

/-- C80: interpolation with a parameter from 0 to 1 stays between the first number and the value for the parameter 1. -/
theorem C80_lerp_between (a b t : F32) (ha : Moderate a) (hb : Moderate b) (ht : UnitInterval t) :
    BetweenQ (toRat a) (toRat (lerpF a b VecF.one)) (toRat (lerpF a b t)) := by
  have ft := (lerp_interpolates ha hb ht).1
  have u1 : UnitInterval VecF.one := ⟨one_finite, by rw [toRat_one']; norm_num, by rw [toRat_one']⟩
  have u0 : UnitInterval zero := ⟨isFinite_zero, by rw [toRat_zero], by rw [toRat_zero]; norm_num⟩
  have f1 := (lerp_interpolates ha hb u1).1
  have f0 := lerp_start ha hb isFinite_zero (Or.inl toRat_zero)
  have m0 := lerp_mono ha hb isFinite_zero ht.1 (by rw [toRat_zero]; exact ht.2.1)
  have m1 := lerp_mono ha hb ht.1 one_finite (by rw [toRat_one']; exact ht.2.2)
  rcases le_total (toRat a) (toRat b) with h | h
  · have h0 := (le_iff f0.1 ft).1 (m0.1 h)
    have h1 := (le_iff ft f1).1 (m1.1 h)
    rw [f0.2] at h0
    exact Or.inl ⟨h0, h1⟩
  · have h0 := (le_iff ft f0.1).1 (m0.2 h)
    have h1 := (le_iff f1 ft).1 (m1.2 h)
    rw [f0.2] at h0
    exact Or.inr ⟨h1, h0⟩

/-- C80: interpolation with the parameter 1 is not the second number, and can even be beyond it: from 2^25 to 1 it is 0, and from -37 to
16777182 it is 16777183. With an infinite parameter the interpolation between equal numbers is NaN. -/
theorem C80_lerp_counterexample :
    lerpF (ofBits 0x4c000000) VecF.one VecF.one = zero ∧
    lerpF (ofBits 0xc2140000) (ofBits 0x4b7fffde) VecF.one = ofBits 0x4b7fffdf ∧
    lerpF VecF.one VecF.one (inf false) = nan := by
  decide +kernel

/-- C80: vectors are interpolated by components: with a parameter from 0 to 1 both components are `a + t·(b-a)` up to rounding, with the
parameter 0 the vector is the first one. -/
theorem C80_lerp_vec (a b : F32 × F32) (t : F32) (ha : Moderate a.1 ∧ Moderate a.2) (hb : Moderate b.1 ∧ Moderate b.2) (ht : UnitInterval t) :
    Interpolates a.1 b.1 t (lerpVec a b t).1 ∧ Interpolates a.2 b.2 t (lerpVec a b t).2 ∧
    (toRat t = 0 → SameValue (lerpVec a b t).1 a.1 ∧ SameValue (lerpVec a b t).2 a.2) :=
  ⟨lerp_interpolates ha.1 hb.1 ht, lerp_interpolates ha.2 hb.2 ht,
    fun h => ⟨lerp_start ha.1 hb.1 ht.1 (Or.inl h), lerp_start ha.2 hb.2 ht.1 (Or.inl h)⟩⟩

/-! ## Maps of ranges -/

/-- C80: a map of one range to another sends the first end of the first range to the first end of the second, and the second end to the second one
up to rounding; a number of the first range goes to a number that is in the second range up to rounding; and if both ranges are increasing,
the map keeps the order. -/
theorem C80_map_partial (v : F32) (input output : F32 × F32) (hv : Moderate v) (hi : Moderate input.1 ∧ Moderate input.2)
    (ho : Moderate output.1 ∧ Moderate output.2) :
    (toRat v = toRat input.1 → SameValue (linearMap v input output) output.1) ∧
    (toRat v = toRat input.2 → toRat input.1 ≠ toRat input.2 → (linearMap v input output).isFinite = true ∧
      |toRat (linearMap v input output) - toRat output.2| ≤ (|toRat output.1| + |toRat output.2|) / 2 ^ 22 + 1 / 2 ^ 148) ∧
    (BetweenQ (toRat input.1) (toRat input.2) (toRat v) → (linearMap v input output).isFinite = true ∧
      ∃ x, BetweenQ (toRat output.1) (toRat output.2) x ∧
        |toRat (linearMap v input output) - x| ≤ (|toRat output.1| + |toRat output.2|) / 2 ^ 22 + 1 / 2 ^ 148) ∧
    (∀ w, Moderate w → BetweenQ (toRat input.1) (toRat input.2) (toRat v) → BetweenQ (toRat input.1) (toRat input.2) (toRat w) →
      toRat input.1 < toRat input.2 → toRat output.1 ≤ toRat output.2 → toRat v ≤ toRat w →
      le (linearMap v input output) (linearMap w input output) = true) := by
  have inv := C80_inverse input.1 input.2 v hi.1 hi.2 hv
  have bet : ∀ t, UnitInterval t → BetweenQ (toRat output.1) (toRat output.2) (toRat output.1 + toRat t * (toRat output.2 - toRat output.1)) := by
    intro t ht
    obtain ⟨-, h0, h1⟩ := ht
    rcases le_total (toRat output.1) (toRat output.2) with h | h
    · exact Or.inl ⟨by nlinarith, by nlinarith⟩
    · exact Or.inr ⟨by nlinarith, by nlinarith⟩
  refine ⟨?_, ?_, ?_, ?_⟩
  · intro h
    have u : UnitInterval (inverseLerpF input.1 input.2 v) := inv.1 (by
      rw [h]
      rcases le_total (toRat input.1) (toRat input.2) with h | h
      · exact Or.inl ⟨le_rfl, h⟩
      · exact Or.inr ⟨h, le_rfl⟩)
    exact lerp_start ho.1 ho.2 u.1 (Or.inl (inv.2.1 h))
  · intro h hne
    have u : UnitInterval (inverseLerpF input.1 input.2 v) := inv.1 (by
      rw [h]
      rcases le_total (toRat input.1) (toRat input.2) with h | h
      · exact Or.inl ⟨h, le_rfl⟩
      · exact Or.inr ⟨le_rfl, h⟩)
    have := lerp_interpolates ho.1 ho.2 u
    unfold Interpolates at this
    rw [inv.2.2.1 h hne, one_mul, add_sub_cancel] at this
    exact this
  · intro h
    have := lerp_interpolates ho.1 ho.2 (inv.1 h)
    exact ⟨this.1, _, bet _ (inv.1 h), this.2⟩
  · intro w hw h h' hlt hle hvw
    have u := inv.1 h
    have u' := (C80_inverse input.1 input.2 w hi.1 hi.2 hw).1 h'
    have := inv.2.2.2 w hw hlt hvw
    rw [le_iff u.1 u'.1] at this
    exact (lerp_mono ho.1 ho.2 u.1 u'.1 this).1 hle

/-- C80: the second end of the first range does not always go exactly to the second end of the second range. -/
theorem C80_map_counterexample :
    linearMap VecF.one (zero, VecF.one) (ofBits 0xc2140000, ofBits 0x4b7fffde) = ofBits 0x4b7fffdf ∧
    linearMap VecF.one (zero, VecF.one) (ofBits 0x4c000000, VecF.one) = zero := by
  decide +kernel

/-! ## Colours and angles -/

/-- C80: each component of a colour between two others is `a + t·(b-a)` up to rounding, and is exactly the component of the first or of the second
colour if the parameter is 0 or 1. -/
theorem C80_colour (a b : RgbaFloat) (t : F32) (ht : UnitInterval t) (f : RgbaFloat → F32)
    (hf : f = RgbaFloat.r ∨ f = RgbaFloat.g ∨ f = RgbaFloat.b ∨ f = RgbaFloat.a) (ha : Moderate (f a)) (hb : Moderate (f b)) :
    Interpolates (f a) (f b) t (f (lerpColor a b t)) ∧
    (toRat t = 0 → SameValue (f (lerpColor a b t)) (f a)) ∧ (toRat t = 1 → SameValue (f (lerpColor a b t)) (f b)) := by
  have w := weighted ha hb ht
  have e : f (lerpColor a b t) = add (mul (f a) (sub VecF.one t)) (mul (f b) t) := by
    rcases hf with rfl | rfl | rfl | rfl <;> rfl
  rw [e]
  exact ⟨w.1, fun h => ⟨w.1.1, w.2.1 h⟩, fun h => ⟨w.1.1, w.2.2 h⟩⟩

theorem lerpAngle_eq (a b t : F32) : Tip.lerpAngle a b t = add (mul a (sub VecF.one t)) (mul b t) := by
  unfold Tip.lerpAngle
  rw [Shader.mul_comm' _ a, Shader.mul_comm' t b]
  rfl

/-- C80: an angle between two others, without a change of their turns, is `a + t·(b-a)` up to rounding, and exactly the first or the second angle if
the parameter is 0 or 1. -/
theorem C80_angle (a b t : F32) (ha : Moderate a) (hb : Moderate b) (ht : UnitInterval t) :
    Interpolates a b t (Tip.lerpAngle a b t) ∧
    (toRat t = 0 → SameValue (Tip.lerpAngle a b t) a) ∧ (toRat t = 1 → SameValue (Tip.lerpAngle a b t) b) := by
  rw [lerpAngle_eq]
  have w := weighted ha hb ht
  exact ⟨w.1, fun h => ⟨w.1.1, w.2.1 h⟩, fun h => ⟨w.1.1, w.2.2 h⟩⟩

/-- C80: interpolation between two equal angles is not always this angle: between 6 and 6, with the parameter 0.1, it is less than 6. So it is with
colours. -/
theorem C80_equal_counterexample :
    lt (Tip.lerpAngle (ofBits 0x40c00000) (ofBits 0x40c00000) (ofBits 0x3dcccccd)) (ofBits 0x40c00000) = true ∧
    lt (lerpComponent (ofBits 0x40c00000) (ofBits 0x40c00000) (ofBits 0x3dcccccd)) (ofBits 0x40c00000) = true := by
  decide +kernel

example : UnitInterval (ofBits 0x3dcccccd) := ⟨by decide, by decide +kernel, by decide +kernel⟩

/-- C80: the normalized angle between two others, in binary32, is in [0, 2π); up to rounding, it is `a + t·d` up to full turns, where `d` is in [-π, π] and is
`b - a` up to full turns. -/
theorem C80_normalized (a b t : F32) (ha : Moderate a) (hb : Moderate b) (ht : UnitInterval t) :
    (Tip.normalizedAngleLerp a b t).isFinite = true ∧ le zero (Tip.normalizedAngleLerp a b t) = true ∧
    lt (Tip.normalizedAngleLerp a b t) Angle.twoPi = true ∧
    ∃ (d : ℚ) (k l : ℤ), |d| ≤ toRat Angle.pi ∧
      |d - (toRat b - toRat a - k * toRat Angle.twoPi)| ≤ (|toRat a| + |toRat b|) / 2 ^ 24 + 1 / 2 ^ 150 ∧
      |toRat (Tip.normalizedAngleLerp a b t) - (toRat a + toRat t * d - l * toRat Angle.twoPi)| ≤ |toRat a| / 2 ^ 24 + 1 / 2 ^ 19 := by
  have ho := sub_lt ha hb
  have fd := isFinite_sub hb.1 ha.1 ho
  have ed := toRat_sub hb.1 ha.1 ho
  obtain ⟨fn, n1, n2, k, hk⟩ := C19_normalized_about_zero (sub b a) fd
  set δ := Angle.normalizedAboutZero (sub b a) with hδ
  have hpi : toRat Angle.pi ≤ 4 := by decide +kernel
  have hpi' : toRat Angle.pi / 2 ^ 22 ≤ 1 / 2 ^ 20 := by
    calc toRat Angle.pi / 2 ^ 22 ≤ 4 / 2 ^ 22 := by gcongr
      _ = 1 / 2 ^ 20 := by norm_num
  have fpi : Angle.pi.isFinite = true := by decide
  have npi : (neg Angle.pi).isFinite = true := by decide
  have habs : |toRat δ| ≤ toRat Angle.pi := by
    rw [abs_le]
    have e1 := (lt_iff npi fn).1 n1
    have e2 := (le_iff fn fpi).1 n2
    rw [toRat_neg] at e1
    exact ⟨e1.le, e2⟩
  have md : Moderate δ := ⟨fn, by
    have : (4 : ℚ) ≤ 2 ^ 126 := by norm_num
    linarith⟩
  have mz : Moderate zero := ⟨isFinite_zero, by rw [toRat_zero, abs_zero]; positivity⟩
  have w := (C80_angle zero δ t mz md ht).1
  unfold Interpolates at w
  rw [toRat_zero, abs_zero, zero_add, zero_add, sub_zero] at w
  have wb : |toRat (Tip.lerpAngle zero δ t) - toRat t * toRat δ| ≤ 1 / 2 ^ 20 * (786 / 1000) + 1 / 2 ^ 148 := by
    refine w.2.trans ?_
    have : |toRat δ| / 2 ^ 22 ≤ 1 / 2 ^ 20 * (786 / 1000) := by
      have p : toRat Angle.pi ≤ 3144 / 1000 := by decide +kernel
      rw [div_le_iff₀ (by norm_num)]
      norm_num
      linarith
    linarith
  have td : |toRat t * toRat δ| ≤ 3144 / 1000 := by
    have p : toRat Angle.pi ≤ 3144 / 1000 := by decide +kernel
    rw [abs_mul, abs_of_nonneg ht.2.1]
    have := mul_le_of_le_one_left (abs_nonneg (toRat δ)) ht.2.2
    linarith
  set m := toRat (Tip.lerpAngle zero δ t) with hm
  have mb : |m| ≤ 4 := by
    have := abs_add_le (m - toRat t * toRat δ) (toRat t * toRat δ)
    rw [sub_add_cancel] at this
    have c : (1 : ℚ) / 2 ^ 20 * (786 / 1000) + 1 / 2 ^ 148 ≤ 1 / 2 := by norm_num
    linarith
  have os : |toRat a + toRat (Tip.lerpAngle zero δ t)| < ovf := by
    have := abs_add_le (toRat a) m
    have := ha.2
    have := ovf_big
    have : (2 : ℚ) ^ 126 + 4 < 2 ^ 127 := by norm_num
    rw [← hm]
    linarith
  have fs := isFinite_add ha.1 w.1 os
  have es := toRat_add ha.1 w.1 os
  rw [← hm] at es
  have er := Tip.err_sum (toRat a + m)
  rw [← es] at er
  obtain ⟨f, r0, r1, ⟨l, hl⟩, -⟩ := C19_normalized _ fs
  refine ⟨f, r0, r1, toRat δ, k, l, habs, ?_, ?_⟩
  · rw [hk, ed]
    have := Tip.err_sum (toRat b - toRat a)
    have e : rnd (toRat b - toRat a) - k * toRat Angle.twoPi - (toRat b - toRat a - k * toRat Angle.twoPi) =
        rnd (toRat b - toRat a) - (toRat b - toRat a) := by ring
    rw [e]
    have s : |toRat b - toRat a| ≤ |toRat a| + |toRat b| := by have := abs_sub (toRat b) (toRat a); linarith
    have : |toRat b - toRat a| / 2 ^ 24 ≤ (|toRat a| + |toRat b|) / 2 ^ 24 := by gcongr
    linarith
  · show |toRat (Angle.normalized (add a (Tip.lerpAngle zero δ t))) - _| ≤ _
    set r := toRat (Angle.normalized (add a (Tip.lerpAngle zero δ t)))
    set s := toRat (add a (Tip.lerpAngle zero δ t))
    have e : r - (toRat a + toRat t * toRat δ - l * toRat Angle.twoPi) =
        (r - (s - l * toRat Angle.twoPi)) + ((s - (toRat a + m)) + (m - toRat t * toRat δ)) := by ring
    rw [e]
    have l1 := abs_add_le (r - (s - l * toRat Angle.twoPi)) ((s - (toRat a + m)) + (m - toRat t * toRat δ))
    have l2 := abs_add_le (s - (toRat a + m)) (m - toRat t * toRat δ)
    have c : |toRat a + m| / 2 ^ 24 ≤ |toRat a| / 2 ^ 24 + 4 / 2 ^ 24 := by
      rw [← add_div]
      have := abs_add_le (toRat a) m
      gcongr
      linarith
    have n : (1 : ℚ) / 2 ^ 21 + (1 / 2 ^ 150 + 4 / 2 ^ 24) + (1 / 2 ^ 20 * (786 / 1000) + 1 / 2 ^ 148) ≤ 1 / 2 ^ 19 := by norm_num
    linarith

end Verif

namespace Verif.RealGeom

open RealGeom.Spec

/-! ## In real numbers -/

theorem normalized_turn (a : ℝ) : 0 ≤ Angle.normalized a ∧ Angle.normalized a < 2 * Real.pi ∧ SameAngle (Angle.normalized a) a := by
  have hpi := Real.pi_pos
  have h := trunc_spec (a / (2 * Real.pi))
  have hm : |fmod a (2 * Real.pi)| < 2 * Real.pi := by
    unfold fmod
    have e : a - trunc (a / (2 * Real.pi)) * (2 * Real.pi) = (a / (2 * Real.pi) - trunc (a / (2 * Real.pi))) * (2 * Real.pi) := by field_simp
    rw [e, abs_mul, abs_of_pos (by linarith : (0 : ℝ) < 2 * Real.pi)]
    calc _ < 1 * (2 * Real.pi) := mul_lt_mul_of_pos_right h (by linarith)
      _ = _ := one_mul _
  have hk : fmod a (2 * Real.pi) = a + (-trunc (a / (2 * Real.pi)) : ℤ) * (2 * Real.pi) := by unfold fmod; push_cast; ring
  obtain ⟨h1, h2⟩ := abs_lt.1 hm
  unfold Angle.normalized SameAngle
  dsimp only
  split_ifs with c1
  · exact ⟨by linarith, by linarith, -trunc (a / (2 * Real.pi)) + 1, by rw [hk]; push_cast; ring⟩
  · exact ⟨by linarith, by linarith, -trunc (a / (2 * Real.pi)), hk⟩

/-- C80: in real numbers the normalized angle between two others is in [0, 2π) and goes the shorter way: it is `a + t·d` up to full turns, with `d` in (-π, π]
such that `a + d` is `b` up to full turns; no other way from `a` to `b` is shorter. -/
theorem C80_shorter_way (a b : ℝ) :
    ∃ d, Normal d ∧ SameAngle (a + d) b ∧ (∀ d', SameAngle (a + d') b → |d| ≤ |d'|) ∧
      ∀ t, 0 ≤ Angle.normalizedLerp a b t ∧ Angle.normalizedLerp a b t < 2 * Real.pi ∧ SameAngle (Angle.normalizedLerp a b t) (a + t * d) := by
  have hpi := Real.pi_pos
  obtain ⟨hn, hs⟩ := normalized_spec (b - a)
  have hab : SameAngle (a + Angle.normalizedAboutZero (b - a)) b := by
    obtain ⟨k, hk⟩ := hs
    exact ⟨k, by rw [hk]; ring⟩
  refine ⟨Angle.normalizedAboutZero (b - a), hn, hab, ?_, ?_⟩
  · intro d' hd'
    obtain ⟨k, hk⟩ := hab
    obtain ⟨l, hl⟩ := hd'
    set d := Angle.normalizedAboutZero (b - a)
    have e : d' = d + ((l - k : ℤ) : ℝ) * (2 * Real.pi) := by push_cast; linarith
    rcases lt_trichotomy (l - k) 0 with h | h | h
    · have h1 : ((l - k : ℤ) : ℝ) ≤ -1 := by exact_mod_cast Int.le_sub_one_of_lt h
      have : d' ≤ d - 2 * Real.pi := by rw [e]; nlinarith
      have hd : |d| ≤ Real.pi := abs_le.2 ⟨hn.1.le, hn.2⟩
      have : Real.pi ≤ |d'| := by rw [abs_of_nonpos (by linarith [hn.2])]; linarith [hn.2]
      linarith
    · rw [h] at e
      simp at e
      rw [e]
    · have h1 : (1 : ℝ) ≤ ((l - k : ℤ) : ℝ) := by exact_mod_cast h
      have : d + 2 * Real.pi ≤ d' := by rw [e]; nlinarith
      have hd : |d| ≤ Real.pi := abs_le.2 ⟨hn.1.le, hn.2⟩
      have : Real.pi ≤ |d'| := by rw [abs_of_nonneg (by linarith [hn.1])]; linarith [hn.1]
      linarith
  · intro t
    unfold Angle.normalizedLerp
    obtain ⟨h0, h1, h2⟩ := normalized_turn (a + Angle.lerp 0 (Angle.normalizedAboutZero (b - a)) t)
    refine ⟨h0, h1, ?_⟩
    have e : a + Angle.lerp 0 (Angle.normalizedAboutZero (b - a)) t = a + t * Angle.normalizedAboutZero (b - a) := by
      unfold Angle.lerp; ring
    rw [e] at h2 ⊢
    exact h2

theorem from_same {a b m : ℝ} (h : SameAngle a b) : Vec.fromDirectionAndMagnitude a m = Vec.fromDirectionAndMagnitude b m := by
  unfold Vec.fromDirectionAndMagnitude
  rw [SameAngle.cos h, SameAngle.sin h]

/-- The value of a spiral interpolation is the same formula at the ends. -/
theorem spiral_eq (a b : ℂ) (t : ℝ) : Vec.spiralLerp a b t =
    Vec.fromDirectionAndMagnitude (Vec.direction a + t * Vec.signedAngleBetween a b) ((1 - t) * ‖a‖ + t * ‖b‖) := by
  unfold Vec.spiralLerp
  split_ifs with h0 h1
  · rw [h0, zero_mul, add_zero, sub_zero, one_mul, zero_mul, add_zero, ← magnitude_eq, from_direction]
  · rw [h1, one_mul, sub_self, zero_mul, one_mul, zero_add, signed_eq]
    have s : SameAngle (Vec.direction a + Angle.normalizedAboutZero (Vec.direction b - Vec.direction a)) (Vec.direction b) := by
      obtain ⟨k, hk⟩ := (normalized_spec (Vec.direction b - Vec.direction a)).2
      exact ⟨k, by rw [hk]; ring⟩
    rw [from_same s, ← magnitude_eq, from_direction]
  · simp only [magnitude_eq]

/-- C80: a spiral interpolation of vectors starts at the first and ends at the second one; its length changes linearly, and so does its direction, which turns
by the signed angle between them, at most half a turn. -/
theorem C80_spiral (a b : ℂ) :
    Vec.spiralLerp a b 0 = a ∧ Vec.spiralLerp a b 1 = b ∧
    (∀ t, 0 ≤ t → t ≤ 1 → ‖Vec.spiralLerp a b t‖ = (1 - t) * ‖a‖ + t * ‖b‖) ∧
    ∃ turn, Normal turn ∧ SameAngle (Complex.arg a + turn) (Complex.arg b) ∧
      ∀ t, 0 ≤ t → t ≤ 1 → Vec.spiralLerp a b t ≠ 0 → SameAngle (Complex.arg (Vec.spiralLerp a b t)) (Complex.arg a + t * turn) := by
  refine ⟨?_, ?_, ?_, Vec.signedAngleBetween a b, ?_, ?_, ?_⟩
  · unfold Vec.spiralLerp; simp
  · unfold Vec.spiralLerp; simp
  · intro t h0 h1
    rw [spiral_eq, norm_from, abs_of_nonneg]
    have := norm_nonneg a
    have := norm_nonneg b
    have : 0 ≤ 1 - t := by linarith
    positivity
  · rw [signed_eq]; exact (normalized_spec _).1
  · rw [signed_eq]
    obtain ⟨k, hk⟩ := (normalized_spec (Vec.direction b - Vec.direction a)).2
    exact ⟨k, by rw [hk]; simp only [Vec.direction]; ring⟩
  · intro t h0 h1 hne
    rw [spiral_eq] at hne ⊢
    have m0 : 0 ≤ (1 - t) * ‖a‖ + t * ‖b‖ := by
      have := norm_nonneg a
      have := norm_nonneg b
      have : 0 ≤ 1 - t := by linarith
      positivity
    have mp : 0 < (1 - t) * ‖a‖ + t * ‖b‖ := by
      refine lt_of_le_of_ne m0 fun e => hne ?_
      rw [← e]
      apply Complex.ext <;> simp [Vec.fromDirectionAndMagnitude]
    have := direction_from (Vec.direction a + t * Vec.signedAngleBetween a b) _ mp
    have n := (normalized_spec (Vec.direction a + t * Vec.signedAngleBetween a b)).2
    rw [← this] at n
    exact n

/-- C80: vectors of the same direction are interpolated along the line through both. -/
theorem C80_spiral_straight (a b : ℂ) (t : ℝ) (h : Complex.arg a = Complex.arg b) : Vec.spiralLerp a b t = a + t * (b - a) := by
  have s : Vec.signedAngleBetween a b = 0 := by
    rw [signed_eq]
    unfold Vec.direction
    rw [h, sub_self]
    exact normal_unique (normalized_spec 0).1 ⟨by linarith [Real.pi_pos], Real.pi_pos.le⟩ (normalized_spec 0).2
  rw [spiral_eq, s, mul_zero, add_zero]
  have ea : a = Vec.fromDirectionAndMagnitude (Vec.direction a) ‖a‖ := by rw [← magnitude_eq, from_direction]
  have eb : b = Vec.fromDirectionAndMagnitude (Vec.direction a) ‖b‖ := by
    have : Vec.direction a = Vec.direction b := h
    rw [this, ← magnitude_eq, from_direction]
  rw [from_eq] at ea eb ⊢
  conv_rhs => rw [ea, eb]
  push_cast
  generalize Complex.cos (Vec.direction a) + Complex.sin (Vec.direction a) * Complex.I = z
  ring

/-- A quarter turn from 1 to i has its middle on the diagonal. -/
example : Complex.arg (1 : ℂ) ≠ Complex.arg Complex.I := by rw [Complex.arg_one, Complex.arg_I]; positivity

end Verif.RealGeom
