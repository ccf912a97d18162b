import Verif.Spec.ColorShift
import Verif.Lemmas.AntialiasInk

/-!
# C72: the colours of strokes
-/

set_option autoImplicit false

namespace Verif.Antialias

open Spec

theorem saturate_clip (x : ℝ) : saturate x = clip x := by
  unfold clip
  split_ifs with h1 h2
  · exact saturate_low h1.le
  · exact saturate_high h2.le
  · push Not at h1 h2
    exact saturate_of h1 h2

/-- A shift turns the chroma by the hue, scales it by the saturation and adds to the luma; the opacity is scaled and kept in range. -/
theorem C72_shift (h s l opacity : ℝ) (c : Color) :
    applyShift h s l opacity c =
      ofLumaChroma (luma c + l) ((1 + s : ℝ) * Complex.exp (-(2 * Real.pi * h : ℝ) * Complex.I) * chroma c) (clip ((1 + opacity) * c.a)) := by
  unfold applyShift ofLumaChroma
  dsimp only
  have hz : (⟨c.r * 0.596 + c.g * -0.275 + c.b * -0.321, c.r * 0.212 + c.g * -0.523 + c.b * 0.311⟩ : ℂ) = chroma c := by
    unfold chroma
    congr 1 <;> ring
  have hi : c.r * 0.596 + c.g * -0.275 + c.b * -0.321 = (chroma c).re := congrArg Complex.re hz
  have hq : c.r * 0.212 + c.g * -0.523 + c.b * 0.311 = (chroma c).im := congrArg Complex.im hz
  have hy : c.r * 0.299 + c.g * 0.587 + c.b * 0.114 = luma c := by unfold luma; ring
  rw [hz, hi, hq, hy]
  generalize chroma c = z
  have hn : Real.sqrt (z.re * z.re + z.im * z.im) = ‖z‖ := by
    rw [Complex.norm_def, Complex.normSq_apply]
  rw [hn]
  have c1 := Complex.norm_mul_cos_arg z
  have c2 := Complex.norm_mul_sin_arg z
  generalize hθ : 2 * Real.pi * h = θ
  have hexp : Complex.exp (-(θ : ℝ) * Complex.I) = ⟨Real.cos θ, -Real.sin θ⟩ := by
    rw [← Complex.ofReal_neg, Complex.exp_mul_I, ← Complex.ofReal_cos, ← Complex.ofReal_sin, Real.cos_neg, Real.sin_neg]
    apply Complex.ext <;> simp [Complex.cos_ofReal_re, Complex.sin_ofReal_re]
  rw [hexp, show h * (2 * Real.pi) = θ by rw [← hθ]; ring, Real.cos_sub, Real.sin_sub]
  have e1 : ‖z‖ * (s + 1) * (Real.cos z.arg * Real.cos θ + Real.sin z.arg * Real.sin θ) = (s + 1) * (z.re * Real.cos θ + z.im * Real.sin θ) := by
    rw [← c1, ← c2]; ring
  have e2 : ‖z‖ * (s + 1) * (Real.sin z.arg * Real.cos θ - Real.cos z.arg * Real.sin θ) = (s + 1) * (z.im * Real.cos θ - z.re * Real.sin θ) := by
    rw [← c1, ← c2]; ring
  rw [e1, e2]
  simp only [Complex.mul_re, Complex.mul_im, Complex.ofReal_re, Complex.ofReal_im, zero_mul, sub_zero, add_zero]
  simp only [Color.mk.injEq]
  refine ⟨by ring, by ring, by ring, ?_⟩
  unfold applyOpacityShift
  rw [saturate_clip, add_comm opacity 1]

/-- A whole turn of the hue is no shift. -/
theorem C72_turn (h s l opacity : ℝ) (n : ℤ) (c : Color) : applyShift (h + n) s l opacity c = applyShift h s l opacity c := by
  rw [C72_shift, C72_shift]
  congr 3
  have e : (-(2 * Real.pi * (h + n) : ℝ) : ℂ) * Complex.I = (-(2 * Real.pi * h : ℝ) : ℂ) * Complex.I + (-n : ℤ) * (2 * Real.pi * Complex.I) := by
    push_cast
    ring
  rw [e, Complex.exp_add, Complex.exp_int_mul_two_pi_mul_I, mul_one]

/-- Without saturation all components are the luma, whatever the hue. -/
theorem C72_grey (h l opacity : ℝ) (c : Color) :
    (applyShift h (-1) l opacity c).r = luma c + l ∧ (applyShift h (-1) l opacity c).g = luma c + l ∧ (applyShift h (-1) l opacity c).b = luma c + l := by
  rw [C72_shift]
  unfold ofLumaChroma
  simp

/-- A shift of the luminosity adds to all three components. -/
theorem C72_luminosity (h s l d opacity : ℝ) (c : Color) :
    (applyShift h s (l + d) opacity c).r = (applyShift h s l opacity c).r + d ∧
    (applyShift h s (l + d) opacity c).g = (applyShift h s l opacity c).g + d ∧
    (applyShift h s (l + d) opacity c).b = (applyShift h s l opacity c).b + d := by
  rw [C72_shift, C72_shift]
  unfold ofLumaChroma
  refine ⟨?_, ?_, ?_⟩ <;> ring

/-- A grey stays as it is, plus the shift of the luminosity: it has no hue and no saturation to be shifted. -/
theorem C72_neutral (h s l opacity x a : ℝ) :
    (applyShift h s l opacity ⟨x, x, x, a⟩).r = x + l ∧ (applyShift h s l opacity ⟨x, x, x, a⟩).g = x + l ∧
      (applyShift h s l opacity ⟨x, x, x, a⟩).b = x + l := by
  rw [C72_shift]
  have hz : chroma ⟨x, x, x, a⟩ = 0 := by
    unfold chroma
    apply Complex.ext <;> simp <;> ring
  rw [hz, mul_zero]
  unfold ofLumaChroma luma
  refine ⟨?_, ?_, ?_⟩ <;> simp <;> ring

/-- Shifts of 0 keep the components of a colour, up to 0.000709: less than a fifth of a step of 8 bits. -/
theorem C72_none {c : Color} (hc : InRange c) : Near 0.000709 (applyShift 0 0 0 0 c) c := by
  rw [C72_shift]
  obtain ⟨⟨r0, r1⟩, ⟨g0, g1⟩, ⟨b0, b1⟩, a0, a1⟩ := hc
  have hz : ((1 + 0 : ℝ) : ℂ) * Complex.exp (-(2 * Real.pi * 0 : ℝ) * Complex.I) * chroma c = chroma c := by simp
  rw [hz]
  unfold ofLumaChroma luma chroma Near
  dsimp only
  refine ⟨?_, ?_, ?_, ?_⟩
  · rw [abs_le]; constructor <;> norm_num <;> linarith
  · rw [abs_le]; constructor <;> norm_num <;> linarith
  · rw [abs_le]; constructor <;> norm_num <;> linarith
  · unfold clip
    rw [add_zero, one_mul, if_neg (not_lt.2 a0), if_neg (not_lt.2 a1)]

/-- The colour of a vertex is premultiplied by its opacity, which is the scaled opacity of the brush within the range; a vertex whose format
has no shift is like one with shifts of 0, up to 0.000709 times the opacity. -/
theorem C72_vertex (h s l opacity : ℝ) (c : Color) :
    (vertexColor h s l opacity c).a = clip ((1 + opacity) * c.a) ∧ (vertexColorWithout opacity c).a = clip ((1 + opacity) * c.a) ∧
    (vertexColor h s l opacity c).r = (vertexColor h s l opacity c).a * (applyShift h s l opacity c).r ∧
    (vertexColor h s l opacity c).g = (vertexColor h s l opacity c).a * (applyShift h s l opacity c).g ∧
    (vertexColor h s l opacity c).b = (vertexColor h s l opacity c).a * (applyShift h s l opacity c).b ∧
    (vertexColorWithout opacity c).r = (vertexColorWithout opacity c).a * c.r ∧
    (vertexColorWithout opacity c).g = (vertexColorWithout opacity c).a * c.g ∧
    (vertexColorWithout opacity c).b = (vertexColorWithout opacity c).a * c.b ∧
    (InRange c → Near (0.000709 * clip ((1 + opacity) * c.a)) (vertexColor 0 0 0 opacity c) (vertexColorWithout opacity c)) := by
  have ho : applyOpacityShift opacity c.a = clip ((1 + opacity) * c.a) := by
    unfold applyOpacityShift
    rw [saturate_clip, add_comm opacity 1]
  have ha : ∀ h s l, (vertexColor h s l opacity c).a = clip ((1 + opacity) * c.a) := fun h s l => ho
  have hb : (vertexColorWithout opacity c).a = clip ((1 + opacity) * c.a) := ho
  refine ⟨ha h s l, hb, mul_comm _ _, mul_comm _ _, mul_comm _ _, mul_comm _ _, mul_comm _ _, mul_comm _ _, fun hc => ?_⟩
  have hk : 0 ≤ clip ((1 + opacity) * c.a) := by rw [← saturate_clip]; exact saturate_nonneg _
  obtain ⟨n1, n2, n3, -⟩ := C72_none hc
  have same : ∀ f : Color → ℝ, f = Color.r ∨ f = Color.g ∨ f = Color.b → f (applyShift 0 0 0 opacity c) = f (applyShift 0 0 0 0 c) := by
    rintro f (rfl | rfl | rfl) <;> rfl
  have key : ∀ x y : ℝ, |x - y| ≤ 0.000709 → |x * clip ((1 + opacity) * c.a) - y * clip ((1 + opacity) * c.a)| ≤ 0.000709 * clip ((1 + opacity) * c.a) := by
    intro x y hxy
    rw [← sub_mul, abs_mul, abs_of_nonneg hk]
    exact mul_le_mul_of_nonneg_right hxy hk
  have e1 : (applyShift 0 0 0 opacity c).a = clip ((1 + opacity) * c.a) := ho
  unfold Near vertexColor vertexColorWithout
  dsimp only
  rw [ho, e1, same _ (Or.inl rfl), same _ (Or.inr (Or.inl rfl)), same _ (Or.inr (Or.inr rfl))]
  exact ⟨key _ _ n1, key _ _ n2, key _ _ n3, rfl⟩

/-- A shift of 0 keeps the opacity, one of -1 makes it 0, and a greater shift never makes it smaller. -/
theorem C72_opacity {a : ℝ} (h0 : 0 ≤ a) (h1 : a ≤ 1) :
    applyOpacityShift 0 a = a ∧ applyOpacityShift (-1) a = 0 ∧ (∀ s, 0 ≤ applyOpacityShift s a ∧ applyOpacityShift s a ≤ 1) ∧
      ∀ s t, s ≤ t → applyOpacityShift s a ≤ applyOpacityShift t a := by
  unfold applyOpacityShift
  refine ⟨?_, ?_, fun s => ⟨saturate_nonneg _, saturate_le _⟩, fun s t hst => ?_⟩
  · rw [zero_add, one_mul, saturate_of h0 h1]
  · rw [neg_add_cancel, zero_mul, saturate_low le_rfl]
  · unfold saturate
    exact max_le_max le_rfl (min_le_min le_rfl (mul_le_mul_of_nonneg_right (by linarith) h0))

/-- The colour of a fragment is that of the vertices times the coverage: it stays premultiplied, keeps its hue and is no more opaque. -/
theorem C72_fragment (c : Color) (v : Varyings) :
    ∃ k : ℝ, 0 ≤ k ∧ k ≤ 1 ∧ k = coverage v ∧ fragmentColor c v = ⟨k * c.r, k * c.g, k * c.b, k * c.a⟩ ∧
      (Premultiplied c → Premultiplied (fragmentColor c v)) := by
  obtain ⟨k0, k1⟩ := coverage_range v
  have e : fragmentColor c v = ⟨coverage v * c.r, coverage v * c.g, coverage v * c.b, coverage v * c.a⟩ := by
    unfold fragmentColor
    dsimp only
    simp only [mul_comm]
  refine ⟨coverage v, k0, k1, rfl, e, fun ⟨⟨r0, r1⟩, ⟨g0, g1⟩, ⟨b0, b1⟩, ha⟩ => ?_⟩
  rw [e]
  refine ⟨⟨mul_nonneg k0 r0, mul_le_mul_of_nonneg_left r1 k0⟩, ⟨mul_nonneg k0 g0, mul_le_mul_of_nonneg_left g1 k0⟩,
    ⟨mul_nonneg k0 b0, mul_le_mul_of_nonneg_left b1 k0⟩, ?_⟩
  have : 0 ≤ c.a := r0.trans r1
  exact mul_le_one₀ k1 this ha

/-- Without shifts of the colour, the colour of a vertex is a premultiplied one if that of the brush is in range. -/
theorem C72_premultiplied {c : Color} (hc : InRange c) (opacity : ℝ) : Premultiplied (vertexColorWithout opacity c) := by
  obtain ⟨⟨r0, r1⟩, ⟨g0, g1⟩, ⟨b0, b1⟩, a0, a1⟩ := hc
  have k0 := saturate_nonneg ((opacity + 1) * c.a)
  have k1 := saturate_le ((opacity + 1) * c.a)
  unfold vertexColorWithout applyOpacityShift Premultiplied
  dsimp only
  exact ⟨⟨mul_nonneg r0 k0, mul_le_of_le_one_left k0 r1⟩, ⟨mul_nonneg g0 k0, mul_le_of_le_one_left k0 g1⟩,
    ⟨mul_nonneg b0 k0, mul_le_of_le_one_left k0 b1⟩, k1⟩

/-- With shifts it need not be: the components are not kept in range. A white brush with a shift of the luminosity. -/
theorem C72_range_counterexample : ∃ c : Color, InRange c ∧ ¬Premultiplied (vertexColor 0 0 (1 / 2) 0 c) := by
  refine ⟨⟨1, 1, 1, 1⟩, by norm_num [InRange], fun hP => ?_⟩
  have h := hP.1.2
  have e := (C72_neutral 0 0 (1 / 2) 0 1 1).1
  have ea : (applyShift 0 0 (1 / 2) 0 ⟨1, 1, 1, 1⟩).a = 1 := (C72_opacity zero_le_one le_rfl).1
  unfold vertexColor at h
  dsimp only at h
  rw [e, ea] at h
  norm_num at h

/-! The theorems speak of something: red, turned by a third, is not red, and half a turn of a colour is not that colour. -/

example : InRange ⟨1, 0, 0, 0.5⟩ := by norm_num [InRange]

example : (applyShift (1 / 2) 0 0 0 ⟨1, 0, 0, 1⟩).r < 0.01 := by
  rw [C72_shift]
  have : Complex.exp (-(2 * Real.pi * (1 / 2) : ℝ) * Complex.I) = -1 := by
    rw [show -((2 * Real.pi * (1 / 2) : ℝ) : ℂ) * Complex.I = -(Real.pi * Complex.I) by push_cast; ring, Complex.exp_neg, Complex.exp_pi_mul_I]
    norm_num
  rw [this]
  norm_num [ofLumaChroma, luma, chroma]

end Verif.Antialias
