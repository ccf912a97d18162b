import Verif.Lemmas.ColorSpace
import Verif.Props.Color

/-!
# C73: the gamma curve and the change of primaries
-/

set_option autoImplicit false

namespace Verif.ColorCurve

open Spec

/-- Decoding is the published function, except at 0.04045 itself, where it differs by less than 10^-8. -/
theorem C73_standard (j : ℝ) : (j ≠ 0.04045 → gammaDecode j = eotf j) ∧ |gammaDecode j - eotf j| < 0.00000001 := by
  have pw : ∀ x, powDecode x = ((x + 0.055) / 1.055) ^ (2.4 : ℝ) := fun x => by
    unfold powDecode kSrgbG
    congr 1
    unfold kSrgbA kSrgbB
    ring
  have key : j ≠ 0.04045 → gammaDecode j = eotf j := by
    intro hne
    unfold gammaDecode eotf
    by_cases h : j < kSrgbD
    · rw [if_pos h, if_pos (show j ≤ 0.04045 from h.le)]
      unfold kSrgbC
      ring
    · rw [if_neg h, if_neg]
      · exact pw j
      · intro q
        exact h (lt_of_le_of_ne q hne)
  refine ⟨key, ?_⟩
  by_cases hj : j = 0.04045
  · have e1 : gammaDecode j = powDecode kSrgbD := by
      rw [hj]
      exact if_neg (lt_irrefl _)
    have e2 : eotf j = kSrgbC * kSrgbD := by
      unfold eotf
      rw [if_pos hj.le, hj]
      unfold kSrgbC kSrgbD
      ring
    rw [e1, e2, abs_lt]
    constructor <;> linarith [jump, jump_small]
  · rw [key hj, sub_self, abs_zero]
    norm_num

/-- The parameters for shaders describe the curve, as a parametric curve of type 3. -/
theorem C73_parameters :
    ∃ a b c d g, gammaDecodingParameters = [a, b, c, d, g] ∧ ∀ x, icc3 a b c d g x = gammaDecode x := by
  refine ⟨_, _, _, _, _, rfl, fun x => ?_⟩
  unfold icc3 gammaDecode
  by_cases h : x < kSrgbD
  · rw [if_pos h, if_neg (not_le.2 h)]
  · rw [if_neg h, if_pos (not_lt.1 h)]

/-- Encoding undoes decoding, for every number. -/
theorem C73_round_trip (x : ℝ) : gammaEncode (gammaDecode x) = x := encode_decode x

/-- A greater value is always decoded to a greater one; 0 and 1 stay. -/
theorem C73_increasing : StrictMono gammaDecode ∧ gammaDecode 0 = 0 ∧ gammaDecode 1 = 1 ∧ gammaEncode 0 = 0 ∧ gammaEncode 1 = 1 := by
  have d0 : gammaDecode 0 = 0 := by
    unfold gammaDecode
    rw [if_pos D_pos, mul_zero]
  have d1 : gammaDecode 1 = 1 := by
    unfold gammaDecode
    rw [if_neg (by norm_num [kSrgbD])]
    exact powDecode_one
  refine ⟨decode_strictMono, d0, d1, ?_, ?_⟩
  · have := encode_decode 0
    rwa [d0] at this
  · have := encode_decode 1
    rwa [d1] at this

/-- Decoding undoes encoding except in a gap of less than 10^-8, where it is off by less than that. -/
theorem C73_decode_encode (y : ℝ) :
    (y < kSrgbC * kSrgbD ∨ gammaDecode kSrgbD ≤ y → gammaDecode (gammaEncode y) = y) ∧ |gammaDecode (gammaEncode y) - y| < 0.00000002 := by
  have hCD : 0 < kSrgbC * kSrgbD := mul_pos C_pos D_pos
  have e0 : gammaDecode kSrgbD = powDecode kSrgbD := if_neg (lt_irrefl _)
  have key : y < kSrgbC * kSrgbD ∨ gammaDecode kSrgbD ≤ y → gammaDecode (gammaEncode y) = y := by
    rintro (h | h)
    · have e : gammaEncode y = y / kSrgbC := if_pos h
      rw [e]
      unfold gammaDecode
      rw [if_pos (by rw [div_lt_iff₀ C_pos]; linarith), mul_div_cancel₀ _ C_pos.ne']
    · rw [e0] at h
      have e : gammaEncode y = powEncode y := if_neg (not_lt.2 (jump.le.trans h))
      have h2 := powEncode_le (hCD.le.trans jump.le) h
      rw [powEncode_decode D_pos.le] at h2
      rw [e]
      unfold gammaDecode
      rw [if_neg (not_lt.2 h2)]
      exact powDecode_encode (hCD.le.trans (jump.le.trans h))
  refine ⟨key, ?_⟩
  by_cases h : y < kSrgbC * kSrgbD ∨ gammaDecode kSrgbD ≤ y
  · rw [key h, sub_self, abs_zero]
    norm_num
  · push Not at h
    obtain ⟨h1, h2⟩ := h
    rw [e0] at h2
    have e : gammaEncode y = powEncode y := if_neg (not_lt.2 h1)
    have l := powEncode_le hCD.le h1
    have u := powEncode_lt (hCD.le.trans h1) h2
    rw [powEncode_decode D_pos.le] at u
    have e2 : gammaDecode (gammaEncode y) = kSrgbC * powEncode y := by
      rw [e]
      exact if_pos u
    rw [e2, abs_lt]
    have hlow := encode_low
    have hsm := jump_small
    have c1 : kSrgbC * powEncode y < kSrgbC * kSrgbD := mul_lt_mul_of_pos_left u C_pos
    have c2 : kSrgbC * (kSrgbD - 0.0000001) < kSrgbC * powEncode y := mul_lt_mul_of_pos_left (hlow.trans_le l) C_pos
    have c3 : kSrgbC * 0.0000001 < 0.00000001 := by norm_num [kSrgbC]
    constructor <;> linarith

/-- Encoding is not increasing: where the pieces of the curve meet it steps back. -/
theorem C73_encode_counterexample : ∃ y z : ℝ, 0 < y ∧ y < z ∧ z < 1 ∧ gammaEncode z < gammaEncode y := by
  obtain ⟨x, h1, h2⟩ := exists_between (max_lt encode_jump D_pos)
  have hx : 0 < x := (le_max_right _ _).trans_lt h1
  refine ⟨kSrgbC * x, kSrgbC * kSrgbD, mul_pos C_pos hx, mul_lt_mul_of_pos_left h2 C_pos, by norm_num [kSrgbC, kSrgbD], ?_⟩
  have e1 : gammaEncode (kSrgbC * x) = x := by
    unfold gammaEncode
    rw [if_pos (mul_lt_mul_of_pos_left h2 C_pos), mul_div_cancel_left₀ _ C_pos.ne']
  have e2 : gammaEncode (kSrgbC * kSrgbD) = powEncode (kSrgbC * kSrgbD) := if_neg (lt_irrefl _)
  rw [e1, e2]
  exact (le_max_left _ _).trans_lt h1

/-- Eight-bit colours survive gamma encoding if the functions of the library are accurate to a millionth. -/
theorem C73_accurate {E : ColorEnv} (h : CloseCurves E) : E.Accurate := by
  intro k hk s x hf hx
  obtain ⟨-, e1, e2, e3, e4⟩ := Color.byte_float hk
  rw [e1, ← hx] at e2 e3 e4
  obtain ⟨⟨f1, c1⟩, -⟩ := h x s hf (by linarith) (by linarith)
  have x0 : (0 : ℝ) ≤ (x.toRat : ℝ) := by exact_mod_cast e3
  have x1 : (x.toRat : ℝ) ≤ 1 := by exact_mod_cast e4
  obtain ⟨mono, z0, z1, -, -⟩ := C73_increasing
  have d0 : 0 ≤ gammaDecode x.toRat := by rw [← z0]; exact mono.monotone x0
  have d1 : gammaDecode x.toRat ≤ 1 := by rw [← z1]; exact mono.monotone x1
  rw [abs_of_nonneg d0] at c1
  obtain ⟨a1, a2⟩ := abs_le.1 c1
  have y1 : (-1 : ℝ) ≤ ((E.decode x s).toRat : ℝ) := by norm_num at a1 ⊢; linarith
  have y2 : ((E.decode x s).toRat : ℝ) ≤ 2 := by norm_num at a2 ⊢; linarith
  obtain ⟨-, f2, c2⟩ := h (E.decode x s) s f1 (by exact_mod_cast y1) (by exact_mod_cast y2)
  refine ⟨f2, ?_⟩
  -- what is encoded
  have near : |gammaEncode ((E.decode x s).toRat : ℝ) - x.toRat| ≤ 1 / 10000 := by
    by_cases hk0 : k = 0
    · have : (x.toRat : ℝ) = 0 := by rw [hx, hk0]; simp
      rw [this] at a1 a2 ⊢
      rw [z0] at a1 a2
      have : gammaEncode ((E.decode x s).toRat : ℝ) = ((E.decode x s).toRat : ℝ) / kSrgbC := by
        refine if_pos (lt_of_le_of_lt (show _ ≤ (1 : ℝ) / 10 ^ 29 by norm_num at a2 ⊢; linarith) ?_)
        norm_num [kSrgbC, kSrgbD]
      rw [this, sub_zero, abs_le]
      unfold kSrgbC
      norm_num at a1 a2 ⊢
      constructor <;> linarith
    · have hk1 : (1 : ℚ) ≤ k := by exact_mod_cast Nat.one_le_iff_ne_zero.2 hk0
      have hx' : (1 : ℚ) / 300 ≤ x.toRat := by
        have := (abs_le.1 e2).1
        norm_num at this ⊢
        linarith
      have hx'' : (1 : ℝ) / 300 ≤ x.toRat := by
        have : ((1 / 300 : ℚ) : ℝ) ≤ (x.toRat : ℝ) := by exact_mod_cast hx'
        norm_num at this ⊢
        exact this
      have hd : (1 : ℝ) / 4000 ≤ gammaDecode x.toRat := by
        refine le_trans ?_ (mono.monotone hx'')
        unfold gammaDecode
        rw [if_pos (by norm_num [kSrgbD])]
        norm_num [kSrgbC]
      refine (encode_near x0 x1 (ε := 1 / 500000) (by norm_num) (by norm_num) ?_).trans (by norm_num)
      rw [abs_le]
      norm_num at a1 a2 ⊢
      constructor <;> linarith
  obtain ⟨n1, n2⟩ := abs_le.1 near
  have hb : |gammaEncode ((E.decode x s).toRat : ℝ)| ≤ 2 := by rw [abs_le]; constructor <;> linarith
  obtain ⟨b1, b2⟩ := abs_le.1 c2
  have ek : |(x.toRat : ℝ) - k / 255| ≤ 1 / 2 ^ 24 := by
    have : ((|x.toRat - k / 255| : ℚ) : ℝ) ≤ ((1 / 2 ^ 24 : ℚ) : ℝ) := by exact_mod_cast e2
    push_cast at this
    exact this
  obtain ⟨k1, k2⟩ := abs_le.1 ek
  have goal : |((E.encode (E.decode x s) s).toRat : ℝ) - k / 255| ≤ 1 / 1024 := by
    rw [abs_le]
    norm_num at *
    constructor <;> linarith
  have : ((|(E.encode (E.decode x s) s).toRat - k / 255| : ℚ) : ℝ) ≤ ((1 / 1024 : ℚ) : ℝ) := by
    push_cast
    exact goal
  exact_mod_cast this

/-- With such functions, the bytes of a gamma-encoded colour come back. -/
theorem C73_bytes {E : ColorEnv} (h : CloseCurves E) (s : ColorSpace) {u : RgbaUint8} (hu : Color.Bytes u) :
    (Color.fromUint8 E u.r u.g u.b u.a .gammaEncoded s).bind (fun c => Color.asUint8 E c .gammaEncoded) = some u :=
  (Color.C28_uint8_round_trip E .gammaEncoded (fun _ => C73_accurate h) s u hu).2 (fun q => by cases q)

/-- The linear maps between the two colour spaces undo each other, up to 10^-15 of the largest component; the opacity stays. -/
theorem C73_convert_round_trip (c : Rgba) {k : ℝ} (hr : |c.r| ≤ k) (hg : |c.g| ≤ k) (hb : |c.b| ≤ k) (s t : ColorSpace) :
    Near (k / 10 ^ 15) (convertColor (convertColor c s t) t s) c := by
  obtain ⟨r0, r1⟩ := abs_le.1 hr
  obtain ⟨g0, g1⟩ := abs_le.1 hg
  obtain ⟨b0, b1⟩ := abs_le.1 hb
  have hk : 0 ≤ k := (abs_nonneg _).trans hr
  rcases s with _ | _ <;> rcases t with _ | _
  · simp [convertColor, Near]; positivity
  · simp only [convertColor, Near, Mat3.apply, Mat3.mul, fromXyz, toXyz, kXyzD65ToDisplayP3, kSrgbToXyzD65, kXyzD65ToSrgb, kDisplayP3ToXyzD65,
      reduceCtorEq, if_false]
    refine ⟨?_, ?_, ?_, trivial⟩ <;> (rw [abs_le]; norm_num; constructor <;> linarith)
  · simp only [convertColor, Near, Mat3.apply, Mat3.mul, fromXyz, toXyz, kXyzD65ToDisplayP3, kSrgbToXyzD65, kXyzD65ToSrgb, kDisplayP3ToXyzD65,
      reduceCtorEq, if_false]
    refine ⟨?_, ?_, ?_, trivial⟩ <;> (rw [abs_le]; norm_num; constructor <;> linarith)
  · simp [convertColor, Near]; positivity

/-- A grey is the same grey in the other space, up to 10^-15 of it. -/
theorem C73_white (x a : ℝ) (s t : ColorSpace) : Near (|x| / 10 ^ 15) (convertColor ⟨x, x, x, a⟩ s t) ⟨x, x, x, a⟩ := by
  have hx := neg_abs_le x
  have hx' := le_abs_self x
  rcases s with _ | _ <;> rcases t with _ | _
  · simp [convertColor, Near]; positivity
  · simp only [convertColor, Near, Mat3.apply, Mat3.mul, fromXyz, toXyz, kXyzD65ToDisplayP3, kSrgbToXyzD65, kXyzD65ToSrgb, kDisplayP3ToXyzD65,
      reduceCtorEq, if_false]
    refine ⟨?_, ?_, ?_, trivial⟩ <;> (rw [abs_le]; norm_num; constructor <;> linarith)
  · simp only [convertColor, Near, Mat3.apply, Mat3.mul, fromXyz, toXyz, kXyzD65ToDisplayP3, kSrgbToXyzD65, kXyzD65ToSrgb, kDisplayP3ToXyzD65,
      reduceCtorEq, if_false]
    refine ⟨?_, ?_, ?_, trivial⟩ <;> (rw [abs_le]; norm_num; constructor <;> linarith)
  · simp [convertColor, Near]; positivity

/-- Every colour of sRGB is one of Display P3, up to 10^-15; not the other way. -/
theorem C73_gamut {c : Rgba} (h : InGamut 0 c) : InGamut (1 / 10 ^ 15) (convertColor c .srgb .displayP3) := by
  obtain ⟨⟨r0, r1⟩, ⟨g0, g1⟩, ⟨b0, b1⟩⟩ := h
  simp only [convertColor, InGamut, Mat3.apply, Mat3.mul, fromXyz, toXyz, kXyzD65ToDisplayP3, kSrgbToXyzD65, reduceCtorEq, if_false]
  norm_num at *
  refine ⟨⟨?_, ?_⟩, ⟨?_, ?_⟩, ?_, ?_⟩ <;> linarith

/-- The red of Display P3 is not in sRGB. -/
theorem C73_gamut_counterexample : ∃ c, InGamut 0 c ∧ ¬InGamut (1 / 10) (convertColor c .displayP3 .srgb) := by
  refine ⟨⟨1, 0, 0, 1⟩, by norm_num [InGamut], fun h => ?_⟩
  have := h.1.2
  simp only [convertColor, Mat3.apply, Mat3.mul, fromXyz, toXyz, kXyzD65ToSrgb, kDisplayP3ToXyzD65, reduceCtorEq, if_false] at this
  norm_num at this

/-- The matrices for shaders are the same map in both layouts, and the two matrices of a space undo each other up to 10^-15. -/
theorem C73_matrices (s : ColorSpace) (r g b : ℝ) :
    byColumns (colorSpaceToXyz s .columnMajor) r g b = byRows (colorSpaceToXyz s .rowMajor) r g b ∧
    byColumns (xyzToColorSpace s .columnMajor) r g b = byRows (xyzToColorSpace s .rowMajor) r g b ∧
    (∀ k, |r| ≤ k → |g| ≤ k → |b| ≤ k →
      let p := byColumns (colorSpaceToXyz s .columnMajor) r g b
      let q := byColumns (xyzToColorSpace s .columnMajor) p.1 p.2.1 p.2.2
      |q.1 - r| ≤ k / 10 ^ 15 ∧ |q.2.1 - g| ≤ k / 10 ^ 15 ∧ |q.2.2 - b| ≤ k / 10 ^ 15) := by
  refine ⟨rfl, rfl, fun k hr hg hb => ?_⟩
  obtain ⟨r0, r1⟩ := abs_le.1 hr
  obtain ⟨g0, g1⟩ := abs_le.1 hg
  obtain ⟨b0, b1⟩ := abs_le.1 hb
  rcases s with _ | _ <;>
    simp only [byColumns, colorSpaceToXyz, xyzToColorSpace, Mat3.entries, fromXyz, toXyz, kXyzD65ToDisplayP3, kSrgbToXyzD65, kXyzD65ToSrgb, kDisplayP3ToXyzD65, List.getD_cons_zero, List.getD_cons_succ] <;>
    refine ⟨?_, ?_, ?_⟩ <;> (rw [abs_le]; norm_num; constructor <;> linarith)

/-- The matrices are those of the published primaries, with D65 as the white of luminance 1. -/
theorem C73_primaries (s : ColorSpace) :
    Chromaticity (primaries s).1.1 (primaries s).1.2 (byColumns (colorSpaceToXyz s .columnMajor) 1 0 0) ∧
    Chromaticity (primaries s).2.1.1 (primaries s).2.1.2 (byColumns (colorSpaceToXyz s .columnMajor) 0 1 0) ∧
    Chromaticity (primaries s).2.2.1 (primaries s).2.2.2 (byColumns (colorSpaceToXyz s .columnMajor) 0 0 1) ∧
    Chromaticity 0.31271 0.32902 (byColumns (colorSpaceToXyz s .columnMajor) 1 1 1) ∧
    (byColumns (colorSpaceToXyz s .columnMajor) 1 1 1).2.1 = 1 := by
  rcases s with _ | _ <;>
    simp only [Chromaticity, primaries, byColumns, colorSpaceToXyz, Mat3.entries, toXyz, kSrgbToXyzD65, kDisplayP3ToXyzD65, List.getD_cons_zero,
      List.getD_cons_succ] <;>
    norm_num [abs_le]

/-- Conversion to another space keeps the colour: its coordinates in XYZ stay, up to 10^-14 of the largest component. -/
theorem C73_convert (c : Rgba) {k : ℝ} (hr : |c.r| ≤ k) (hg : |c.g| ≤ k) (hb : |c.b| ≤ k) (s t : ColorSpace) :
    let p := byColumns (colorSpaceToXyz s .columnMajor) c.r c.g c.b
    let e := convertColor c s t
    let q := byColumns (colorSpaceToXyz t .columnMajor) e.r e.g e.b
    |q.1 - p.1| ≤ k / 10 ^ 14 ∧ |q.2.1 - p.2.1| ≤ k / 10 ^ 14 ∧ |q.2.2 - p.2.2| ≤ k / 10 ^ 14 ∧ e.a = c.a := by
  obtain ⟨r0, r1⟩ := abs_le.1 hr
  obtain ⟨g0, g1⟩ := abs_le.1 hg
  obtain ⟨b0, b1⟩ := abs_le.1 hb
  have hk : 0 ≤ k := (abs_nonneg _).trans hr
  rcases s with _ | _ <;> rcases t with _ | _
  · simp [convertColor]; positivity
  · simp only [convertColor, byColumns, colorSpaceToXyz, Mat3.entries, Mat3.apply, Mat3.mul, fromXyz, toXyz, kXyzD65ToDisplayP3, kSrgbToXyzD65,
      kDisplayP3ToXyzD65, reduceCtorEq, if_false, List.getD_cons_zero, List.getD_cons_succ]
    refine ⟨?_, ?_, ?_, trivial⟩ <;> (rw [abs_le]; norm_num; constructor <;> linarith)
  · simp only [convertColor, byColumns, colorSpaceToXyz, Mat3.entries, Mat3.apply, Mat3.mul, fromXyz, toXyz, kSrgbToXyzD65, kXyzD65ToSrgb,
      kDisplayP3ToXyzD65, reduceCtorEq, if_false, List.getD_cons_zero, List.getD_cons_succ]
    refine ⟨?_, ?_, ?_, trivial⟩ <;> (rw [abs_le]; norm_num; constructor <;> linarith)
  · simp [convertColor]; positivity

/-- There are functions as `C73_accurate` asks for: the rounded ones. -/
theorem closeCurves_exist : ∃ E : ColorEnv, CloseCurves E := by
  have near : ∀ y : ℝ, ∃ q : ℚ, |(q : ℝ) - y| < 1 / 10 ^ 40 := fun y => by
    have h0 : (0 : ℝ) < 1 / 10 ^ 40 := by positivity
    obtain ⟨q, h1, h2⟩ := exists_rat_btwn (show y - 1 / 10 ^ 40 < y + 1 / 10 ^ 40 by linarith)
    exact ⟨q, by rw [abs_lt]; constructor <;> linarith⟩
  choose q hq using near
  have close : ∀ y : ℝ, |y| ≤ 100 → Close (F32.ofRat (q y)) y := by
    intro y hy
    have h1 := abs_lt.1 (hq y)
    have h2 := abs_le.1 hy
    have hb : |(q y : ℝ)| ≤ 101 := by rw [abs_le]; norm_num at *; constructor <;> linarith
    have hb' : |q y| ≤ 101 := by exact_mod_cast hb
    have ho : |q y| < F32.ovf := lt_of_le_of_lt hb' (by norm_num [F32.ovf])
    refine ⟨F32.isFinite_ofRat_iff.2 ho, ?_⟩
    rw [F32.toRat_ofRat ho]
    have e := F32.rnd_err (q y)
    have e' : |(F32.rnd (q y) : ℝ) - q y| ≤ 1 / 2 ^ 150 + |(q y : ℝ)| / 2 ^ 24 := by
      have : ((|F32.rnd (q y) - q y| : ℚ) : ℝ) ≤ ((1 / 2 ^ 150 + |q y| / 2 ^ 24 : ℚ) : ℝ) := by
        exact_mod_cast e.trans (max_le_add_of_nonneg (by positivity) (by positivity))
      push_cast at this
      exact this
    have hqy : |(q y : ℝ)| ≤ |y| + 1 / 10 ^ 40 := by
      have := abs_sub_abs_le_abs_sub (q y : ℝ) y
      linarith [hq y]
    have tri : |(F32.rnd (q y) : ℝ) - y| ≤ |(F32.rnd (q y) : ℝ) - q y| + |(q y : ℝ) - y| := abs_sub_le _ _ _
    have := hq y
    norm_num at tri this e' hqy ⊢
    linarith [abs_nonneg y]
  refine ⟨⟨fun x _ => F32.ofRat (q (gammaDecode x.toRat)), fun x _ => F32.ofRat (q (gammaEncode x.toRat)), fun _ _ v => v⟩, fun x s _ l u => ?_⟩
  have l' : (-1 : ℝ) ≤ (x.toRat : ℝ) := by exact_mod_cast l
  have u' : (x.toRat : ℝ) ≤ 2 := by exact_mod_cast u
  have hCD : 0 < kSrgbC * kSrgbD := mul_pos C_pos D_pos
  refine ⟨close _ ?_, close _ ?_⟩
  · unfold gammaDecode
    split_ifs with h
    · rw [abs_le]
      unfold kSrgbC kSrgbD at *
      norm_num at *
      constructor <;> linarith
    · push Not at h
      have h0 := base_nonneg (D_pos.le.trans h)
      rw [abs_of_nonneg (Real.rpow_nonneg h0 _)]
      have hb : kSrgbA * (x.toRat : ℝ) + kSrgbB ≤ 4 := by unfold kSrgbA kSrgbB; norm_num; linarith
      calc (kSrgbA * (x.toRat : ℝ) + kSrgbB) ^ kSrgbG ≤ 4 ^ kSrgbG := Real.rpow_le_rpow h0 hb G_pos.le
        _ ≤ 4 ^ (3 : ℝ) := Real.rpow_le_rpow_of_exponent_le (by norm_num) (by norm_num [kSrgbG])
        _ ≤ 100 := by norm_num
  · unfold gammaEncode
    split_ifs with h
    · rw [abs_le]
      unfold kSrgbC kSrgbD at *
      norm_num at *
      constructor <;> linarith
    · push Not at h
      have h0 : 0 ≤ (x.toRat : ℝ) := hCD.le.trans h
      have r2 := root_le h0 u'
      have r0 := Real.rpow_nonneg h0 (1 / kSrgbG)
      rw [abs_le]
      unfold kSrgbA kSrgbB
      norm_num at *
      constructor <;> linarith

example : Color.Bytes ⟨200, 3, 255, 7⟩ := by unfold Color.Bytes; decide

example : gammaEncode (gammaDecode 0.5) = 0.5 ∧ gammaDecode 0.5 < 0.5 := by
  refine ⟨C73_round_trip _, ?_⟩
  have : gammaDecode 0.5 = powDecode 0.5 := if_neg (by norm_num [kSrgbD])
  rw [this]
  apply powDecode_lt_of (by norm_num) (by norm_num)
  norm_num [kSrgbA, kSrgbB]

end Verif.ColorCurve
