import Verif.Spec.Circle

/-!
# Lemmas about directions and circles (C57, C58)
-/

set_option autoImplicit false

namespace Verif.RealGeom

open Verif.RealGeom.Spec Real

/-! ## Normalised angles -/

theorem trunc_spec (x : ℝ) : |x - trunc x| < 1 := by
  unfold trunc
  split
  · rw [abs_lt]; constructor <;> linarith [Int.floor_le x, Int.lt_floor_add_one x]
  · rw [abs_lt]; constructor <;> linarith [Int.le_ceil x, Int.ceil_lt_add_one x]

theorem trunc_int (k : ℤ) : trunc (k : ℝ) = k := by
  unfold trunc
  split <;> simp

theorem normalized_spec (a : ℝ) : Normal (Angle.normalizedAboutZero a) ∧ SameAngle (Angle.normalizedAboutZero a) a := by
  have hpi := Real.pi_pos
  have h := trunc_spec (a / (2 * π))
  have hm : |fmod a (2 * π)| < 2 * π := by
    unfold fmod
    have e : a - trunc (a / (2 * π)) * (2 * π) = (a / (2 * π) - trunc (a / (2 * π))) * (2 * π) := by field_simp
    rw [e, abs_mul, abs_of_pos (by linarith : (0 : ℝ) < 2 * π)]
    calc _ < 1 * (2 * π) := mul_lt_mul_of_pos_right h (by linarith)
      _ = _ := one_mul _
  have hk : fmod a (2 * π) = a + (-trunc (a / (2 * π)) : ℤ) * (2 * π) := by unfold fmod; push_cast; ring
  obtain ⟨h1, h2⟩ := abs_lt.1 hm
  unfold Angle.normalizedAboutZero Normal SameAngle
  dsimp only
  split_ifs with c1 c2
  · exact ⟨⟨by linarith, by linarith⟩, -trunc (a / (2 * π)) - 1, by rw [hk]; push_cast; ring⟩
  · exact ⟨⟨by linarith, by linarith⟩, -trunc (a / (2 * π)) + 1, by rw [hk]; push_cast; ring⟩
  · exact ⟨⟨by linarith, by linarith⟩, -trunc (a / (2 * π)), hk⟩

theorem normal_unique {a b : ℝ} (ha : Normal a) (hb : Normal b) (h : SameAngle a b) : a = b := by
  obtain ⟨k, e⟩ := h
  have hpi := Real.pi_pos
  have h1 : (k : ℝ) * (2 * π) < 1 * (2 * π) := by linarith [ha.2, hb.1]
  have h2 : (-1 : ℝ) * (2 * π) < k * (2 * π) := by linarith [ha.1, hb.2]
  have h3 : (k : ℝ) < 1 := lt_of_mul_lt_mul_right h1 (by linarith)
  have h4 : (-1 : ℝ) < k := lt_of_mul_lt_mul_right h2 (by linarith)
  have h5 : k < 1 := by exact_mod_cast h3
  have h6 : -1 < k := by exact_mod_cast h4
  have : k = 0 := by omega
  subst this
  simpa using e

theorem SameAngle.symm {a b : ℝ} (h : SameAngle a b) : SameAngle b a := by
  obtain ⟨k, e⟩ := h
  exact ⟨-k, by rw [e]; push_cast; ring⟩

theorem SameAngle.trans {a b c : ℝ} (h : SameAngle a b) (h' : SameAngle b c) : SameAngle a c := by
  obtain ⟨k, e⟩ := h
  obtain ⟨l, f⟩ := h'
  exact ⟨k + l, by rw [e, f]; push_cast; ring⟩

theorem SameAngle.cos {a b : ℝ} (h : SameAngle a b) : Real.cos a = Real.cos b := by
  obtain ⟨k, e⟩ := h; rw [e, Real.cos_add_int_mul_two_pi]

theorem SameAngle.sin {a b : ℝ} (h : SameAngle a b) : Real.sin a = Real.sin b := by
  obtain ⟨k, e⟩ := h; rw [e, Real.sin_add_int_mul_two_pi]

theorem sameAngle_of {a b : ℝ} (hc : Real.cos a = Real.cos b) (hs : Real.sin a = Real.sin b) : SameAngle a b := by
  obtain ⟨k, e⟩ := (Real.Angle.angle_eq_iff_two_pi_dvd_sub (ψ := b) (θ := a)).1 (Real.Angle.cos_sin_inj hc hs)
  exact ⟨k, by linarith⟩

theorem cos_normalized (a : ℝ) : Real.cos (Angle.normalizedAboutZero a) = Real.cos a := SameAngle.cos (normalized_spec a).2

theorem sin_normalized (a : ℝ) : Real.sin (Angle.normalizedAboutZero a) = Real.sin a := SameAngle.sin (normalized_spec a).2

/-! ## Vectors -/

theorem magnitude_eq (v : ℂ) : Vec.magnitude v = ‖v‖ := by
  unfold Vec.magnitude
  rw [Complex.norm_def, Complex.normSq_apply]

theorem normal_direction (v : ℂ) : Normal (Vec.direction v) := ⟨Complex.neg_pi_lt_arg v, Complex.arg_le_pi v⟩

theorem re_eq (v : ℂ) : v.re = ‖v‖ * Real.cos (Vec.direction v) := (Complex.norm_mul_cos_arg v).symm

theorem im_eq (v : ℂ) : v.im = ‖v‖ * Real.sin (Vec.direction v) := (Complex.norm_mul_sin_arg v).symm

theorem from_direction (v : ℂ) : Vec.fromDirectionAndMagnitude (Vec.direction v) (Vec.magnitude v) = v := by
  apply Complex.ext
  · show Vec.magnitude v * _ = _
    rw [magnitude_eq]; exact (re_eq v).symm
  · show Vec.magnitude v * _ = _
    rw [magnitude_eq]; exact (im_eq v).symm

theorem from_eq (a m : ℝ) : Vec.fromDirectionAndMagnitude a m = m * (Complex.cos a + Complex.sin a * Complex.I) := by
  apply Complex.ext
  · simp [Vec.fromDirectionAndMagnitude, ← Complex.ofReal_cos, ← Complex.ofReal_sin]
  · simp [Vec.fromDirectionAndMagnitude, ← Complex.ofReal_cos, ← Complex.ofReal_sin]

theorem norm_from (a m : ℝ) : ‖Vec.fromDirectionAndMagnitude a m‖ = |m| := by
  rw [from_eq, norm_mul, Complex.norm_cos_add_sin_mul_I, mul_one, Complex.norm_real, Real.norm_eq_abs]

theorem direction_from (a m : ℝ) (hm : 0 < m) : Vec.direction (Vec.fromDirectionAndMagnitude a m) = Angle.normalizedAboutZero a := by
  have e : Vec.fromDirectionAndMagnitude a m = Vec.fromDirectionAndMagnitude (Angle.normalizedAboutZero a) m := by
    unfold Vec.fromDirectionAndMagnitude
    rw [cos_normalized, sin_normalized]
  rw [e, from_eq]
  exact Complex.arg_mul_cos_add_sin_mul_I hm (normalized_spec a).1

theorem unit_eq (v : ℂ) : Vec.asUnitVec v = Vec.fromDirectionAndMagnitude (Vec.direction v) 1 := by
  unfold Vec.asUnitVec
  split_ifs with h
  · have hv : v = 0 := Complex.ext h.1 h.2
    subst hv
    apply Complex.ext <;> simp [Vec.fromDirectionAndMagnitude, Vec.direction]
  · have hv : v ≠ 0 := fun e => h (by subst e; simp)
    have hn : ‖v‖ ≠ 0 := norm_ne_zero_iff.2 hv
    have hs : Vec.magnitude ⟨1 / 2 * v.re, 1 / 2 * v.im⟩ = 1 / 2 * ‖v‖ := by
      rw [magnitude_eq]
      have : (⟨1 / 2 * v.re, 1 / 2 * v.im⟩ : ℂ) = ((1 / 2 : ℝ) : ℂ) * v := by
        apply Complex.ext <;> simp
      rw [this, norm_mul, Complex.norm_real]
      norm_num
    dsimp only
    rw [hs]
    apply Complex.ext
    · show 1 / 2 * v.re / (1 / 2 * ‖v‖) = 1 * Real.cos (Vec.direction v)
      rw [re_eq v]; field_simp
    · show 1 / 2 * v.im / (1 / 2 * ‖v‖) = 1 * Real.sin (Vec.direction v)
      rw [im_eq v]; field_simp

theorem dot_eq (a b : ℂ) : Vec.dotProduct a b = ‖a‖ * ‖b‖ * Real.cos (Vec.direction b - Vec.direction a) := by
  unfold Vec.dotProduct
  rw [re_eq a, re_eq b, im_eq a, im_eq b, Real.cos_sub]; ring

theorem det_eq (a b : ℂ) : Vec.determinant a b = ‖a‖ * ‖b‖ * Real.sin (Vec.direction b - Vec.direction a) := by
  unfold Vec.determinant
  rw [re_eq a, re_eq b, im_eq a, im_eq b, Real.sin_sub]; ring

theorem clamp_of_mem {x lo hi : ℝ} (h1 : lo ≤ x) (h2 : x ≤ hi) : clamp x lo hi = x := by
  unfold clamp; rw [if_neg (not_lt.2 h1), if_neg (not_lt.2 h2)]

theorem direction_unit (v : ℂ) : Vec.direction (Vec.asUnitVec v) = Vec.direction v := by
  rw [unit_eq, direction_from _ _ one_pos]
  exact normal_unique (normalized_spec _).1 (normal_direction v) (normalized_spec _).2

theorem norm_unit (v : ℂ) : ‖Vec.asUnitVec v‖ = 1 := by rw [unit_eq, norm_from, abs_one]

theorem arccos_dot (a b : ℂ) : Real.arccos (clamp (Vec.dotProduct (Vec.asUnitVec a) (Vec.asUnitVec b)) (-1) 1) =
    |Angle.normalizedAboutZero (Vec.direction b - Vec.direction a)| := by
  rw [dot_eq, norm_unit, norm_unit, direction_unit, direction_unit, one_mul, one_mul,
    clamp_of_mem (Real.neg_one_le_cos _) (Real.cos_le_one _), ← cos_normalized, ← Real.cos_abs]
  obtain ⟨⟨h1, h2⟩, -⟩ := normalized_spec (Vec.direction b - Vec.direction a)
  exact Real.arccos_cos (abs_nonneg _) (abs_le.2 ⟨h1.le, h2⟩)

theorem signed_eq (a b : ℂ) : Vec.signedAngleBetween a b = Angle.normalizedAboutZero (Vec.direction b - Vec.direction a) := by
  unfold Vec.signedAngleBetween
  dsimp only
  rw [arccos_dot, det_eq, norm_unit, norm_unit, direction_unit, direction_unit, one_mul, one_mul, ← sin_normalized]
  obtain ⟨⟨h1, h2⟩, -⟩ := normalized_spec (Vec.direction b - Vec.direction a)
  generalize Angle.normalizedAboutZero (Vec.direction b - Vec.direction a) = δ at h1 h2 ⊢
  by_cases hd : 0 ≤ δ
  · rw [if_pos (Or.inr (Real.sin_nonneg_of_nonneg_of_le_pi hd h2)), abs_of_nonneg hd]
  · have hd' : δ < 0 := not_le.1 hd
    have hs := Real.sin_neg_of_neg_of_neg_pi_lt hd' h1
    rw [abs_of_neg hd', if_neg (by rintro (h | h) <;> linarith), neg_neg]

/-! ## Arcs -/

theorem getPoint_eq (c : Circle) (a : ℝ) : c.getPoint a = c.center + c.radius * (Complex.cos a + Complex.sin a * Complex.I) := by
  unfold Circle.getPoint; rw [from_eq]

theorem chordHeight_eq (c : Circle) (a b : ℝ) : chordHeight c a b = |c.radius| * (1 - Real.cos ((b - a) / 2)) := by
  have e : c.getPoint ((a + b) / 2) - (c.getPoint a + c.getPoint b) / 2 =
      Vec.fromDirectionAndMagnitude ((a + b) / 2) (c.radius * (1 - Real.cos ((b - a) / 2))) := by
    have ha : a = (a + b) / 2 - (b - a) / 2 := by ring
    have hb : b = (a + b) / 2 + (b - a) / 2 := by ring
    generalize (a + b) / 2 = m at ha hb ⊢
    generalize (b - a) / 2 = d at ha hb ⊢
    subst ha
    subst hb
    unfold Circle.getPoint Vec.fromDirectionAndMagnitude
    apply Complex.ext
    · simp only [Complex.sub_re, Complex.add_re, Complex.div_ofNat_re, Real.cos_sub, Real.cos_add]; ring
    · simp only [Complex.sub_im, Complex.add_im, Complex.div_ofNat_im, Real.sin_sub, Real.sin_add]; ring
  unfold chordHeight
  rw [e, norm_from, abs_mul, abs_of_nonneg (a := 1 - _) (by linarith [Real.cos_le_one ((b - a) / 2)])]

theorem arcAngle_pos {c : Circle} {h : ℝ} (hr : 0 < c.radius) (hh : 0 < h) :
    0 < c.getArcAngleForChordHeight h ∧ c.getArcAngleForChordHeight h ≤ 2 * π := by
  unfold Circle.getArcAngleForChordHeight
  rw [if_neg hr.ne']
  constructor
  · have : 0 < h / c.radius := div_pos hh hr
    have : clamp (1 - h / c.radius) (-1) 1 < 1 := by
      unfold clamp; split_ifs <;> linarith
    linarith [Real.arccos_pos.2 this]
  · linarith [Real.arccos_le_pi (clamp (1 - h / c.radius) (-1) 1)]

/-- A step is small enough exactly if its chord height is. -/
theorem step_iff {c : Circle} {h φ : ℝ} (hr : 0 < c.radius) (hh : 0 < h) (hφ : 0 ≤ φ) :
    φ ≤ c.getArcAngleForChordHeight h ↔ φ ≤ 2 * π ∧ c.radius * (1 - Real.cos (φ / 2)) ≤ h := by
  have key : c.radius * (1 - Real.cos (φ / 2)) ≤ h ↔ 1 - h / c.radius ≤ Real.cos (φ / 2) := by
    rw [sub_le_comm, le_div_iff₀ hr, mul_comm]
  constructor
  · intro hle
    have h2 := hle.trans (arcAngle_pos hr hh).2
    refine ⟨h2, key.2 ?_⟩
    unfold Circle.getArcAngleForChordHeight at hle
    rw [if_neg hr.ne'] at hle
    have h3 : φ / 2 ≤ Real.arccos (clamp (1 - h / c.radius) (-1) 1) := by linarith
    have h4 := Real.cos_le_cos_of_nonneg_of_le_pi (by linarith : 0 ≤ φ / 2) (Real.arccos_le_pi _) h3
    have h5 : 0 < h / c.radius := div_pos hh hr
    have hc : -1 ≤ clamp (1 - h / c.radius) (-1) 1 ∧ clamp (1 - h / c.radius) (-1) 1 ≤ 1 ∧ 1 - h / c.radius ≤ clamp (1 - h / c.radius) (-1) 1 := by
      unfold clamp; split_ifs <;> refine ⟨?_, ?_, ?_⟩ <;> linarith
    rw [Real.cos_arccos hc.1 hc.2.1] at h4
    linarith [hc.2.2]
  · rintro ⟨h2, h3⟩
    rw [key] at h3
    unfold Circle.getArcAngleForChordHeight
    rw [if_neg hr.ne']
    have h5 : 0 < h / c.radius := div_pos hh hr
    have hc : clamp (1 - h / c.radius) (-1) 1 ≤ Real.cos (φ / 2) := by
      unfold clamp
      have := Real.neg_one_le_cos (φ / 2)
      split_ifs <;> linarith
    have h6 := Real.arccos_le_arccos hc
    rw [Real.arccos_cos (by linarith) (by linarith)] at h6
    linarith

theorem steps_spec (a m : ℝ) : 1 ≤ Circle.steps a m ∧ Circle.steps a m ≤ 32767 ∧
    (|a / m| ≤ Circle.steps a m ∨ Circle.steps a m = 32767) ∧ ∀ n : ℕ, 1 ≤ n → |a / m| ≤ n → Circle.steps a m ≤ n := by
  have e : Circle.steps a m = (if ⌈|a / m|⌉ < 1 then 1 else if 32767 < ⌈|a / m|⌉ then 32767 else ⌈|a / m|⌉ : ℤ).toNat := by
    unfold Circle.steps
    have h : clamp (⌈|a / m|⌉ : ℤ) 1 32767 = ((if ⌈|a / m|⌉ < 1 then 1 else if 32767 < ⌈|a / m|⌉ then 32767 else ⌈|a / m|⌉ : ℤ) : ℝ) := by
      unfold clamp
      have h1 : ((⌈|a / m|⌉ : ℤ) : ℝ) < 1 ↔ ⌈|a / m|⌉ < 1 := by exact_mod_cast Iff.rfl
      have h2 : (32767 : ℝ) < ((⌈|a / m|⌉ : ℤ) : ℝ) ↔ 32767 < ⌈|a / m|⌉ := by exact_mod_cast Iff.rfl
      simp only [h1, h2]
      split_ifs <;> norm_num
    rw [h, trunc_int]
  have hc := Int.le_ceil |a / m|
  have hn : ∀ n : ℕ, |a / m| ≤ n → ⌈|a / m|⌉ ≤ n := fun n h => Int.ceil_le.2 (by exact_mod_cast h)
  generalize ⌈|a / m|⌉ = z at e hc hn
  rw [e]
  split_ifs with h1 h2
  · refine ⟨by simp, by simp, Or.inl ?_, fun n h _ => by simpa using h⟩
    have : (z : ℝ) < 1 := by exact_mod_cast h1
    have h' : |a / m| ≤ 1 := by linarith
    simpa using h'
  · refine ⟨by simp, by simp, Or.inr (by simp), fun n _ h => ?_⟩
    have := hn n h
    have h3 : (32767 : ℤ).toNat = 32767 := rfl
    rw [h3]; omega
  · refine ⟨by omega, by omega, Or.inl ?_, fun n _ h => ?_⟩
    · have : ((z.toNat : ℕ) : ℝ) = (z : ℝ) := by
        have h3 : ((z.toNat : ℕ) : ℤ) = z := Int.toNat_of_nonneg (by omega)
        exact_mod_cast h3
      rw [this]; exact hc
    · have := hn n h
      omega

theorem arcLoop_spec (c : Circle) (start d : ℝ) (n : ℕ) : ∀ (l : List ℂ) (i : ℕ),
    Circle.arcLoop c start d l i n = l ++ (List.range n).map fun j => c.getPoint (start + ((i + j : ℕ) : ℝ) * d) := by
  induction n with
  | zero => intro l i; simp [Circle.arcLoop]
  | succ n ih =>
    intro l i
    rw [Circle.arcLoop, ih, List.range_succ_eq_map, List.map_cons, List.map_map, List.append_assoc, List.singleton_append]
    congr 2
    apply List.map_congr_left
    intro j _
    simp only [Function.comp, Nat.succ_eq_add_one]
    congr 3
    push_cast; ring

/-- The points that are appended. -/
theorem append_spec {c : Circle} {start arc h : ℝ} {l : List ℂ} (hr : 0 ≤ c.radius) (hh : 0 < h) :
    ∃ n : ℕ, c.appendArcToPolyline start arc h l = some (l ++ (List.range (n + 1)).map fun i : ℕ => c.getPoint (start + (i : ℝ) * (arc / n))) ∧
      1 ≤ n ∧ n ≤ 32767 ∧ (Enough c start arc h n ∨ n = 32767 ∨ c.radius = 0) ∧ ∀ m, Enough c start arc h m → n ≤ m := by
  unfold Circle.appendArcToPolyline
  rw [if_pos hh]
  by_cases h0 : c.radius = 0
  · refine ⟨1, ?_, le_refl _, by norm_num, Or.inr (Or.inr h0), fun m hm => hm.1⟩
    rw [if_pos h0]
    have : ∀ a, c.getPoint a = c.center := fun a => by rw [getPoint_eq, h0]; simp
    simp [this, List.range_succ]
  · have hr' : 0 < c.radius := lt_of_le_of_ne hr (Ne.symm h0)
    rw [if_neg h0]
    dsimp only
    obtain ⟨s1, s2, s3, s4⟩ := steps_spec arc (c.getArcAngleForChordHeight h)
    obtain ⟨a1, a2⟩ := arcAngle_pos hr' hh
    have hle : ∀ n : ℕ, 1 ≤ n → (|arc / c.getArcAngleForChordHeight h| ≤ n ↔ Enough c start arc h n) := by
      intro n hn
      have hn' : (0 : ℝ) < n := by exact_mod_cast hn
      rw [abs_div, abs_of_pos a1, div_le_iff₀ a1, mul_comm, ← div_le_iff₀ hn', step_iff hr' hh (by positivity)]
      have hc : ∀ i : ℕ, chordHeight c (start + i * (arc / n)) (start + (i + 1) * (arc / n)) = c.radius * (1 - Real.cos (|arc| / n / 2)) := by
        intro i
        rw [chordHeight_eq, abs_of_pos hr']
        have : (start + (i + 1) * (arc / n) - (start + i * (arc / n))) / 2 = arc / n / 2 := by ring
        rw [this, ← Real.cos_abs (arc / n / 2), abs_div, abs_div, abs_of_pos hn', abs_of_pos (by norm_num : (0 : ℝ) < 2)]
      unfold Enough
      constructor
      · rintro ⟨b1, b2⟩; exact ⟨hn, b1, fun i _ => by rw [hc]; exact b2⟩
      · rintro ⟨-, b1, b2⟩; exact ⟨b1, by rw [← hc 0]; exact b2 0 hn⟩
    generalize Circle.steps arc (c.getArcAngleForChordHeight h) = n at s1 s2 s3 s4 ⊢
    refine ⟨n, ?_, s1, s2, ?_, fun m hm => s4 m hm.1 ((hle m hm.1).2 hm)⟩
    · rw [arcLoop_spec]
      obtain ⟨k, rfl⟩ : ∃ k, n = k + 1 := ⟨n - 1, by omega⟩
      rw [Nat.add_sub_cancel, List.range_succ (n := k + 1), List.map_append, List.range_succ_eq_map, List.map_cons, List.map_map]
      have e1 : start + ((0 : ℕ) : ℝ) * (arc / ((k + 1 : ℕ) : ℝ)) = start := by simp
      have e2 : start + ((k + 1 : ℕ) : ℝ) * (arc / ((k + 1 : ℕ) : ℝ)) = start + arc := by
        rw [mul_div_cancel₀]; exact_mod_cast Nat.succ_ne_zero k
      have e3 : (List.range k).map (fun j => c.getPoint (start + ((1 + j : ℕ) : ℝ) * (arc / ((k + 1 : ℕ) : ℝ)))) =
          (List.range k).map ((fun i : ℕ => c.getPoint (start + (i : ℝ) * (arc / ((k + 1 : ℕ) : ℝ)))) ∘ Nat.succ) := by
        apply List.map_congr_left
        intro j _
        simp only [Function.comp, Nat.succ_eq_add_one, Nat.add_comm 1 j]
      rw [e1, e3]
      simp only [List.map_cons, List.map_nil, e2, List.append_assoc, List.cons_append, List.nil_append]
    · rcases s3 with s3 | s3
      · exact Or.inl ((hle n s1).1 s3)
      · exact Or.inr (Or.inl s3)

/-- All of an arc is near its chord. -/
theorem arc_near {c : Circle} {a b h : ℝ} (hr : 0 ≤ c.radius) (hb : |b - a| ≤ 2 * π) (hh : chordHeight c a b ≤ h) {t : ℝ} (ht0 : 0 ≤ t)
    (ht1 : t ≤ 1) : ∃ z, OnSegment (c.getPoint a) (c.getPoint b) z ∧ ‖c.getPoint (a + t * (b - a)) - z‖ ≤ h := by
  rw [chordHeight_eq, abs_of_nonneg hr] at hh
  obtain ⟨m, β, rfl, rfl⟩ : ∃ m β, a = m - β ∧ b = m + β := ⟨(a + b) / 2, (b - a) / 2, by ring, by ring⟩
  have e0 : (m + β - (m - β)) / 2 = β := by ring
  rw [e0] at hh
  have hβ : |β| ≤ π := by
    have : m + β - (m - β) = 2 * β := by ring
    rw [this, abs_mul, abs_two] at hb; linarith
  have e1 : m - β + t * (m + β - (m - β)) = m + (2 * t - 1) * β := by ring
  rw [e1]
  have hα : |(2 * t - 1) * β| ≤ |β| := by
    rw [abs_mul]
    have : |2 * t - 1| ≤ 1 := abs_le.2 ⟨by linarith, by linarith⟩
    calc _ ≤ 1 * |β| := mul_le_mul_of_nonneg_right this (abs_nonneg _)
      _ = _ := one_mul _
  have dist : ∀ (α s : ℝ), ‖c.getPoint (m + α) - (c.getPoint (m - β) + s * (c.getPoint (m + β) - c.getPoint (m - β)))‖ ^ 2 =
      c.radius ^ 2 * ((Real.cos α - Real.cos β) ^ 2 + (Real.sin α - (2 * s - 1) * Real.sin β) ^ 2) := by
    intro α s
    rw [← Complex.normSq_eq_norm_sq, Complex.normSq_apply]
    simp only [Circle.getPoint, Vec.fromDirectionAndMagnitude, Complex.sub_re, Complex.add_re, Complex.sub_im, Complex.add_im, Complex.mul_re,
      Complex.mul_im, Complex.ofReal_re, Complex.ofReal_im, Real.cos_add, Real.cos_sub, Real.sin_add, Real.sin_sub]
    have := Real.sin_sq_add_cos_sq m
    have hs : Real.sin m ^ 2 = 1 - Real.cos m ^ 2 := by linarith
    ring_nf
    rw [hs]
    ring
  have hcos : Real.cos β ≤ 1 := Real.cos_le_one β
  have hR : 0 ≤ c.radius * (1 - Real.cos β) := mul_nonneg hr (by linarith)
  have fin : ∀ (α s : ℝ), (Real.cos α - Real.cos β) ^ 2 + (Real.sin α - (2 * s - 1) * Real.sin β) ^ 2 ≤ (1 - Real.cos β) ^ 2 →
      ‖c.getPoint (m + α) - (c.getPoint (m - β) + s * (c.getPoint (m + β) - c.getPoint (m - β)))‖ ≤ h := by
    intro α s hle
    refine le_trans (abs_le_of_sq_le_sq' ?_ hR).2 hh
    rw [dist, mul_pow]
    exact mul_le_mul_of_nonneg_left hle (sq_nonneg _)
  have hcc : Real.cos β ≤ Real.cos ((2 * t - 1) * β) := by
    rw [← Real.cos_abs β, ← Real.cos_abs ((2 * t - 1) * β)]
    exact Real.cos_le_cos_of_nonneg_of_le_pi (abs_nonneg _) hβ hα
  by_cases hs : |Real.sin ((2 * t - 1) * β)| ≤ |Real.sin β|
  · -- the projection to the chord
    obtain ⟨s, hs0, hs1, hs2⟩ : ∃ s : ℝ, 0 ≤ s ∧ s ≤ 1 ∧ Real.sin ((2 * t - 1) * β) = (2 * s - 1) * Real.sin β := by
      by_cases h0 : Real.sin β = 0
      · rw [h0, abs_zero] at hs
        exact ⟨0, le_refl _, zero_le_one, by rw [h0, mul_zero]; exact abs_nonpos_iff.1 hs⟩
      · have hq : |Real.sin ((2 * t - 1) * β) / Real.sin β| ≤ 1 := by
          rw [abs_div]; exact div_le_one_of_le₀ hs (abs_nonneg _)
        obtain ⟨q1, q2⟩ := abs_le.1 hq
        refine ⟨(Real.sin ((2 * t - 1) * β) / Real.sin β + 1) / 2, by linarith, by linarith, ?_⟩
        field_simp; ring
    refine ⟨_, ⟨s, hs0, hs1, rfl⟩, fin _ _ ?_⟩
    rw [← hs2, sub_self]
    have := Real.cos_le_one ((2 * t - 1) * β)
    nlinarith
  · -- the nearest end
    have hs' := not_le.1 hs
    have absSin : ∀ x : ℝ, |x| ≤ π → |Real.sin x| = Real.sin |x| := by
      intro x hx
      rcases abs_cases x with ⟨h1, h2⟩ | ⟨h1, h2⟩
      · rw [h1, abs_of_nonneg (Real.sin_nonneg_of_nonneg_of_le_pi h2 (by rw [← h1]; exact hx))]
      · rw [h1, Real.sin_neg, abs_of_nonpos]
        have := Real.sin_nonneg_of_nonneg_of_le_pi (x := -x) (by linarith) (by rw [← h1]; exact hx)
        rw [Real.sin_neg] at this; linarith
    rw [absSin _ hβ, absSin _ (hα.trans hβ)] at hs'
    have hA0 := abs_nonneg ((2 * t - 1) * β)
    have hcosB : Real.cos β = Real.cos |β| := (Real.cos_abs β).symm
    have main : ∀ x y : ℝ, Real.cos (x - y) = Real.cos (|β| - |(2 * t - 1) * β|) → Real.cos y = Real.cos β →
        (Real.cos x - Real.cos β) ^ 2 + (Real.sin x - Real.sin y) ^ 2 ≤ (1 - Real.cos β) ^ 2 := by
      intro x y hxy hy
      have e : (Real.cos x - Real.cos β) ^ 2 + (Real.sin x - Real.sin y) ^ 2 = 2 - 2 * Real.cos (x - y) := by
        rw [← hy, Real.cos_sub]
        have h1 := Real.sin_sq_add_cos_sq x
        have h2 := Real.sin_sq_add_cos_sq y
        linear_combination h1 + h2
      rw [e, hxy, hcosB]
      generalize |(2 * t - 1) * β| = A at *
      generalize |β| = B at *
      have hB2 : π / 2 < B := by
        by_contra hcon
        have := Real.sin_le_sin_of_le_of_le_pi_div_two (x := A) (y := B) (by linarith [Real.pi_pos]) (by linarith) hα
        linarith
      have hA2 : π - B < A := by
        by_contra hcon
        have := Real.sin_le_sin_of_le_of_le_pi_div_two (x := A) (y := π - B) (by linarith [Real.pi_pos]) (by linarith) (by linarith)
        rw [Real.sin_pi_sub] at this
        linarith
      have h1 : Real.cos (2 * B - π) ≤ Real.cos (B - A) :=
        Real.cos_le_cos_of_nonneg_of_le_pi (by linarith) (by linarith) (by linarith)
      rw [Real.cos_sub_pi, Real.cos_two_mul] at h1
      have h2 := Real.neg_one_le_cos B
      have h3 : Real.cos B ≤ 0 := Real.cos_nonpos_of_pi_div_two_le_of_le hB2.le (by linarith [Real.pi_pos])
      nlinarith
    by_cases ht : 1 / 2 ≤ t
    · refine ⟨_, ⟨1, zero_le_one, le_refl _, rfl⟩, fin _ _ ?_⟩
      have e : (2 * (1 : ℝ) - 1) * Real.sin β = Real.sin β := by ring
      rw [e]
      refine main _ _ ?_ rfl
      rw [abs_mul, abs_of_nonneg (by linarith : 0 ≤ 2 * t - 1), ← Real.cos_abs]
      have : |β| - (2 * t - 1) * |β| = 2 * (1 - t) * |β| := by ring
      rw [this]
      have h2 : (2 * t - 1) * β - β = -(2 * (1 - t) * β) := by ring
      rw [h2, abs_neg, abs_mul, abs_of_nonneg (by linarith : 0 ≤ 2 * (1 - t))]
    · refine ⟨_, ⟨0, le_refl _, zero_le_one, rfl⟩, fin _ _ ?_⟩
      have e : (2 * (0 : ℝ) - 1) * Real.sin β = Real.sin (-β) := by rw [Real.sin_neg]; ring
      rw [e]
      refine main _ _ ?_ (Real.cos_neg β)
      rw [abs_mul, abs_of_neg (by linarith : 2 * t - 1 < 0), ← Real.cos_abs]
      have : |β| - -(2 * t - 1) * |β| = 2 * t * |β| := by ring
      rw [this]
      have h2 : (2 * t - 1) * β - -β = 2 * t * β := by ring
      rw [h2, abs_mul, abs_of_nonneg (by linarith : 0 ≤ 2 * t)]

/-! ## Discs and tangents -/

theorem contains_iff {c d : Circle} (hd : 0 ≤ d.radius) : c.Contains d ↔ ∀ p, InDisc d p → InDisc c p := by
  unfold Circle.Contains InDisc
  rw [magnitude_eq]
  constructor
  · intro h p hp
    calc ‖p - c.center‖ = ‖(p - d.center) + (d.center - c.center)‖ := by congr 1; ring
      _ ≤ ‖p - d.center‖ + ‖d.center - c.center‖ := norm_add_le _ _
      _ ≤ c.radius := by linarith
  · intro h
    have hv := from_direction (d.center - c.center)
    rw [magnitude_eq] at hv
    have hp := h (d.center + Vec.fromDirectionAndMagnitude (Vec.direction (d.center - c.center)) d.radius)
      (by rw [add_sub_cancel_left, norm_from, abs_of_nonneg hd])
    have e : d.center + Vec.fromDirectionAndMagnitude (Vec.direction (d.center - c.center)) d.radius - c.center =
        Vec.fromDirectionAndMagnitude (Vec.direction (d.center - c.center)) (‖d.center - c.center‖ + d.radius) := by
      have : ∀ x y z : ℝ, Vec.fromDirectionAndMagnitude x (y + z) = Vec.fromDirectionAndMagnitude x y + Vec.fromDirectionAndMagnitude x z := by
        intro x y z
        apply Complex.ext <;> simp only [Vec.fromDirectionAndMagnitude, Complex.add_re, Complex.add_im] <;> ring
      rw [this, hv]; ring
    rw [e, norm_from, abs_of_nonneg (add_nonneg (norm_nonneg _) hd)] at hp
    exact hp

theorem along_add (θ : ℝ) (p q : ℂ) : along θ (p + q) = along θ p + along θ q := by
  unfold along; rw [Complex.add_re, Complex.add_im]; ring

theorem along_eq (θ : ℝ) (v : ℂ) : along θ v = ‖v‖ * Real.cos (θ - Vec.direction v) := by
  unfold along
  rw [re_eq v, im_eq v, Real.cos_sub]; ring

theorem along_le (θ : ℝ) (v : ℂ) : along θ v ≤ ‖v‖ := by
  rw [along_eq]
  calc _ ≤ ‖v‖ * 1 := mul_le_mul_of_nonneg_left (Real.cos_le_one _) (norm_nonneg _)
    _ = _ := mul_one _

theorem along_getPoint (c : Circle) (θ : ℝ) : along θ (c.getPoint θ) = along θ c.center + c.radius := by
  unfold Circle.getPoint
  rw [along_add]
  congr 1
  unfold along Vec.fromDirectionAndMagnitude
  have := Real.sin_sq_add_cos_sq θ
  dsimp only
  linear_combination c.radius * this

theorem along_disc {c : Circle} {p : ℂ} (θ : ℝ) (hp : InDisc c p) : along θ p ≤ along θ c.center + c.radius := by
  have e : p = c.center + (p - c.center) := by ring
  rw [e, along_add]
  linarith [along_le θ (p - c.center), show ‖p - c.center‖ ≤ c.radius from hp]

theorem tangent_iff (c d : Circle) (θ : ℝ) : ExteriorTangent c d θ ↔ along θ (d.center - c.center) = c.radius - d.radius := by
  have e : along θ d.center = along θ c.center + along θ (d.center - c.center) := by
    rw [← along_add]; congr 1; ring
  unfold ExteriorTangent
  constructor
  · rintro ⟨k, h1, h2, -, -⟩
    rw [along_getPoint] at h1 h2
    linarith
  · intro h
    refine ⟨_, rfl, ?_, fun p hp => ?_, fun p hp => ?_⟩
    · rw [along_getPoint, along_getPoint]; linarith
    · rw [along_getPoint]; exact along_disc θ hp
    · rw [along_getPoint]; linarith [along_disc θ hp]

theorem none_iff (c d : Circle) :
    c.getTangentAngles d = none ↔ c.Contains d ∨ d.Contains c := by
  unfold Circle.getTangentAngles Circle.Contains
  have e : Vec.magnitude (c.center - d.center) = Vec.magnitude (d.center - c.center) := by
    rw [magnitude_eq, magnitude_eq, norm_sub_rev]
  rw [e]
  dsimp only
  constructor
  · intro h
    split_ifs at h with h1
    rcases h1 with h1 | h1
    · rw [h1, sub_self]
      have : Vec.magnitude 0 = 0 := by rw [magnitude_eq, norm_zero]
      rw [this]
      rcases le_total c.radius d.radius with h2 | h2
      · right; linarith
      · left; linarith
    · rcases le_abs.1 h1 with h1 | h1
      · left; linarith
      · right; linarith
  · intro h
    rw [if_pos]
    right
    rcases h with h | h
    · exact le_abs.2 (Or.inl (by linarith))
    · exact le_abs.2 (Or.inr (by linarith))

theorem side_eq (v : ℂ) (θ : ℝ) : v.re * Real.sin θ - v.im * Real.cos θ = ‖v‖ * Real.sin (θ - Vec.direction v) := by
  conv_lhs => rw [re_eq v, im_eq v]
  rw [Real.sin_sub]; ring

theorem tangent_spec {c d : Circle} {t : Circle.TangentAngles} (h : c.getTangentAngles d = some t) :
    Normal t.left ∧ Normal t.right ∧ ToTheLeft (d.center - c.center) t.left ∧ ToTheRight (d.center - c.center) t.right ∧
      ∀ θ, Normal θ → (ExteriorTangent c d θ ↔ θ = t.left ∨ θ = t.right) := by
  unfold Circle.getTangentAngles at h
  dsimp only at h
  split_ifs at h with h1
  injection h with h
  subst h
  dsimp only
  obtain ⟨h0, h1⟩ := not_or.1 h1
  rw [magnitude_eq, ge_iff_le, not_le] at h1
  rw [magnitude_eq]
  have hv : 0 < ‖d.center - c.center‖ := norm_pos_iff.2 (sub_ne_zero.2 (Ne.symm h0))
  obtain ⟨q1, q2⟩ := abs_lt.1 h1
  have r1 : -1 < (c.radius - d.radius) / ‖d.center - c.center‖ := by rw [lt_div_iff₀ hv]; linarith
  have r2 : (c.radius - d.radius) / ‖d.center - c.center‖ < 1 := by rw [div_lt_one hv]; linarith
  have ho0 := Real.arccos_pos.2 r2
  have ho1 : Real.arccos ((c.radius - d.radius) / ‖d.center - c.center‖) < π := by
    rcases lt_or_eq_of_le (Real.arccos_le_pi ((c.radius - d.radius) / ‖d.center - c.center‖)) with h | h
    · exact h
    · rw [Real.arccos_eq_pi] at h; linarith
  have hcos := Real.cos_arccos r1.le r2.le
  have hsin := Real.sin_pos_of_pos_of_lt_pi ho0 ho1
  have hT : ∀ θ, ExteriorTangent c d θ ↔ Real.cos (θ - Vec.direction (d.center - c.center)) =
      Real.cos (Real.arccos ((c.radius - d.radius) / ‖d.center - c.center‖)) := by
    intro θ
    rw [tangent_iff, along_eq, hcos, eq_div_iff hv.ne', mul_comm]
  generalize Real.arccos ((c.radius - d.radius) / ‖d.center - c.center‖) = o at *
  have side : ∀ x, (d.center - c.center).re * Real.sin (Angle.normalizedAboutZero (Vec.direction (d.center - c.center) + x)) -
      (d.center - c.center).im * Real.cos (Angle.normalizedAboutZero (Vec.direction (d.center - c.center) + x)) =
      ‖d.center - c.center‖ * Real.sin x := by
    intro x
    rw [cos_normalized, sin_normalized, side_eq]
    congr 2; ring
  refine ⟨(normalized_spec _).1, (normalized_spec _).1, ?_, ?_, fun θ hθ => ?_⟩
  · unfold ToTheLeft
    rw [side]
    exact mul_pos hv hsin
  · unfold ToTheRight
    rw [sub_eq_add_neg (Vec.direction _), side, Real.sin_neg]
    have := mul_pos hv hsin
    linarith
  · rw [hT]
    constructor
    · intro he
      rw [← cos_normalized] at he
      obtain ⟨⟨n1, n2⟩, n3⟩ := normalized_spec (θ - Vec.direction (d.center - c.center))
      generalize Angle.normalizedAboutZero (θ - Vec.direction (d.center - c.center)) = δ at *
      have hδ : |δ| = o := by
        rw [← Real.cos_abs] at he
        have := congrArg Real.arccos he
        rwa [Real.arccos_cos (abs_nonneg _) (abs_le.2 ⟨n1.le, n2⟩), Real.arccos_cos ho0.le ho1.le] at this
      obtain ⟨k, hk⟩ := n3
      rcases abs_eq ho0.le |>.1 hδ with e | e
      · left
        refine normal_unique hθ (normalized_spec _).1 (SameAngle.trans ?_ (SameAngle.symm (normalized_spec _).2))
        exact ⟨-k, by push_cast; linarith⟩
      · right
        refine normal_unique hθ (normalized_spec _).1 (SameAngle.trans ?_ (SameAngle.symm (normalized_spec _).2))
        exact ⟨-k, by push_cast; linarith⟩
    · rintro (rfl | rfl)
      · rw [Real.cos_sub, cos_normalized, sin_normalized, ← Real.cos_sub, add_sub_cancel_left]
      · rw [Real.cos_sub, cos_normalized, sin_normalized, ← Real.cos_sub, sub_sub_cancel_left, Real.cos_neg]

end Verif.RealGeom
