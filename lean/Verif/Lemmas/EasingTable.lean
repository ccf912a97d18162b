import Verif.Lemmas.EasingSteps
import Verif.Spec.EasingTable
import Mathlib.Tactic.FieldSimp

/-!
# Lemmas about the look-up table of a cubic Bezier easing function
-/

set_option autoImplicit false

namespace Verif.Easing

open F32 EasingSpec

open Tip (err_sum)

/-! ## The curve -/

section Curve

variable {K : Type} [Field K] [LinearOrder K] [IsStrictOrderedRing K]

theorem bez_incr {s t a b : K} (hs : 0 ≤ s) (hst : s ≤ t) (ht : t ≤ 1) (ha : 0 ≤ a) (ha1 : a ≤ 1) (hb : 0 ≤ b) (hb1 : b ≤ 1) :
    (t - s) ^ 3 ≤ bez t a b - bez s a b := by
  have e : bez t a b - bez s a b - (t - s) ^ 3 = (t - s) * ((1 - a) * (1 - b) * (3 * (t * s)) + a * b * (3 * ((1 - t) * (1 - s))) +
      (1 - a) * b * (3 * (t * (1 - t)) + 3 * (s * (1 - s))) + a * (1 - b) * (3 * (1 - (t + s)) ^ 2)) := by
    unfold bez; ring
  have ht0 : 0 ≤ t := hs.trans hst
  have hs1 : s ≤ 1 := hst.trans ht
  have h1 : 0 ≤ 1 - a := by linarith
  have h2 : 0 ≤ 1 - b := by linarith
  have h3 : 0 ≤ 1 - t := by linarith
  have h4 : 0 ≤ 1 - s := by linarith
  have h5 : 0 ≤ t - s := by linarith
  have : 0 ≤ bez t a b - bez s a b - (t - s) ^ 3 := by rw [e]; positivity
  linarith

theorem prod_ge {u v e : K} (he : 0 ≤ e) (hu : 0 ≤ u) (hu1 : u ≤ 1 + e) (hv1 : v ≤ 1 + e) : -((1 + e) * e) ≤ u * (1 - v) := by
  have h1 : u * (1 - v) ≥ u * (-e) := mul_le_mul_of_nonneg_left (by linarith) hu
  have h2 : u * e ≤ (1 + e) * e := mul_le_mul_of_nonneg_right hu1 he
  linarith

theorem bez_lip {s t a b D : K} (hs : 0 ≤ s) (hs1 : s ≤ 1 + 1 / 2 ^ 19) (ht : 0 ≤ t) (ht1 : t ≤ 1 + 1 / 2 ^ 19)
    (h0 : |a| ≤ D) (h1 : |b - a| ≤ D) (h2 : |1 - b| ≤ D) :
    |bez t a b - bez s a b| ≤ (3 + 1 / 2 ^ 15) * D * |t - s| := by
  have e : bez t a b - bez s a b = (a * ((1 - t) ^ 2 + (1 - t) * (1 - s) + (1 - s) ^ 2) +
      (b - a) * (3 * (t + s) - 2 * (t ^ 2 + t * s + s ^ 2)) + (1 - b) * (t ^ 2 + t * s + s ^ 2)) * (t - s) := by
    unfold bez; ring
  rw [e, abs_mul]
  refine mul_le_mul_of_nonneg_right ?_ (abs_nonneg _)
  have hD : 0 ≤ D := (abs_nonneg _).trans h0
  have w0 : 0 ≤ (1 - t) ^ 2 + (1 - t) * (1 - s) + (1 - s) ^ 2 := by nlinarith [sq_nonneg (1 - t + (1 - s)), sq_nonneg (1 - t), sq_nonneg (1 - s)]
  have w2 : 0 ≤ t ^ 2 + t * s + s ^ 2 := by positivity
  have w1 : -(1 / 2 ^ 16) ≤ 3 * (t + s) - 2 * (t ^ 2 + t * s + s ^ 2) := by
    have he : (0 : K) ≤ 1 / 2 ^ 19 := by positivity
    have p1 := prod_ge he ht ht1 ht1
    have p2 := prod_ge he hs hs1 hs1
    have p3 := prod_ge he ht ht1 hs1
    have p4 := prod_ge he hs hs1 ht1
    have : 3 * (t + s) - 2 * (t ^ 2 + t * s + s ^ 2) = 2 * (t * (1 - t)) + 2 * (s * (1 - s)) + t * (1 - s) + s * (1 - t) := by ring
    rw [this]
    norm_num at p1 p2 p3 p4 ⊢
    linarith
  generalize hw0 : (1 - t) ^ 2 + (1 - t) * (1 - s) + (1 - s) ^ 2 = W0 at *
  generalize hw1 : 3 * (t + s) - 2 * (t ^ 2 + t * s + s ^ 2) = W1 at *
  generalize hw2 : t ^ 2 + t * s + s ^ 2 = W2 at *
  have sum : W0 + W1 + W2 = 3 := by rw [← hw0, ← hw1, ← hw2]; ring
  have aw1 : |W1| ≤ W1 + 1 / 2 ^ 15 := by
    rw [abs_le]; constructor
    · norm_num at w1 ⊢; linarith
    · have : (0 : K) ≤ 1 / 2 ^ 15 := by positivity
      linarith
  have t0 : |a * W0| ≤ D * W0 := by rw [abs_mul, abs_of_nonneg w0]; exact mul_le_mul_of_nonneg_right h0 w0
  have t1 : |(b - a) * W1| ≤ D * |W1| := by rw [abs_mul]; exact mul_le_mul_of_nonneg_right h1 (abs_nonneg _)
  have t2 : |(1 - b) * W2| ≤ D * W2 := by rw [abs_mul, abs_of_nonneg w2]; exact mul_le_mul_of_nonneg_right h2 w2
  have t3 : D * |W1| ≤ D * (W1 + 1 / 2 ^ 15) := mul_le_mul_of_nonneg_left aw1 hD
  calc |a * W0 + (b - a) * W1 + (1 - b) * W2| ≤ |a * W0| + |(b - a) * W1| + |(1 - b) * W2| := abs_add_three _ _ _
    _ ≤ D * W0 + D * (W1 + 1 / 2 ^ 15) + D * W2 := by linarith
    _ = (W0 + W1 + W2 + 1 / 2 ^ 15) * D := by ring
    _ = _ := by rw [sum]

end Curve

/-! ## Rounding -/

theorem maxVal_big : (2 : ℚ) ^ 120 ≤ maxVal := by unfold maxVal; norm_num

theorem combine_ok {k : Nat} (hk : k ≤ 78) {a b : F32} (ha : a.isFinite = true) (hb : b.isFinite = true) :
    (combine (coeffs (T k)) a b).isFinite = true ∧
    |toRat (combine (coeffs (T k)) a b) - (toRat (coeffs (T k)).1 * toRat a + toRat (coeffs (T k)).2.1 * toRat b +
      toRat (coeffs (T k)).2.2)| ≤ (1 + |toRat a| + |toRat b|) / 2 ^ 23 := by
  obtain ⟨-, f1, f2, f3⟩ := point_finite hk
  have p := point hk
  unfold combine
  generalize coeffs (T k) = c at *
  obtain ⟨c1, c2, c3⟩ := c
  simp only at *
  have hov := maxVal_lt_ovf
  have hbig := maxVal_big
  have hη : (1 : ℚ) / 2 ^ 150 ≤ 1 / 2 ^ 40 := by norm_num
  have hη0 : (0 : ℚ) ≤ 1 / 2 ^ 150 := by norm_num
  have hA := abs_toRat_le a
  have hB := abs_toRat_le b
  have hA0 := abs_nonneg (toRat a)
  have hB0 := abs_nonneg (toRat b)
  have q1 : |toRat c1 * toRat a| ≤ 4445 / 10000 * |toRat a| := by
    rw [abs_mul]; refine mul_le_mul_of_nonneg_right ?_ hA0
    rw [abs_of_nonneg p.c1_nonneg]; exact p.c1_le
  have q2 : |toRat c2 * toRat b| ≤ 4445 / 10000 * |toRat b| := by
    rw [abs_mul]; refine mul_le_mul_of_nonneg_right ?_ hB0
    rw [abs_le]; refine ⟨le_trans ?_ p.c2_ge, p.c2_le⟩; norm_num
  have q3 : |toRat c3| ≤ 1 + 1 / 10 := by
    rw [abs_of_nonneg p.c3_nonneg]; refine p.c3_le.trans ?_; norm_num
  generalize hAd : |toRat a| = A at *
  generalize hBd : |toRat b| = B at *
  have hone : (2 : ℚ) ^ 120 ≥ 2 ^ 60 := by norm_num
  have hone' : (2 : ℚ) ^ 60 ≥ 1000 := by norm_num
  generalize (2 : ℚ) ^ 120 = Z at *
  generalize (2 : ℚ) ^ 60 = z at *
  generalize hηd : (1 : ℚ) / 2 ^ 150 = η at *
  have o1 : |toRat c1 * toRat a| < ovf := by linarith
  have o2 : |toRat c2 * toRat b| < ovf := by linarith
  have m1 := isFinite_mul f1 ha o1
  have m2 := isFinite_mul f2 hb o2
  have e1 := toRat_mul f1 ha o1
  have e2 := toRat_mul f2 hb o2
  have r1 := err_sum (toRat c1 * toRat a)
  have r2 := err_sum (toRat c2 * toRat b)
  rw [← e1, hηd] at r1
  rw [← e2, hηd] at r2
  generalize hu : toRat (mul c1 a) = u at *
  generalize hv : toRat (mul c2 b) = v at *
  generalize toRat c1 * toRat a = P at *
  generalize toRat c2 * toRat b = Q at *
  have n1 : |P| / 2 ^ 24 ≤ (4445 / 10000 * A) / 2 ^ 24 := by gcongr
  have n2 : |Q| / 2 ^ 24 ≤ (4445 / 10000 * B) / 2 ^ 24 := by gcongr
  have b1 : |u| ≤ |P| + |u - P| := by have := abs_add_le P (u - P); rwa [add_sub_cancel] at this
  have b2 : |v| ≤ |Q| + |v - Q| := by have := abs_add_le Q (v - Q); rwa [add_sub_cancel] at this
  have huv : toRat (mul c1 a) + toRat (mul c2 b) = u + v := by rw [hu, hv]
  have o3 : |u + v| < ovf := by have := abs_add_le u v; norm_num at *; linarith
  rw [← huv] at o3
  have m3 := isFinite_add m1 m2 o3
  have e3 := toRat_add m1 m2 o3
  rw [huv] at e3 o3
  have r3 := err_sum (u + v)
  rw [← e3, hηd] at r3
  generalize hw : toRat (add (mul c1 a) (mul c2 b)) = w at *
  have n3 : |u + v| / 2 ^ 24 ≤ (4446 / 10000 * (1 + A + B)) / 2 ^ 24 := by
    gcongr; have := abs_add_le u v; norm_num at *; linarith
  have b3 : |w| ≤ |u + v| + |w - (u + v)| := by have := abs_add_le (u + v) (w - (u + v)); rwa [add_sub_cancel] at this
  have o4 : |w + toRat c3| < ovf := by
    have := abs_add_le w (toRat c3); have := abs_add_le u v; norm_num at *; linarith
  rw [← hw] at o4
  have m4 := isFinite_add m3 f3 o4
  have e4 := toRat_add m3 f3 o4
  rw [hw] at e4 o4
  have r4 := err_sum (w + toRat c3)
  rw [← e4, hηd] at r4
  refine ⟨m4, ?_⟩
  generalize toRat (add (add (mul c1 a) (mul c2 b)) c3) = x at *
  have n4 : |w + toRat c3| / 2 ^ 24 ≤ (4447 / 10000 * (3 + A + B)) / 2 ^ 24 := by
    gcongr; have := abs_add_le w (toRat c3); have := abs_add_le u v; norm_num at *; linarith
  have e : x - (P + Q + toRat c3) = (x - (w + toRat c3)) + (w - (u + v)) + (u - P) + (v - Q) := by ring
  rw [e]
  have t1 := abs_add_le ((x - (w + toRat c3)) + (w - (u + v)) + (u - P)) (v - Q)
  have t2 := abs_add_le ((x - (w + toRat c3)) + (w - (u + v))) (u - P)
  have t3 := abs_add_le (x - (w + toRat c3)) (w - (u + v))
  norm_num at *
  linarith

theorem small {q : ℚ} (h : |q| ≤ 10) : |q| < ovf := by
  have : (10 : ℚ) < ovf := by unfold ovf; norm_num
  linarith

/-- The parts of a value, for coordinates in the unit interval. -/
theorem combine_parts {k : Nat} (hk : k ≤ 78) {a b : F32} (ha : a.isFinite = true) (hb : b.isFinite = true)
    (a0 : 0 ≤ toRat a) (a1 : toRat a ≤ 1) (b0 : 0 ≤ toRat b) (b1 : toRat b ≤ 1) :
    toRat (combine (coeffs (T k)) a b) = rnd (rnd (rnd (toRat (coeffs (T k)).1 * toRat a) +
      rnd (toRat (coeffs (T k)).2.1 * toRat b)) + toRat (coeffs (T k)).2.2) := by
  obtain ⟨-, f1, f2, f3⟩ := point_finite hk
  have p := point hk
  unfold combine
  generalize coeffs (T k) = c at *
  obtain ⟨c1, c2, c3⟩ := c
  simp only at *
  have ab1 : |toRat c1 * toRat a| ≤ 1 := by
    rw [abs_mul, abs_of_nonneg a0, abs_of_nonneg p.c1_nonneg]
    have := p.c1_le
    exact mul_le_one₀ (by linarith) a0 a1
  have ab2 : |toRat c2 * toRat b| ≤ 1 := by
    rw [abs_mul, abs_of_nonneg b0]
    have h1 := p.c2_le
    have h2 := p.c2_ge
    refine mul_le_one₀ ?_ b0 b1
    rw [abs_le]; constructor
    · norm_num at *; linarith
    · linarith
  have one : F32.Repr (1 : ℚ) := by exact_mod_cast F32.Repr.ofInt (z := 1) (by norm_num)
  have two : F32.Repr (2 : ℚ) := by exact_mod_cast F32.Repr.ofInt (z := 2) (by norm_num)
  have r1 : |rnd (toRat c1 * toRat a)| ≤ 1 := by rw [rnd_abs]; exact rnd_le_of_le one ab1
  have r2 : |rnd (toRat c2 * toRat b)| ≤ 1 := by rw [rnd_abs]; exact rnd_le_of_le one ab2
  have o1 := small (ab1.trans (by norm_num))
  have o2 := small (ab2.trans (by norm_num))
  have e1 := toRat_mul f1 ha o1
  have e2 := toRat_mul f2 hb o2
  have m1 := isFinite_mul f1 ha o1
  have m2 := isFinite_mul f2 hb o2
  have ab3 : |toRat (mul c1 a) + toRat (mul c2 b)| ≤ 2 := by
    rw [e1, e2]; refine (abs_add_le _ _).trans ?_; linarith
  have o3 := small (ab3.trans (by norm_num))
  have e3 := toRat_add m1 m2 o3
  have m3 := isFinite_add m1 m2 o3
  have r3 : |toRat (add (mul c1 a) (mul c2 b))| ≤ 2 := by rw [e3, rnd_abs]; exact rnd_le_of_le two ab3
  have o4 : |toRat (add (mul c1 a) (mul c2 b)) + toRat c3| < ovf := by
    refine small ((abs_add_le _ _).trans ?_)
    have := p.c3_le
    rw [abs_of_nonneg p.c3_nonneg]; norm_num at *; linarith
  rw [toRat_add m3 f3 o4, e3, e1, e2]

theorem combine_ge {k : Nat} (hk : k ≤ 77) {a b : F32} (ha : a.isFinite = true) (hb : b.isFinite = true)
    (a0 : 0 ≤ toRat a) (a1 : toRat a ≤ 1) (b0 : 0 ≤ toRat b) (b1 : toRat b ≤ 1) :
    toRat (coeffs (T k)).2.2 ≤ toRat (combine (coeffs (T k)) a b) := by
  have p := point (k := k) (by omega)
  rw [combine_parts (by omega) ha hb a0 a1 b0 b1]
  refine le_rnd_of_le (F32.Repr.toRat _) ?_
  have h1 := rnd_nonneg (mul_nonneg p.c1_nonneg a0)
  have h2 := rnd_nonneg (mul_nonneg (p.c2_nonneg hk) b0)
  have h3 := rnd_nonneg (add_nonneg h1 h2)
  linarith

theorem combine_end {a b : F32} (ha : a.isFinite = true) (hb : b.isFinite = true)
    (a0 : 0 ≤ toRat a) (a1 : toRat a ≤ 1) (b0 : 0 ≤ toRat b) (b1 : toRat b ≤ 1) :
    1 ≤ toRat (combine (coeffs (T 78)) a b) := by
  have p := point (k := 78) (by omega)
  obtain ⟨-, f1, f2, f3⟩ := point_finite (k := 78) (by omega)
  rw [combine_parts (by omega) ha hb a0 a1 b0 b1]
  have e := point_end
  rw [toRat_add f2 f3] at e
  · refine e.trans (rnd_mono ?_)
    have h1 := rnd_nonneg (mul_nonneg p.c1_nonneg a0)
    have h2 : toRat (coeffs (T 78)).2.1 ≤ rnd (toRat (coeffs (T 78)).2.1 * toRat b) := by
      refine le_rnd_of_le (F32.Repr.toRat _) ?_
      nlinarith [p.c2_nonpos rfl]
    have h3 : toRat (coeffs (T 78)).2.1 ≤ rnd (rnd (toRat (coeffs (T 78)).1 * toRat a) +
        rnd (toRat (coeffs (T 78)).2.1 * toRat b)) := le_rnd_of_le (F32.Repr.toRat _) (by linarith)
    linarith
  · refine small ((abs_add_le _ _).trans ?_)
    have h1 := p.c3_le
    have h2 := p.c2_ge
    rw [abs_of_nonneg p.c3_nonneg, abs_of_nonpos (p.c2_nonpos rfl)]; norm_num at *; linarith

/-! ## The samples -/

/-- The parameters of a curve that passed validation. -/
structure Valid (c : CubicBezier) : Prop where
  fx1 : c.x1.isFinite = true
  fy1 : c.y1.isFinite = true
  fx2 : c.x2.isFinite = true
  fy2 : c.y2.isFinite = true
  x1_nonneg : 0 ≤ toRat c.x1
  x1_le : toRat c.x1 ≤ 1
  x2_nonneg : 0 ≤ toRat c.x2
  x2_le : toRat c.x2 ≤ 1

theorem toRat_one : toRat one = 1 := by decide +kernel

theorem valid_of {c : CubicBezier} (h : (Fn.cubicBezier c).valid = true) : Valid c := by
  simp only [Fn.valid, Bool.not_eq_true', Bool.or_eq_false_iff, Bool.not_eq_false', Bool.and_eq_true] at h
  obtain ⟨⟨⟨⟨⟨⟨⟨f1, f2⟩, f3⟩, f4⟩, h1⟩, h2⟩, h3⟩, h4⟩ := h
  have f0 : zero.isFinite = true := rfl
  have fo : one.isFinite = true := rfl
  have k : ∀ {a b : F32}, a.isFinite = true → b.isFinite = true → lt a b = false → toRat b ≤ toRat a := by
    intro a b ha hb hl
    by_contra hc
    rw [(lt_iff ha hb).mpr (lt_of_not_ge hc)] at hl
    cases hl
  refine ⟨f1, f2, f3, f4, ?_, ?_, ?_, ?_⟩
  · simpa using k f1 f0 h1
  · simpa [toRat_one] using k fo f1 h2
  · simpa using k f3 f0 h3
  · simpa [toRat_one] using k fo f3 h4

/-- The value after `k` steps. -/
def V (c : CubicBezier) (k : Nat) : PointF :=
  if k = 0 then ⟨zero, zero⟩ else bezierValue ⟨c.x1, c.y1⟩ ⟨c.x2, c.y2⟩ (T k)

theorem component_err {k : Nat} (hk : k ≤ 78) {a b : F32} (ha : a.isFinite = true) (hb : b.isFinite = true) :
    |toRat (combine (coeffs (T k)) a b) - bez (toRat (T k)) (toRat a) (toRat b)| ≤ (1 + |toRat a| + |toRat b|) / 2 ^ 22 := by
  have h := (combine_ok hk ha hb).2
  have p := point hk
  generalize toRat (combine (coeffs (T k)) a b) = x at *
  generalize toRat (coeffs (T k)).1 = c1 at *
  generalize toRat (coeffs (T k)).2.1 = c2 at *
  generalize toRat (coeffs (T k)).2.2 = c3 at *
  generalize toRat (T k) = t at *
  have e : x - bez t (toRat a) (toRat b) = (x - (c1 * toRat a + c2 * toRat b + c3)) + (c1 - 3 * (1 - t) ^ 2 * t) * toRat a +
      (c2 - 3 * (1 - t) * t ^ 2) * toRat b + (c3 - t ^ 3) := by unfold bez; ring
  have h1 : |(c1 - 3 * (1 - t) ^ 2 * t) * toRat a| ≤ 1 / 2 ^ 23 * |toRat a| := by
    rw [abs_mul]; exact mul_le_mul_of_nonneg_right p.err1 (abs_nonneg _)
  have h2 : |(c2 - 3 * (1 - t) * t ^ 2) * toRat b| ≤ 1 / 2 ^ 23 * |toRat b| := by
    rw [abs_mul]; exact mul_le_mul_of_nonneg_right p.err2 (abs_nonneg _)
  have h3 := p.err3
  rw [e]
  refine (abs_add_le _ _).trans ?_
  refine (add_le_add_left (abs_add_three _ _ _) _).trans ?_
  have : (1 + |toRat a| + |toRat b|) / 2 ^ 22 = (1 + |toRat a| + |toRat b|) / 2 ^ 23 + 1 / 2 ^ 23 * |toRat a| + 1 / 2 ^ 23 * |toRat b| +
      1 / 2 ^ 23 := by ring
  rw [this]
  linarith

theorem bez_zero {a b : ℚ} : bez 0 a b = 0 := by unfold bez; ring

/-- The values are near the curve. -/
theorem sample {c : CubicBezier} (h : Valid c) {k : Nat} (hk : k ≤ 78) :
    (V c k).x.isFinite = true ∧ (V c k).y.isFinite = true ∧
    |toRat (V c k).x - bez (toRat (T k)) (toRat c.x1) (toRat c.x2)| ≤ 3 / 2 ^ 22 ∧
    |toRat (V c k).y - bez (toRat (T k)) (toRat c.y1) (toRat c.y2)| ≤ (1 + |toRat c.y1| + |toRat c.y2|) / 2 ^ 22 := by
  by_cases hz : k = 0
  · subst hz
    have e : V c 0 = ⟨zero, zero⟩ := rfl
    have t : toRat (T 0) = 0 := toRat_zero
    rw [e, t]
    simp only [toRat_zero, bez_zero, sub_zero, abs_zero, isFinite_zero, true_and]
    constructor <;> positivity
  · have e : V c k = bezierValue ⟨c.x1, c.y1⟩ ⟨c.x2, c.y2⟩ (T k) := if_neg hz
    rw [e]
    refine ⟨(combine_ok hk h.fx1 h.fx2).1, (combine_ok hk h.fy1 h.fy2).1, ?_, component_err hk h.fy1 h.fy2⟩
    refine (component_err hk h.fx1 h.fx2).trans ?_
    rw [abs_of_nonneg h.x1_nonneg, abs_of_nonneg h.x2_nonneg]
    have := h.x1_le
    have := h.x2_le
    gcongr
    linarith

theorem sample_ge {c : CubicBezier} (h : Valid c) {i : Nat} (hi : i ≤ 13) : toRat (targetX i) ≤ toRat (V c (65 + i)).x := by
  have e : V c (65 + i) = bezierValue ⟨c.x1, c.y1⟩ ⟨c.x2, c.y2⟩ (T (65 + i)) := if_neg (by omega)
  rw [e]
  by_cases h13 : i = 13
  · subst h13
    rw [(target_ok (i := 13) (by omega)).2.2.2.2.2 rfl]
    exact combine_end h.fx1 h.fx2 h.x1_nonneg h.x1_le h.x2_nonneg h.x2_le
  · have p := (point (k := 65 + i) (by omega)).c3_ge (by omega) (by omega)
    rw [Nat.add_sub_cancel_left] at p
    exact p.trans (combine_ge (by omega) h.fx1 h.fx2 h.x1_nonneg h.x1_le h.x2_nonneg h.x2_le)

/-- The values of x do not skip a target. -/
theorem sample_step {c : CubicBezier} (h : Valid c) {k : Nat} (hk : k ≤ 77) :
    toRat (V c (k + 1)).x ≤ toRat (V c k).x + 1 / 26 + 1 / 2 ^ 16 := by
  obtain ⟨-, -, e1, -⟩ := sample h (k := k) (by omega)
  obtain ⟨-, -, e2, -⟩ := sample h (k := k + 1) (by omega)
  have p := point (k := k) (by omega)
  have p' := point (k := k + 1) (by omega)
  have s := point_step hk
  have l := bez_lip (D := 1) p.nonneg p.le p'.nonneg p'.le (a := toRat c.x1) (b := toRat c.x2)
    (by rw [abs_le]; constructor <;> linarith [h.x1_nonneg, h.x1_le])
    (by rw [abs_le]; constructor <;> linarith [h.x1_nonneg, h.x1_le, h.x2_nonneg, h.x2_le])
    (by rw [abs_le]; constructor <;> linarith [h.x2_nonneg, h.x2_le])
  have pos : 0 ≤ toRat (T (k + 1)) - toRat (T k) := by norm_num at s ⊢; linarith
  rw [abs_of_nonneg pos] at l
  have l' := (abs_le.mp l).2
  have e1' := (abs_le.mp e1).1
  have e2' := (abs_le.mp e2).2
  norm_num at *
  linarith

/-! ## The loops -/

theorem advance_spec (c : CubicBezier) (target : F32) {N : Nat} (hN : lt (V c N).x target = false) :
    ∀ d k, N = k + 1 + d → ∃ j, k < j ∧ j ≤ N ∧ lt (V c j).x target = false ∧ (∀ m, k < m → m < j → lt (V c m).x target = true) ∧
      ∀ fuel, d < fuel →
        advance ⟨c.x1, c.y1⟩ ⟨c.x2, c.y2⟩ target fuel (T k) (V c k) = some (T j, V c (j - 1), V c j) := by
  intro d
  induction d with
  | zero =>
    intro k hk
    have e : N = k + 1 := by omega
    subst e
    refine ⟨k + 1, by omega, by omega, hN, by intro m h1 h2; omega, ?_⟩
    intro fuel hf
    obtain ⟨f, rfl⟩ : ∃ f, fuel = f + 1 := ⟨fuel - 1, by omega⟩
    have e : V c (k + 1) = bezierValue ⟨c.x1, c.y1⟩ ⟨c.x2, c.y2⟩ (add (T k) tStep) := if_neg (by omega)
    unfold advance
    simp only [← e, hN, Bool.false_eq_true, if_false, Nat.add_sub_cancel]
    rfl
  | succ d ih =>
    intro k hk
    have e : V c (k + 1) = bezierValue ⟨c.x1, c.y1⟩ ⟨c.x2, c.y2⟩ (add (T k) tStep) := if_neg (by omega)
    cases hl : lt (V c (k + 1)).x target with
    | false =>
      refine ⟨k + 1, by omega, by omega, hl, by intro m h1 h2; omega, ?_⟩
      intro fuel hf
      obtain ⟨f, rfl⟩ : ∃ f, fuel = f + 1 := ⟨fuel - 1, by omega⟩
      unfold advance
      simp only [← e, hl, Bool.false_eq_true, if_false, Nat.add_sub_cancel]
      rfl
    | true =>
      obtain ⟨j, h1, h2, h3, h4, h5⟩ := ih (k + 1) (by omega)
      refine ⟨j, by omega, h2, h3, ?_, ?_⟩
      · intro m m1 m2
        by_cases hm : m = k + 1
        · rw [hm]; exact hl
        · exact h4 m (by omega) m2
      · intro fuel hf
        obtain ⟨f, rfl⟩ : ∃ f, fuel = f + 1 := ⟨fuel - 1, by omega⟩
        unfold advance
        simp only [← e, hl, if_true]
        exact h5 f (by omega)

theorem lt_false_iff {a b : F32} (ha : a.isFinite = true) (hb : b.isFinite = true) : lt a b = false ↔ toRat b ≤ toRat a := by
  rw [← Bool.not_eq_true, lt_iff ha hb, not_lt]

/-- An entry is between two consecutive values, on the two sides of its x. -/
def Between (c : CubicBezier) (i : Nat) (y : F32) : Prop :=
  ∃ j, 1 ≤ j ∧ j ≤ 78 ∧ toRat (V c (j - 1)).x ≤ toRat (targetX i) ∧ toRat (targetX i) ≤ toRat (V c j).x ∧
    y = entry (V c (j - 1)) (V c j) (targetX i) ∧ (i = 0 → j = 1)

theorem tableFrom_spec {c : CubicBezier} (h : Valid c) : ∀ n i k, i + n = 14 → k ≤ 64 + i →
    toRat (V c k).x ≤ toRat (targetX i) → (i = 0 → k = 0) →
    ∃ l : List F32, (∀ fuel, 78 ≤ fuel → tableFrom ⟨c.x1, c.y1⟩ ⟨c.x2, c.y2⟩ fuel n i (T k) (V c k) = some l) ∧ l.length = n ∧
      ∀ m, m < n → ∃ y, l[m]? = some y ∧ Between c (i + m) y := by
  intro n
  induction n with
  | zero => intro i k _ _ _ _; exact ⟨[], fun _ _ => rfl, rfl, fun m hm => by omega⟩
  | succ n ih =>
    intro i k hi hk hx h0
    have ht := target_ok (i := i) (by omega)
    have fN := (sample h (k := 65 + i) (by omega)).1
    have hN : lt (V c (65 + i)).x (targetX i) = false := (lt_false_iff fN ht.1).mpr (sample_ge h (by omega))
    obtain ⟨j, j1, j2, j3, j4, j5⟩ := advance_spec c (targetX i) hN (65 + i - (k + 1)) k (by omega)
    have fj := (sample h (k := j) (by omega)).1
    have hj := (lt_false_iff fj ht.1).mp j3
    have hj' : toRat (V c (j - 1)).x ≤ toRat (targetX i) := by
      by_cases e : j - 1 = k
      · rw [e]; exact hx
      · exact ((lt_iff (sample h (k := j - 1) (by omega)).1 ht.1).mp (j4 (j - 1) (by omega) (by omega))).le
    have hstep := sample_step h (k := j - 1) (by omega)
    rw [Nat.sub_add_cancel (by omega)] at hstep
    have b : Between c i (entry (V c (j - 1)) (V c j) (targetX i)) := by
      refine ⟨j, by omega, by omega, hj', hj, rfl, ?_⟩
      intro e
      have k0 := h0 e
      by_contra hc
      have l1 := j4 1 (by omega) (by omega)
      rw [lt_iff (sample h (k := 1) (by omega)).1 ht.1, ht.2.2.2.2.1 e] at l1
      have g := combine_ge (k := 1) (by omega) h.fx1 h.fx2 h.x1_nonneg h.x1_le h.x2_nonneg h.x2_le
      have g' := (point (k := 1) (by omega)).c3_nonneg
      have e1 : V c 1 = bezierValue ⟨c.x1, c.y1⟩ ⟨c.x2, c.y2⟩ (T 1) := if_neg (by omega)
      rw [e1] at l1
      exact absurd (g'.trans g) (_root_.not_le.mpr l1)
    by_cases hn : n = 0
    · subst hn
      refine ⟨[entry (V c (j - 1)) (V c j) (targetX i)], ?_, rfl, ?_⟩
      · intro fuel hf
        unfold tableFrom
        rw [j5 fuel (by omega)]
        rfl
      · intro m hm
        have : m = 0 := by omega
        subst this
        exact ⟨_, rfl, b⟩
    · have ht' := target_ok (i := i + 1) (by omega)
      have next : toRat (V c j).x ≤ toRat (targetX (i + 1)) := by
        have a1 := (abs_le.mp ht.2.1).2
        have a2 := (abs_le.mp ht'.2.1).1
        push_cast at a2
        norm_num at *
        linarith
      obtain ⟨l, l1, l2, l3⟩ := ih (i + 1) j (by omega) (by omega) next (by omega)
      refine ⟨entry (V c (j - 1)) (V c j) (targetX i) :: l, ?_, by simp [l2], ?_⟩
      · intro fuel hf
        unfold tableFrom
        rw [j5 fuel (by omega)]
        simp only [Option.bind_some, l1 fuel hf, Option.map_some]
      · intro m hm
        cases m with
        | zero => exact ⟨_, rfl, b⟩
        | succ m =>
          obtain ⟨y, y1, y2⟩ := l3 m (by omega)
          exact ⟨y, by simpa using y1, by rwa [show i + (m + 1) = i + 1 + m by omega]⟩

theorem table_spec {c : CubicBezier} (h : Valid c) : ∃ l : List F32, (∀ fuel, 78 ≤ fuel → table fuel c = some l) ∧
    l.length = tableSize ∧ ∀ i, i < tableSize → ∃ y, l[i]? = some y ∧ Between c i y := by
  have e : V c 0 = ⟨zero, zero⟩ := rfl
  have z : toRat (targetX 0) = 0 := (target_ok (i := 0) (by omega)).2.2.2.2.1 rfl
  obtain ⟨l, l1, l2, l3⟩ := tableFrom_spec h 14 0 0 rfl (by omega) (by rw [e, z]; simp) (fun _ => rfl)
  exact ⟨l, l1, l2, fun i hi => by have := l3 i hi; rwa [Nat.zero_add] at this⟩

/-! ## The entries -/

theorem ratio_ok {a b v : F32} (ha : a.isFinite = true) (hb : b.isFinite = true) (hv : v.isFinite = true)
    (h1 : toRat a ≤ toRat v) (h2 : toRat v ≤ toRat b) (ho : |toRat b - toRat a| < ovf) :
    (inverseLerpF a b v).isFinite = true ∧ 0 ≤ toRat (inverseLerpF a b v) ∧ toRat (inverseLerpF a b v) ≤ 1 := by
  unfold inverseLerpF
  have fs := isFinite_sub hb ha ho
  have es := toRat_sub hb ha ho
  by_cases hz : feq (sub b a) zero = true
  · rw [if_pos hz]; simp
  · rw [if_neg hz]
    have hne : toRat (sub b a) ≠ 0 := by
      intro hc; apply hz; rw [feq_iff fs isFinite_zero, hc, toRat_zero]
    have hva : |toRat v - toRat a| < ovf := by
      rw [abs_of_nonneg (by linarith)]; rw [abs_of_nonneg (by linarith)] at ho; linarith
    have fn := isFinite_sub hv ha hva
    have en := toRat_sub hv ha hva
    have hn0 : 0 ≤ toRat (sub v a) := by rw [en]; exact rnd_nonneg (by linarith)
    have hnd : toRat (sub v a) ≤ toRat (sub b a) := by rw [en, es]; exact rnd_mono (by linarith)
    have hd0 : 0 < toRat (sub b a) := lt_of_le_of_ne (hn0.trans hnd) (Ne.symm hne)
    have q0 : 0 ≤ toRat (sub v a) / toRat (sub b a) := div_nonneg hn0 hd0.le
    have q1 : toRat (sub v a) / toRat (sub b a) ≤ 1 := (div_le_one hd0).mpr hnd
    have oq : |toRat (sub v a) / toRat (sub b a)| < ovf := small (by rw [abs_of_nonneg q0]; linarith)
    have one : F32.Repr (1 : ℚ) := by exact_mod_cast F32.Repr.ofInt (z := 1) (by norm_num)
    refine ⟨isFinite_div fn fs hne oq, ?_, ?_⟩
    · rw [toRat_div fn fs hne oq]; exact rnd_nonneg q0
    · rw [toRat_div fn fs hne oq]; exact rnd_le_of_le one q1

/-- The error of an interpolation, of values that are not near the greatest. -/
theorem lerp_ok {a b t : F32} (ha : a.isFinite = true) (hb : b.isFinite = true)
    (ht : t.isFinite = true) (h0 : 0 ≤ toRat t) (h1 : toRat t ≤ 1) (ba : |toRat a| ≤ 91 / 100 * maxVal)
    (bb : |toRat b| ≤ 91 / 100 * maxVal) (bab : |toRat b - toRat a| ≤ 95 / 100 * maxVal) :
    (lerpF a b t).isFinite = true ∧
    |toRat (lerpF a b t) - (toRat a + (toRat b - toRat a) * toRat t)| ≤
      (|toRat a| + |toRat b|) / 2 ^ 22 + 1 / 2 ^ 148 := by
  set x := toRat a with hx
  set y := toRat b with hy
  set u := toRat t with hu
  set S := |x| + |y| with hS
  have hS0 : 0 ≤ S := by positivity
  have hSb : S ≤ 2 * maxVal := by have := maxVal_big; have : (0 : ℚ) < 2 ^ 120 := by norm_num
                                  linarith
  have hbig := maxVal_big
  have hov := maxVal_lt_ovf
  have hη : (1 : ℚ) / 2 ^ 150 ≤ 1 := by norm_num
  have hη0 : (0 : ℚ) ≤ 1 / 2 ^ 150 := by norm_num
  have hp : (1000000 : ℚ) < 2 ^ 120 := by norm_num
  generalize hηdef : (1 : ℚ) / 2 ^ 150 = η at *
  generalize (2 : ℚ) ^ 120 = Z at *
  have hsub : |y - x| ≤ S := by
    have := abs_sub y x; rw [hS]; linarith
  have hsubo : |y - x| < ovf := by linarith
  have fd := isFinite_sub hb ha hsubo
  have ed := toRat_sub hb ha hsubo
  rw [← hx, ← hy] at ed
  have e1 := err_sum (y - x)
  rw [hηdef] at e1
  set d := toRat (F32.sub b a) with hd
  rw [← ed] at e1
  have e1' : |d - (y - x)| ≤ η + S / 2 ^ 24 := by
    have : |y - x| / 2 ^ 24 ≤ S / 2 ^ 24 := by gcongr
    linarith
  have hdabs' := abs_add_le (d - (y - x)) (y - x)
  rw [sub_add_cancel] at hdabs'
  have hdabs : |d| ≤ S + (η + S / 2 ^ 24) := by linarith
  have hdu : |d * u| ≤ |d| := by
    rw [abs_mul, abs_of_nonneg h0]
    exact mul_le_of_le_one_right (abs_nonneg d) h1
  have h24 : S / 2 ^ 24 ≤ maxVal / 1000 := by
    rw [div_le_iff₀ (by norm_num)]; linarith
  have h24' : 0 ≤ S / 2 ^ 24 := by positivity
  have hmo : |toRat (F32.sub b a) * toRat t| < ovf := by
    rw [← hd, ← hu]; linarith
  have fm := isFinite_mul fd ht hmo
  have em := toRat_mul fd ht hmo
  rw [← hd, ← hu] at em
  have e2 := err_sum (d * u)
  rw [hηdef] at e2
  set m := toRat (F32.mul (F32.sub b a) t) with hm
  rw [← em] at e2
  have e2' : |m - d * u| ≤ η + (S + (η + S / 2 ^ 24)) / 2 ^ 24 := by
    have : |d * u| / 2 ^ 24 ≤ (S + (η + S / 2 ^ 24)) / 2 ^ 24 := by gcongr; linarith
    linarith
  have e12 : |d * u - (y - x) * u| ≤ η + S / 2 ^ 24 := by
    rw [← sub_mul, abs_mul, abs_of_nonneg h0]
    exact (mul_le_of_le_one_right (abs_nonneg _) h1).trans e1'
  have eqc : x + (y - x) * u = x * (1 - u) + y * u := by ring
  have habs : |x * (1 - u) + y * u| ≤ |x| * (1 - u) + |y| * u := by
    refine (abs_add_le _ _).trans ?_
    rw [abs_mul, abs_mul, abs_of_nonneg h0, abs_of_nonneg (by linarith : 0 ≤ 1 - u)]
  have hconv : |x + (y - x) * u| ≤ S := by
    rw [eqc]
    refine habs.trans ?_
    have i1 := mul_le_of_le_one_right (abs_nonneg x) (by linarith : 1 - u ≤ 1)
    have i2 := mul_le_of_le_one_right (abs_nonneg y) h1
    linarith
  have hconv' : |x + (y - x) * u| ≤ 91 / 100 * maxVal := by
    rw [eqc]
    refine habs.trans ?_
    have i1 := mul_le_mul_of_nonneg_right ba (by linarith : 0 ≤ 1 - u)
    have i2 := mul_le_mul_of_nonneg_right bb h0
    nlinarith
  have e3 : |x + m - (x + (y - x) * u)| ≤
      (η + (S + (η + S / 2 ^ 24)) / 2 ^ 24) + (η + S / 2 ^ 24) := by
    have : x + m - (x + (y - x) * u) = (m - d * u) + (d * u - (y - x) * u) := by ring
    rw [this]
    exact (abs_add_le _ _).trans (by linarith)
  have hxm' := abs_add_le (x + m - (x + (y - x) * u)) (x + (y - x) * u)
  rw [sub_add_cancel] at hxm'
  have hxm : |x + m| ≤ S + ((η + (S + (η + S / 2 ^ 24)) / 2 ^ 24) + (η + S / 2 ^ 24)) := by linarith
  have hadd : |toRat a + toRat (F32.mul (F32.sub b a) t)| < ovf := by
    rw [← hx, ← hm]
    have : (S + (η + S / 2 ^ 24)) / 2 ^ 24 ≤ maxVal / 1000 := by
      rw [div_le_iff₀ (by norm_num)]; linarith
    linarith
  refine ⟨isFinite_add ha fm hadd, ?_⟩
  have er := toRat_add ha fm hadd
  rw [← hx, ← hm] at er
  have e4 := err_sum (x + m)
  rw [hηdef] at e4
  unfold lerpF
  rw [er]
  have tot : |rnd (x + m) - (x + (y - x) * u)| ≤ |rnd (x + m) - (x + m)| +
      |x + m - (x + (y - x) * u)| := by
    have := abs_add_le (rnd (x + m) - (x + m)) (x + m - (x + (y - x) * u))
    rwa [sub_add_sub_cancel] at this
  have e148 : (1 : ℚ) / 2 ^ 148 = 4 * η := by rw [← hηdef]; norm_num
  rw [e148]
  have : |x + m| / 2 ^ 24 ≤
      (S + ((η + (S + (η + S / 2 ^ 24)) / 2 ^ 24) + (η + S / 2 ^ 24))) / 2 ^ 24 := by gcongr
  norm_num at this e3 e4 tot ⊢
  linarith

/-- The scale of a curve. -/
def scale (c : CubicBezier) : ℚ := 1 + |toRat c.y1| + |toRat c.y2|

theorem sample_y {c : CubicBezier} (h : Valid c) {k : Nat} (hk : k ≤ 78) : ∃ c1 c2 c3 : ℚ,
    0 ≤ c1 ∧ c1 ≤ 4445 / 10000 ∧ -(1 / 2 ^ 18) ≤ c2 ∧ c2 ≤ 4445 / 10000 ∧ 0 ≤ c3 ∧ c3 ≤ 1 + 1 / 2 ^ 18 ∧
    |toRat (V c k).y - (c1 * toRat c.y1 + c2 * toRat c.y2 + c3)| ≤ scale c / 2 ^ 23 := by
  by_cases hz : k = 0
  · subst hz
    refine ⟨0, 0, 0, by norm_num, by norm_num, by norm_num, by norm_num, by norm_num, by norm_num, ?_⟩
    have e : V c 0 = ⟨zero, zero⟩ := rfl
    rw [e]; unfold scale; simp; positivity
  · have e : V c k = bezierValue ⟨c.x1, c.y1⟩ ⟨c.x2, c.y2⟩ (T k) := if_neg hz
    have p := point hk
    refine ⟨_, _, _, p.c1_nonneg, p.c1_le, p.c2_ge, p.c2_le, p.c3_nonneg, p.c3_le, ?_⟩
    rw [e]
    exact (combine_ok hk h.fy1 h.fy2).2

theorem scale_le (c : CubicBezier) : scale c ≤ 1 + 2 * maxVal := by
  have := abs_toRat_le c.y1
  have := abs_toRat_le c.y2
  unfold scale; linarith

theorem mul_abs_le {p q B : ℚ} (h : |p| ≤ B) : |p * q| ≤ B * |q| := by
  rw [abs_mul]; exact mul_le_mul_of_nonneg_right h (abs_nonneg _)

theorem sample_abs {c : CubicBezier} (h : Valid c) {k : Nat} (hk : k ≤ 78) :
    |toRat (V c k).y| ≤ 89 / 100 * maxVal ∧ |toRat (V c k).y| ≤ 2 * scale c := by
  obtain ⟨c1, c2, c3, a1, a2, a3, a4, a5, a6, a7⟩ := sample_y h hk
  have s := scale_le c
  have big := maxVal_big
  have hp : (1000000 : ℚ) < 2 ^ 120 := by norm_num
  generalize (2 : ℚ) ^ 120 = Z at *
  have m1 := mul_abs_le (q := toRat c.y1) (show |c1| ≤ 4445 / 10000 by rw [abs_of_nonneg a1]; exact a2)
  have m2 := mul_abs_le (q := toRat c.y2) (show |c2| ≤ 4445 / 10000 by rw [abs_le]; constructor <;> norm_num at * <;> linarith)
  have y1 := abs_toRat_le c.y1
  have y2 := abs_toRat_le c.y2
  have n1 := abs_nonneg (toRat c.y1)
  have n2 := abs_nonneg (toRat c.y2)
  have t := abs_add_le (toRat (V c k).y - (c1 * toRat c.y1 + c2 * toRat c.y2 + c3)) (c1 * toRat c.y1 + c2 * toRat c.y2 + c3)
  rw [sub_add_cancel] at t
  have t' := abs_add_three (c1 * toRat c.y1) (c2 * toRat c.y2) c3
  rw [abs_of_nonneg a5] at t'
  have sd : scale c = 1 + |toRat c.y1| + |toRat c.y2| := rfl
  generalize |toRat c.y1| = A at *
  generalize |toRat c.y2| = B at *
  generalize scale c = S at *
  constructor <;> norm_num at * <;> linarith

theorem sample_diff {c : CubicBezier} (h : Valid c) {k k' : Nat} (hk : k ≤ 78) (hk' : k' ≤ 78) :
    |toRat (V c k).y - toRat (V c k').y| ≤ 892 / 1000 * maxVal := by
  obtain ⟨c1, c2, c3, a1, a2, a3, a4, a5, a6, a7⟩ := sample_y h hk
  obtain ⟨d1, d2, d3, b1, b2, b3, b4, b5, b6, b7⟩ := sample_y h hk'
  have s := scale_le c
  have big := maxVal_big
  have hp : (1000000 : ℚ) < 2 ^ 120 := by norm_num
  generalize (2 : ℚ) ^ 120 = Z at *
  have m1 := mul_abs_le (q := toRat c.y1) (show |c1 - d1| ≤ 4446 / 10000 by rw [abs_le]; constructor <;> linarith)
  have m2 := mul_abs_le (q := toRat c.y2) (show |c2 - d2| ≤ 4446 / 10000 by rw [abs_le]; constructor <;> norm_num at * <;> linarith)
  have m3 : |c3 - d3| ≤ 2 := by rw [abs_le]; constructor <;> norm_num at * <;> linarith
  have y1 := abs_toRat_le c.y1
  have y2 := abs_toRat_le c.y2
  have e : toRat (V c k).y - toRat (V c k').y = (toRat (V c k).y - (c1 * toRat c.y1 + c2 * toRat c.y2 + c3)) -
      (toRat (V c k').y - (d1 * toRat c.y1 + d2 * toRat c.y2 + d3)) +
      ((c1 - d1) * toRat c.y1 + (c2 - d2) * toRat c.y2 + (c3 - d3)) := by ring
  rw [e]
  refine (abs_add_le _ _).trans ?_
  have t1 := abs_sub (toRat (V c k).y - (c1 * toRat c.y1 + c2 * toRat c.y2 + c3))
    (toRat (V c k').y - (d1 * toRat c.y1 + d2 * toRat c.y2 + d3))
  have t2 := abs_add_three ((c1 - d1) * toRat c.y1) ((c2 - d2) * toRat c.y2) (c3 - d3)
  generalize |toRat c.y1| = A at *
  generalize |toRat c.y2| = B at *
  generalize scale c = S at *
  norm_num at *
  linarith

/-- What is known of an entry: it is the interpolation of two consecutive values, up to rounding. -/
theorem entry_ok {c : CubicBezier} (h : Valid c) {i : Nat} (hi : i ≤ 13) {y : F32} (hb : Between c i y) :
    y.isFinite = true ∧ ∃ j r, 1 ≤ j ∧ j ≤ 78 ∧ toRat (V c (j - 1)).x ≤ toRat (targetX i) ∧ toRat (targetX i) ≤ toRat (V c j).x ∧
      0 ≤ r ∧ r ≤ 1 ∧ (i = 0 → r = 0 ∧ j = 1) ∧
      |toRat y - (toRat (V c (j - 1)).y + (toRat (V c j).y - toRat (V c (j - 1)).y) * r)| ≤ scale c / 2 ^ 19 := by
  obtain ⟨j, j1, j2, x1, x2, rfl, j3⟩ := hb
  obtain ⟨fa, fay, ea, -⟩ := sample h (k := j - 1) (by omega)
  obtain ⟨fb, fby, eb, -⟩ := sample h (k := j) j2
  have tok := target_ok hi
  have step := sample_step h (k := j - 1) (by omega)
  rw [Nat.sub_add_cancel j1] at step
  obtain ⟨r0, r1, r2⟩ := ratio_ok fa fb tok.1 x1 x2 (small (by rw [abs_of_nonneg (by linarith)]; norm_num at *; linarith))
  have ya := sample_abs h (k := j - 1) (by omega)
  have yb := sample_abs h (k := j) j2
  have big := maxVal_big
  have hp : (1000000 : ℚ) < 2 ^ 120 := by norm_num
  have l := lerp_ok fay fby r0 r1 r2 (ya.1.trans (by linarith)) (yb.1.trans (by linarith))
    ((sample_diff h j2 (by omega)).trans (by linarith))
  refine ⟨l.1, j, _, j1, j2, x1, x2, r1, r2, ?_, ?_⟩
  · intro e
    refine ⟨?_, j3 e⟩
    subst e
    have := j3 rfl
    subst this
    have ev : V c (1 - 1) = ⟨zero, zero⟩ := rfl
    rw [ev] at x1 ⊢
    unfold inverseLerpF
    simp only
    by_cases hz : feq (sub (V c 1).x zero) zero = true
    · rw [if_pos hz]; exact toRat_zero
    · rw [if_neg hz]
      have e0 : sub (targetX 0) zero = zero := by decide +kernel
      have o : |toRat (V c 1).x - toRat zero| < ovf := by
        rw [ev] at step
        refine small ?_
        have z := tok.2.2.2.2.1 rfl
        simp only [toRat_zero] at *
        rw [abs_of_nonneg (by linarith)]; norm_num at *; linarith
      have fs := isFinite_sub fb isFinite_zero o
      have hne : toRat (sub (V c 1).x zero) ≠ 0 := by
        intro hc; apply hz; rw [feq_iff fs isFinite_zero, hc, toRat_zero]
      rw [e0, toRat_div isFinite_zero fs hne (small (by simp))]
      simp
  · refine l.2.trans ?_
    have s0 : 1 ≤ scale c := by unfold scale; linarith [abs_nonneg (toRat c.y1), abs_nonneg (toRat c.y2)]
    have h1 := ya.2
    have h2 := yb.2
    have h3 : (1 : ℚ) / 2 ^ 148 ≤ scale c / 2 ^ 22 := by
      have : (1 : ℚ) / 2 ^ 148 ≤ 1 / 2 ^ 22 := by norm_num
      refine this.trans ?_; gcongr
    have h4 : (|toRat (V c (j - 1)).y| + |toRat (V c j).y|) / 2 ^ 22 ≤ (4 * scale c) / 2 ^ 22 := by gcongr; linarith
    have h5 : scale c / 2 ^ 19 = 8 * (scale c / 2 ^ 22) := by ring
    have h6 : (4 * scale c) / 2 ^ 22 = 4 * (scale c / 2 ^ 22) := by ring
    have h7 : 0 ≤ scale c / 2 ^ 22 := by positivity
    linarith

theorem entry_zero {c : CubicBezier} (h : Valid c) {y : F32} (hb : Between c 0 y) : y.isFinite = true ∧ toRat y = 0 := by
  have f := (entry_ok h (by omega) hb).1
  refine ⟨f, ?_⟩
  obtain ⟨j, j1, j2, x1, x2, rfl, j3⟩ := hb
  have := j3 rfl
  subst this
  have ev : V c (1 - 1) = ⟨zero, zero⟩ := rfl
  obtain ⟨fb, fby, -, -⟩ := sample h (k := 1) (by omega)
  have step := sample_step h (k := 0) (by omega)
  have tok := target_ok (i := 0) (by omega)
  have z := tok.2.2.2.2.1 rfl
  have ev' : V c 0 = ⟨zero, zero⟩ := rfl
  rw [ev'] at step
  rw [ev] at x1 ⊢
  simp only [toRat_zero, Nat.zero_add] at *
  have ox : |toRat (V c 1).x - toRat zero| < ovf := by
    refine small ?_
    rw [toRat_zero, abs_of_nonneg (by linarith)]; norm_num at *; linarith
  have r := ratio_ok isFinite_zero fb tok.1 (by rw [toRat_zero]; exact x1) x2 ox
  have hr : toRat (inverseLerpF zero (V c 1).x (targetX 0)) = 0 := by
    unfold inverseLerpF
    by_cases hz : feq (sub (V c 1).x zero) zero = true
    · rw [if_pos hz]; exact toRat_zero
    · rw [if_neg hz]
      have e0 : sub (targetX 0) zero = zero := by decide +kernel
      have fs := isFinite_sub fb isFinite_zero ox
      have hne : toRat (sub (V c 1).x zero) ≠ 0 := by
        intro hc; apply hz; rw [feq_iff fs isFinite_zero, hc, toRat_zero]
      rw [e0, toRat_div isFinite_zero fs hne (small (by simp))]
      simp
  have oy : |toRat (V c 1).y - toRat zero| < ovf := by
    rw [toRat_zero, sub_zero]
    exact lt_of_le_of_lt (abs_toRat_le _) maxVal_lt_ovf
  have fs := isFinite_sub fby isFinite_zero oy
  unfold entry lerpF
  simp only
  have om : |toRat (sub (V c 1).y zero) * toRat (inverseLerpF zero (V c 1).x (targetX 0))| < ovf := by
    rw [hr]; exact small (by simp)
  have fm := isFinite_mul fs r.1 om
  have em := toRat_mul fs r.1 om
  rw [hr, mul_zero, rnd_zero] at em
  rw [toRat_add isFinite_zero fm (small (by rw [em]; simp)), em]
  simp

/-! ## Distance from the curve -/

theorem rcast {p q : ℚ} (h : p ≤ q) : (p : ℝ) ≤ (q : ℝ) := by exact_mod_cast h

theorem bez_cast (t a b : ℚ) : ((bez t a b : ℚ) : ℝ) = bez (t : ℝ) a b := by unfold bez; push_cast; ring

/-- The parameter of the point of the curve is near those of the two values. -/
theorem locate {c : CubicBezier} (h : Valid c) {i j : Nat} (hi : i ≤ 13) (j1 : 1 ≤ j) (j2 : j ≤ 78)
    (x1 : toRat (V c (j - 1)).x ≤ toRat (targetX i)) (x2 : toRat (targetX i) ≤ toRat (V c j).x)
    {t : ℝ} (t0 : 0 ≤ t) (t1 : t ≤ 1) (ht : (i : ℝ) / 13 = bez t (toRat c.x1 : ℝ) (toRat c.x2 : ℝ)) :
    |t - (toRat (T (j - 1)) : ℝ)| ≤ 2 * (1 / 78 + 1 / 2 ^ 22) ∧ |t - (toRat (T j) : ℝ)| ≤ 2 * (1 / 78 + 1 / 2 ^ 22) := by
  have cube : (1 : ℝ) / 2 ^ 20 ≤ (1 / 78 - 1 / 2 ^ 22) ^ 3 := by norm_num
  have X1a : (0 : ℝ) ≤ (toRat c.x1 : ℝ) := by exact_mod_cast h.x1_nonneg
  have X1b : (toRat c.x1 : ℝ) ≤ 1 := by exact_mod_cast h.x1_le
  have X2a : (0 : ℝ) ≤ (toRat c.x2 : ℝ) := by exact_mod_cast h.x2_nonneg
  have X2b : (toRat c.x2 : ℝ) ≤ 1 := by exact_mod_cast h.x2_le
  have stepR : ∀ k, k ≤ 77 → (1 : ℝ) / 78 - 1 / 2 ^ 22 ≤ (toRat (T (k + 1)) : ℝ) - toRat (T k) ∧
      (toRat (T (k + 1)) : ℝ) - toRat (T k) ≤ 1 / 78 + 1 / 2 ^ 22 := by
    intro k hk
    have := point_step hk
    exact ⟨by have := rcast this.1; push_cast at this; exact this, by have := rcast this.2; push_cast at this; exact this⟩
  have errR : ∀ k, k ≤ 78 → |(toRat (V c k).x : ℝ) - bez (toRat (T k) : ℝ) (toRat c.x1 : ℝ) (toRat c.x2 : ℝ)| ≤ 3 / 2 ^ 22 := by
    intro k hk
    have := rcast (sample h hk).2.2.1
    push_cast at this
    rwa [bez_cast] at this
  have tgt : |(toRat (targetX i) : ℝ) - i / 13| ≤ 1 / 2 ^ 23 := by
    have := rcast (target_ok hi).2.1
    push_cast at this
    exact this
  have x1' : (toRat (V c (j - 1)).x : ℝ) ≤ toRat (targetX i) := by exact_mod_cast x1
  have x2' : (toRat (targetX i) : ℝ) ≤ toRat (V c j).x := by exact_mod_cast x2
  have mono : ∀ k, k ≤ 77 → (0 : ℝ) ≤ toRat (T k) ∧ (toRat (T k) : ℝ) ≤ 1 := by
    intro k hk
    have p := point (k := k) (by omega)
    constructor
    · exact_mod_cast p.nonneg
    · exact_mod_cast p.le_one hk
  have s1 := stepR (j - 1) (by omega)
  rw [Nat.sub_add_cancel j1] at s1
  have ea := abs_le.mp (errR (j - 1) (by omega))
  have eb := abs_le.mp (errR j j2)
  have et := abs_le.mp tgt
  have pos : (0 : ℝ) < 1 / 78 - 1 / 2 ^ 22 := by norm_num
  -- not too early
  have low : (toRat (T (j - 1)) : ℝ) - t ≤ 1 / 78 + 1 / 2 ^ 22 := by
    by_contra hc
    have hc := lt_of_not_ge hc
    have hlt : 1 / 78 - 1 / 2 ^ 22 ≤ (toRat (T (j - 1)) : ℝ) - t := by
      have : (0 : ℝ) < 1 / 2 ^ 22 := by norm_num
      linarith
    have b := bez_incr t0 (by linarith) (mono (j - 1) (by omega)).2 X1a X1b X2a X2b
    have p3 := pow_le_pow_left₀ pos.le hlt 3
    rw [← ht] at b
    have p4 := cube.trans p3
    norm_num at p4 ea eb et
    linarith
  have high : t - (toRat (T j) : ℝ) ≤ 1 / 78 + 1 / 2 ^ 22 := by
    by_contra hc
    have hc := lt_of_not_ge hc
    have hlt : 1 / 78 - 1 / 2 ^ 22 ≤ t - (toRat (T j) : ℝ) := by
      have : (0 : ℝ) < 1 / 2 ^ 22 := by norm_num
      linarith
    have b0 : (0 : ℝ) ≤ toRat (T j) := by exact_mod_cast (point j2).nonneg
    have b := bez_incr b0 (by linarith) t1 X1a X1b X2a X2b
    have p3 := pow_le_pow_left₀ pos.le hlt 3
    rw [← ht] at b
    have p4 := cube.trans p3
    norm_num at p4 ea eb et
    linarith
  constructor <;> rw [abs_le] <;> constructor <;> norm_num at * <;> linarith

/-- An entry is near the curve. -/
theorem entry_near {c : CubicBezier} (h : Valid c) {i : Nat} (hi : i ≤ 13) {y : F32} (hb : Between c i y) {v : ℝ}
    (hv : OnCurve c ((i : ℝ) / 13) v) : |(toRat y : ℝ) - v| ≤ rise c / 13 + scale c / 2 ^ 16 := by
  obtain ⟨-, j, r, j1, j2, x1, x2, r0, r1, -, err⟩ := entry_ok h hi hb
  obtain ⟨t, t0, t1, ht, rfl⟩ := hv
  obtain ⟨l1, l2⟩ := locate h hi j1 j2 x1 x2 t0 t1 ht
  have lipR : ∀ k, k ≤ 78 → |t - (toRat (T k) : ℝ)| ≤ 2 * (1 / 78 + 1 / 2 ^ 22) →
      |bez t (toRat c.y1 : ℝ) (toRat c.y2 : ℝ) - (toRat (V c k).y : ℝ)| ≤
        (3 + 1 / 2 ^ 15) * rise c * (2 * (1 / 78 + 1 / 2 ^ 22)) + scale c / 2 ^ 22 := by
    intro k hk hl
    have p := point hk
    have hD : (0 : ℝ) ≤ rise c := by
      have : 0 ≤ rise c := (abs_nonneg _).trans (le_max_left _ _)
      exact_mod_cast this
    have e := (sample h hk).2.2.2
    have e' : |(toRat (V c k).y : ℝ) - bez (toRat (T k) : ℝ) (toRat c.y1 : ℝ) (toRat c.y2 : ℝ)| ≤ scale c / 2 ^ 22 := by
      rw [← bez_cast]; exact_mod_cast e
    have hd0 : |(toRat c.y1 : ℝ)| ≤ rise c := by exact_mod_cast (le_max_left |toRat c.y1| _ : _ ≤ rise c)
    have hd1 : |(toRat c.y2 : ℝ) - toRat c.y1| ≤ rise c := by
      exact_mod_cast ((le_max_left _ _).trans (le_max_right _ _) : |toRat c.y2 - toRat c.y1| ≤ rise c)
    have hd2 : |1 - (toRat c.y2 : ℝ)| ≤ rise c := by
      exact_mod_cast ((le_max_right _ _).trans (le_max_right _ _) : |1 - toRat c.y2| ≤ rise c)
    have b := bez_lip (s := (toRat (T k) : ℝ)) (t := t) (by exact_mod_cast p.nonneg)
      (by have := rcast p.le; push_cast at this; exact this) t0
      (by have : (0 : ℝ) ≤ 1 / 2 ^ 19 := by positivity
          linarith) hd0 hd1 hd2
    have b' : (3 + 1 / 2 ^ 15) * (rise c : ℝ) * |t - (toRat (T k) : ℝ)| ≤ (3 + 1 / 2 ^ 15) * rise c * (2 * (1 / 78 + 1 / 2 ^ 22)) :=
      mul_le_mul_of_nonneg_left hl (by positivity)
    have tri := abs_sub_le (bez t (toRat c.y1 : ℝ) (toRat c.y2 : ℝ)) (bez (toRat (T k) : ℝ) (toRat c.y1 : ℝ) (toRat c.y2 : ℝ))
      (toRat (V c k).y : ℝ)
    rw [abs_sub_comm (bez (toRat (T k) : ℝ) _ _)] at tri
    linarith
  have n1 := lipR (j - 1) (by omega) l1
  have n2 := lipR j j2 l2
  have errR : |(toRat y : ℝ) - (toRat (V c (j - 1)).y + (toRat (V c j).y - toRat (V c (j - 1)).y) * (r : ℝ))| ≤ scale c / 2 ^ 19 := by
    exact_mod_cast err
  have r0' : (0 : ℝ) ≤ r := by exact_mod_cast r0
  have r1' : (r : ℝ) ≤ 1 := by exact_mod_cast r1
  have hrise : (rise c : ℝ) ≤ scale c := by
    have : rise c ≤ scale c := by
      unfold rise scale
      have a1 := abs_nonneg (toRat c.y1)
      have a2 := abs_nonneg (toRat c.y2)
      refine max_le (by linarith) (max_le ?_ ?_)
      · have := abs_sub (toRat c.y2) (toRat c.y1); linarith
      · have := abs_sub 1 (toRat c.y2); rw [abs_one] at this; linarith
    exact_mod_cast this
  have hrise0 : (0 : ℝ) ≤ rise c := by
    have : 0 ≤ rise c := (abs_nonneg _).trans (le_max_left _ _)
    exact_mod_cast this
  generalize bez t (toRat c.y1 : ℝ) (toRat c.y2 : ℝ) = w at *
  generalize (toRat (V c (j - 1)).y : ℝ) = a at *
  generalize (toRat (V c j).y : ℝ) = b at *
  generalize (toRat y : ℝ) = z at *
  generalize (rise c : ℝ) = D at *
  generalize (scale c : ℝ) = S at *
  generalize (r : ℝ) = u at *
  have conv : |a + (b - a) * u - w| ≤ (3 + 1 / 2 ^ 15) * D * (2 * (1 / 78 + 1 / 2 ^ 22)) + S / 2 ^ 22 := by
    have e : a + (b - a) * u - w = (a - w) * (1 - u) + (b - w) * u := by ring
    rw [e]
    refine (abs_add_le _ _).trans ?_
    rw [abs_mul, abs_mul, abs_of_nonneg r0', abs_of_nonneg (by linarith : 0 ≤ 1 - u)]
    rw [abs_sub_comm] at n1 n2
    have i1 := mul_le_mul_of_nonneg_right n1 (by linarith : 0 ≤ 1 - u)
    have i2 := mul_le_mul_of_nonneg_right n2 r0'
    nlinarith
  have tri := abs_sub_le z (a + (b - a) * u) w
  norm_num at *
  linarith

end Verif.Easing
