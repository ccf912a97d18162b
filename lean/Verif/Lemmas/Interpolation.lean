import Verif.Model.Interpolation
import Verif.Spec.Interpolation
import Verif.Lemmas.EasingTable
import Verif.Lemmas.Circle
import Verif.Props.Damping
import Verif.Props.Angle
import Verif.F32.NotLt

/-!
# Lemmas about interpolation (C80)
-/

set_option autoImplicit false
set_option exponentiation.threshold 400

namespace Verif.Interp

open F32 Spec

theorem ovf_big : (2 : ℚ) ^ 127 < ovf := by unfold ovf; norm_num

theorem sub_lt {a b : F32} (ha : Moderate a) (hb : Moderate b) : |toRat b - toRat a| < ovf := by
  have := abs_sub (toRat b) (toRat a)
  have := ha.2
  have := hb.2
  have := ovf_big
  have : (2 : ℚ) ^ 127 = 2 ^ 126 + 2 ^ 126 := by norm_num
  linarith

theorem repr_one : F32.Repr (1 : ℚ) := by exact_mod_cast F32.Repr.ofInt (z := 1) (by norm_num)

theorem one_finite : VecF.one.isFinite = true := by decide

theorem toRat_one' : toRat VecF.one = 1 := by decide +kernel

/-- A difference of binary32 numbers that is not 0 is not rounded to 0. -/
theorem rnd_sub_pos {a b : F32} (h : toRat a < toRat b) : 0 < rnd (toRat b - toRat a) := by
  obtain ⟨x, hx⟩ := toRat_unit a
  obtain ⟨y, hy⟩ := toRat_unit b
  rw [hx, hy] at h
  have hxy : x < y := by
    rw [div_lt_div_iff_of_pos_right (by norm_num)] at h
    exact_mod_cast h
  have h1 : (1 : ℚ) / 2 ^ 149 ≤ toRat b - toRat a := by
    rw [hx, hy, ← sub_div]
    gcongr
    have : (x : ℚ) + 1 ≤ y := by exact_mod_cast hxy
    linarith
  have h2 : 0 < rnd (1 / 2 ^ 149 : ℚ) := by
    have e : toRat (fin false 1 (by decide)) = 1 / 2 ^ 149 := by
      rw [toRat_fin_false]; norm_num [mag]
    rw [← e, rnd_toRat, e]; positivity
  exact h2.trans_le (rnd_mono h1)

theorem rnd_sub_ne {a b : F32} (h : toRat a ≠ toRat b) : rnd (toRat b - toRat a) ≠ 0 := by
  rcases lt_or_gt_of_ne h with h | h
  · exact (rnd_sub_pos h).ne'
  · have := rnd_sub_pos h
    rw [← neg_sub, rnd_neg] at this
    intro e; rw [e] at this; simp at this

theorem feq_sub_zero {a b : F32} (ha : a.isFinite = true) (hb : b.isFinite = true) (ho : |toRat b - toRat a| < ovf) :
    feq (sub b a) zero = true ↔ toRat a = toRat b := by
  rw [feq_iff (isFinite_sub hb ha ho) isFinite_zero, toRat_sub hb ha ho, toRat_zero]
  constructor
  · intro h
    by_contra hc
    exact rnd_sub_ne hc h
  · intro h; rw [h, sub_self, rnd_zero]

/-- The value of `InverseLerp` between the ends. -/
theorem inverse_value {a b v : F32} (ha : Moderate a) (hb : Moderate b) (hv : Moderate v) (hab : toRat a ≠ toRat b)
    (h : |rnd (toRat v - toRat a) / rnd (toRat b - toRat a)| < ovf) :
    (inverseLerpF a b v).isFinite = true ∧
    toRat (inverseLerpF a b v) = rnd (rnd (toRat v - toRat a) / rnd (toRat b - toRat a)) := by
  have ho := sub_lt ha hb
  have hv' := sub_lt ha hv
  have hz : ¬ feq (sub b a) zero = true := by rw [feq_sub_zero ha.1 hb.1 ho]; exact hab
  unfold inverseLerpF
  rw [if_neg hz]
  have fs := isFinite_sub hb.1 ha.1 ho
  have fv := isFinite_sub hv.1 ha.1 hv'
  have es := toRat_sub hb.1 ha.1 ho
  have ev := toRat_sub hv.1 ha.1 hv'
  have hne : toRat (sub b a) ≠ 0 := by rw [es]; exact rnd_sub_ne hab
  rw [← es, ← ev] at h
  rw [isFinite_div fv fs hne h, toRat_div fv fs hne h, es, ev]
  exact ⟨rfl, rfl⟩

theorem quotient {a b v : ℚ} (h : BetweenQ a b v) (hne : rnd (b - a) ≠ 0) :
    0 ≤ rnd (v - a) / rnd (b - a) ∧ rnd (v - a) / rnd (b - a) ≤ 1 := by
  rcases h with ⟨h1, h2⟩ | ⟨h1, h2⟩
  · have n0 : 0 ≤ rnd (v - a) := rnd_nonneg (by linarith)
    have n1 : rnd (v - a) ≤ rnd (b - a) := rnd_mono (by linarith)
    have d0 : 0 < rnd (b - a) := lt_of_le_of_ne (n0.trans n1) (Ne.symm hne)
    exact ⟨div_nonneg n0 d0.le, (div_le_one d0).2 n1⟩
  · have n0 : rnd (v - a) ≤ 0 := rnd_nonpos (by linarith)
    have n1 : rnd (b - a) ≤ rnd (v - a) := rnd_mono (by linarith)
    have d0 : rnd (b - a) < 0 := lt_of_le_of_ne (n1.trans n0) hne
    exact ⟨div_nonneg_of_nonpos n0 d0.le, (div_le_one_of_neg d0).2 n1⟩

theorem small_unit {q : ℚ} (h0 : 0 ≤ q) (h1 : q ≤ 1) : |q| < ovf := by
  rw [abs_of_nonneg h0]
  have := ovf_big
  have : (1 : ℚ) < 2 ^ 127 := by norm_num
  linarith

theorem inverse_unit {a b v : F32} (ha : Moderate a) (hb : Moderate b) (hv : Moderate v)
    (h : BetweenQ (toRat a) (toRat b) (toRat v)) : UnitInterval (inverseLerpF a b v) := by
  by_cases hab : toRat a = toRat b
  · unfold inverseLerpF
    rw [if_pos ((feq_sub_zero ha.1 hb.1 (sub_lt ha hb)).2 hab)]
    exact ⟨isFinite_zero, by rw [toRat_zero], by rw [toRat_zero]; norm_num⟩
  · obtain ⟨q0, q1⟩ := quotient h (rnd_sub_ne hab)
    obtain ⟨f, e⟩ := inverse_value ha hb hv hab (small_unit q0 q1)
    exact ⟨f, by rw [e]; exact rnd_nonneg q0, by rw [e]; exact rnd_le_of_le repr_one q1⟩

/-! ## Lerp -/

theorem lerp_interpolates {a b t : F32} (ha : Moderate a) (hb : Moderate b) (ht : UnitInterval t) :
    Interpolates a b t (lerpF a b t) := by
  have h := Tip.lerpF_err ha.1 hb.1 ht.1 ht.2.1 ht.2.2 ha.2 hb.2
  refine ⟨h.1, ?_⟩
  rw [mul_comm (toRat t)]
  exact h.2

theorem mul_not_nan {a b : F32} (ha : a.isFinite = true) (hb : b.isFinite = true) : (mul a b).isNaN = false := (key_mul ha hb).1

theorem add_not_nan {a b : F32} (ha : a.isFinite = true) (hb : b.isNaN = false) : (add a b).isNaN = false := by
  rcases isFinite_or_inf hb with hf | ⟨s, rfl⟩
  · exact (key_add ha hf).1
  · obtain ⟨s', n, hn, rfl⟩ := exists_of_isFinite ha
    rfl

theorem lerp_not_nan {a b t : F32} (ha : Moderate a) (hb : Moderate b) (ht : t.isFinite = true) : (lerpF a b t).isNaN = false :=
  add_not_nan ha.1 (mul_not_nan (isFinite_sub hb.1 ha.1 (sub_lt ha hb)) ht)

theorem mul_mono {d t t' : F32} (hd : d.isFinite = true) (ht : t.isFinite = true) (ht' : t'.isFinite = true)
    (h : toRat d * toRat t ≤ toRat d * toRat t') : NLt (mul d t) (mul d t') := by
  rw [nlt_iff]
  intro _ _
  rw [(key_mul hd ht).2, (key_mul hd ht').2]
  exact keyR_mono h

theorem lerp_mono {a b t t' : F32} (ha : Moderate a) (hb : Moderate b) (ht : t.isFinite = true) (ht' : t'.isFinite = true)
    (h : toRat t ≤ toRat t') :
    (toRat a ≤ toRat b → le (lerpF a b t) (lerpF a b t') = true) ∧ (toRat b ≤ toRat a → le (lerpF a b t') (lerpF a b t) = true) := by
  have ho := sub_lt ha hb
  have fd := isFinite_sub hb.1 ha.1 ho
  have ed := toRat_sub hb.1 ha.1 ho
  constructor
  · intro hab
    have hd : 0 ≤ toRat (sub b a) := by rw [ed]; exact rnd_nonneg (by linarith)
    exact (NLt.add (NLt.refl a) (mul_mono fd ht ht' (mul_le_mul_of_nonneg_left h hd))).le
      (lerp_not_nan ha hb ht) (lerp_not_nan ha hb ht')
  · intro hab
    have hd : toRat (sub b a) ≤ 0 := by rw [ed]; exact rnd_nonpos (by linarith)
    exact (NLt.add (NLt.refl a) (mul_mono fd ht' ht (mul_le_mul_of_nonpos_left h hd))).le
      (lerp_not_nan ha hb ht') (lerp_not_nan ha hb ht)

theorem lerp_start {a b t : F32} (ha : Moderate a) (hb : Moderate b) (ht : t.isFinite = true)
    (h : toRat t = 0 ∨ toRat a = toRat b) : SameValue (lerpF a b t) a := by
  have ho := sub_lt ha hb
  have fd := isFinite_sub hb.1 ha.1 ho
  have ed := toRat_sub hb.1 ha.1 ho
  have z : toRat (sub b a) * toRat t = 0 := by
    rcases h with h | h
    · rw [h, mul_zero]
    · rw [ed, h, sub_self, rnd_zero, zero_mul]
  have ov : (0 : ℚ) < ovf := by have := ovf_big; have : (0 : ℚ) < 2 ^ 127 := by norm_num
                                linarith
  have hm : |toRat (sub b a) * toRat t| < ovf := by rw [z, abs_zero]; exact ov
  have fm := isFinite_mul fd ht hm
  have em := toRat_mul fd ht hm
  rw [z, rnd_zero] at em
  have hs : |toRat a + toRat (mul (sub b a) t)| < ovf := by
    rw [em, add_zero]
    have := ha.2
    have := ovf_big
    have : (2 : ℚ) ^ 126 < 2 ^ 127 := by norm_num
    linarith
  refine ⟨isFinite_add ha.1 fm hs, ?_⟩
  unfold lerpF
  rw [toRat_add ha.1 fm hs, em, add_zero, rnd_toRat]

/-! ## Weighted sums: colours and angles -/

theorem weighted {a b t : F32} (ha : Moderate a) (hb : Moderate b) (ht : UnitInterval t) :
    Interpolates a b t (add (mul a (sub VecF.one t)) (mul b t)) ∧
    (toRat t = 0 → toRat (add (mul a (sub VecF.one t)) (mul b t)) = toRat a) ∧
    (toRat t = 1 → toRat (add (mul a (sub VecF.one t)) (mul b t)) = toRat b) := by
  obtain ⟨hf, h0, h1⟩ := ht
  have o1 : |toRat VecF.one - toRat t| < ovf := by rw [toRat_one']; exact small_unit (by linarith) (by linarith)
  have fu := isFinite_sub one_finite hf o1
  have eu := toRat_sub one_finite hf o1
  rw [toRat_one'] at eu
  have er := Tip.err_sum (1 - toRat t)
  rw [← eu] at er
  have u0 : 0 ≤ toRat (sub VecF.one t) := by rw [eu]; exact rnd_nonneg (by linarith)
  have u1 : toRat (sub VecF.one t) ≤ 1 := by rw [eu]; exact rnd_le_of_le repr_one (by linarith)
  set u := toRat (sub VecF.one t) with hu
  set x := toRat a with hx
  set y := toRat b with hy
  set s := toRat t with hs
  have hov := ovf_big
  have e127 : (2 : ℚ) ^ 127 = 2 ^ 126 + 2 ^ 126 := by norm_num
  have p126 : (0 : ℚ) < 2 ^ 126 := by norm_num
  have b1 : |x * u| ≤ |x| := by rw [abs_mul, abs_of_nonneg u0]; exact mul_le_of_le_one_right (abs_nonneg x) u1
  have b2 : |y * s| ≤ |y| := by rw [abs_mul, abs_of_nonneg h0]; exact mul_le_of_le_one_right (abs_nonneg y) h1
  have ax := ha.2
  have ay := hb.2
  rw [← hx] at ax
  rw [← hy] at ay
  have o2 : |x * u| < ovf := by linarith
  have o3 : |y * s| < ovf := by linarith
  have fp := isFinite_mul ha.1 fu o2
  have ep := toRat_mul ha.1 fu o2
  have fq := isFinite_mul hb.1 hf o3
  have eq := toRat_mul hb.1 hf o3
  rw [← hx, ← hu] at ep
  rw [← hy, ← hs] at eq
  have m1 := Tip.err_sum (x * u)
  have m2 := Tip.err_sum (y * s)
  rw [← ep] at m1
  rw [← eq] at m2
  have abx : |toRat (mul a (sub VecF.one t))| ≤ |x| := by
    rw [ep, rnd_abs]
    have := rnd_mono b1
    have k : rnd |x| = |x| := by rw [← rnd_abs, hx, rnd_toRat]
    rwa [k] at this
  have aby : |toRat (mul b t)| ≤ |y| := by
    rw [eq, rnd_abs]
    have := rnd_mono b2
    have k : rnd |y| = |y| := by rw [← rnd_abs, hy, rnd_toRat]
    rwa [k] at this
  set p := toRat (mul a (sub VecF.one t)) with hp
  set q := toRat (mul b t) with hq
  have o4 : |p + q| < ovf := by
    have := abs_add_le p q
    linarith
  have fs := isFinite_add fp fq o4
  have es := toRat_add fp fq o4
  rw [← hp, ← hq] at es
  have m3 := Tip.err_sum (p + q)
  rw [← es] at m3
  refine ⟨⟨fs, ?_⟩, ?_, ?_⟩
  · rw [← hx, ← hy, ← hs]
    set r := toRat (add (mul a (sub VecF.one t)) (mul b t)) with hr
    have k1 : |x * (u - (1 - s))| ≤ |x| * (1 / 2 ^ 150 + 1 / 2 ^ 24) := by
      rw [abs_mul]
      refine mul_le_mul_of_nonneg_left (er.trans ?_) (abs_nonneg x)
      have : |1 - s| ≤ 1 := by rw [abs_of_nonneg (by linarith)]; linarith
      gcongr
    have k2 : |p - x * u| ≤ 1 / 2 ^ 150 + |x| / 2 ^ 24 := m1.trans (by gcongr)
    have k3 : |q - y * s| ≤ 1 / 2 ^ 150 + |y| / 2 ^ 24 := m2.trans (by gcongr)
    have k4 : |r - (p + q)| ≤ 1 / 2 ^ 150 + (|x| + |y|) / 2 ^ 24 := m3.trans (by
      have := abs_add_le p q
      gcongr
      linarith)
    have e : r - (x + s * (y - x)) = (r - (p + q)) + ((p - x * u) + ((q - y * s) + x * (u - (1 - s)))) := by ring
    rw [e]
    have l1 := abs_add_le (r - (p + q)) ((p - x * u) + ((q - y * s) + x * (u - (1 - s))))
    have l2 := abs_add_le (p - x * u) ((q - y * s) + x * (u - (1 - s)))
    have l3 := abs_add_le (q - y * s) (x * (u - (1 - s)))
    have px := abs_nonneg x
    have py := abs_nonneg y
    have c1 : |x| * (1 / 2 ^ 150 + 1 / 2 ^ 24) ≤ 2 * (|x| / 2 ^ 24) := by
      rw [show 2 * (|x| / 2 ^ 24) = |x| * (1 / 2 ^ 24 + 1 / 2 ^ 24) by ring]
      gcongr <;> norm_num
    have c2 : (|x| + |y|) / 2 ^ 22 = 4 * (|x| / 2 ^ 24) + 4 * (|y| / 2 ^ 24) := by ring
    have c3 : (|x| + |y|) / 2 ^ 24 = |x| / 2 ^ 24 + |y| / 2 ^ 24 := by ring
    have c4 : (1 : ℚ) / 2 ^ 148 = 4 * (1 / 2 ^ 150) := by norm_num
    have c5 : (0 : ℚ) ≤ 1 / 2 ^ 150 := by norm_num
    have c6 : 0 ≤ |y| / 2 ^ 24 := by positivity
    rw [c2, c4]
    rw [c3] at k4
    linarith
  · intro h
    have r1 : rnd (1 : ℚ) = 1 := by have := rnd_toRat VecF.one; rwa [toRat_one'] at this
    have : u = 1 := by rw [eu, h, sub_zero, r1]
    rw [es, eq, ep, this, h, mul_one, mul_zero, rnd_zero, add_zero, hx, rnd_toRat, rnd_toRat]
  · intro h
    have : u = 0 := by rw [eu, h, sub_self, rnd_zero]
    rw [es, eq, ep, this, h, mul_one, mul_zero, rnd_zero, zero_add, hy, rnd_toRat, rnd_toRat]

end Verif.Interp
