import Verif.Model.BrushBehavior
import Verif.Props.Color

/-!
# C41: out-of-range handling of source values
-/

set_option autoImplicit false

namespace Verif.Tip

open F32

theorem toRat_one : toRat one = 1 := Verif.toRat_one
theorem toRat_two : toRat two = 2 := Verif.toRat_two

/-- Halving is exact except for subnormal numbers. -/
theorem repr_half {x : F32} (h : 1 / 2 ^ 125 ≤ |toRat x|) : F32.Repr (toRat x / 2) := by
  have key : ∀ n : Nat, 1 / 2 ^ 125 ≤ (mag n : ℚ) / 2 ^ 149 → (mag n : ℚ) / 2 ^ 149 ≤ maxVal →
      F32.Repr ((mag n : ℚ) / 2 ^ 149 / 2) := by
    intro n h hm
    obtain ⟨M, hM, he, -⟩ := mag_eq n
    have hg : 1 ≤ gapE n := by
      by_contra hc
      have : gapE n = 0 := by omega
      rw [this] at he
      have h2 : mag n < 2 ^ 24 := by omega
      have h3 : (mag n : ℚ) < 2 ^ 24 := by exact_mod_cast h2
      rw [le_div_iff₀ (by positivity)] at h
      norm_num at h h3
      linarith
    obtain ⟨e, hge⟩ : ∃ e, gapE n = e + 1 := ⟨gapE n - 1, by omega⟩
    refine Repr.of_mul_pow (M := M) (e := e) ?_ ?_ ?_
    · rw [abs_of_nonneg (by positivity)]; exact_mod_cast hM
    · rw [he, hge, pow_succ]; push_cast; field_simp
    · rw [abs_of_nonneg (by positivity)]
      have : maxVal < 2 ^ 128 := by unfold maxVal; norm_num
      have h0 : (0 : ℚ) ≤ (mag n : ℚ) / 2 ^ 149 := by positivity
      linarith
  have hm := abs_toRat_le x
  cases x with
  | nan => simp only [toRat, abs_zero] at h; norm_num at h
  | inf s => simp only [toRat, abs_zero] at h; norm_num at h
  | fin s n hn =>
    cases s with
    | false =>
      rw [toRat_fin_false] at h hm ⊢
      rw [abs_of_nonneg (by positivity)] at h hm
      exact key n h hm
    | true =>
      rw [toRat_fin_true] at h hm ⊢
      rw [abs_neg, abs_of_nonneg (by positivity)] at h hm
      have := (key n h hm).neg
      rwa [← neg_div] at this

theorem fround_spec {a : F32} (ha : a.isFinite = true) :
    ∃ r : ℤ, toRat (fround a) = r ∧ |(r : ℚ) - toRat a| ≤ 1 / 2 := by
  obtain ⟨s, n, hn, rfl⟩ := exists_of_isFinite ha
  rw [toRat_fround_abs]
  have h1 := Int.floor_le ((mag n : ℚ) / 2 ^ 149 + 1 / 2)
  have h2 := Int.lt_floor_add_one ((mag n : ℚ) / 2 ^ 149 + 1 / 2)
  cases s with
  | false =>
    refine ⟨⌊(mag n : ℚ) / 2 ^ 149 + 1 / 2⌋, by simp, ?_⟩
    rw [toRat_fin_false, abs_le]; constructor <;> linarith
  | true =>
    refine ⟨-⌊(mag n : ℚ) / 2 ^ 149 + 1 / 2⌋, by simp, ?_⟩
    rw [toRat_fin_true, abs_le]; push_cast; constructor <;> linarith

theorem fabs_spec {a : F32} (ha : a.isFinite = true) :
    (fabs a).isFinite = true ∧ toRat (fabs a) = |toRat a| := by
  obtain ⟨s, n, hn, rfl⟩ := exists_of_isFinite ha
  refine ⟨rfl, ?_⟩
  cases s with
  | false => rw [toRat_fin_false, abs_of_nonneg (by positivity)]; simp only [fabs, toRat_fin_false]
  | true =>
    rw [toRat_fin_true, abs_neg, abs_of_nonneg (by positivity)]; simp only [fabs, toRat_fin_false]

theorem mirror_spec {x : F32} (hx : x.isFinite = true) :
    (applyOutOfRange .mirror x).isFinite = true ∧ toRat (applyOutOfRange .mirror x) ≤ 1 ∧
    0 ≤ toRat (applyOutOfRange .mirror x) ∧
    ∃ r : ℤ, |toRat x - 2 * r| ≤ 1 ∧ toRat (applyOutOfRange .mirror x) = rnd |toRat x - 2 * r| := by
  obtain ⟨fh, eh, -⟩ := half_spec hx
  obtain ⟨r, er, hr⟩ := fround_spec fh
  have ov1 : (1 : ℚ) < ovf := by unfold ovf; norm_num
  have hxb := abs_toRat_le x
  -- the exact result is within 1 and `2 r` is exact
  have main : |toRat x - 2 * r| ≤ 1 ∧ F32.Repr ((2 * r : ℤ) : ℚ) := by
    by_cases hs : 1 / 2 ^ 125 ≤ |toRat x|
    · have hrep := repr_half hs
      have eh' : toRat (mul RectF.half x) = toRat x / 2 := by rw [eh, hrep.rnd_eq]
      rw [eh'] at hr
      have h1 : |toRat x - 2 * r| ≤ 1 := by
        have : toRat x - 2 * r = -2 * (r - toRat x / 2) := by ring
        rw [this, abs_mul]; norm_num; linarith
      refine ⟨h1, ?_⟩
      by_cases hb : |toRat x| < 2 ^ 24
      · apply Repr.ofInt
        have h2 := abs_le.1 h1
        have h3 := abs_lt.1 hb
        have h4 : ((2 * r : ℤ) : ℚ) < ((2 ^ 24 + 1 : ℤ) : ℚ) := by push_cast; linarith
        have h5 : ((-(2 ^ 24 + 1) : ℤ) : ℚ) < ((2 * r : ℤ) : ℚ) := by push_cast; linarith
        have h4 := Int.cast_lt.1 h4
        have h5 := Int.cast_lt.1 h5
        rw [abs_le]; constructor <;> omega
      · have hz : 2 ^ 23 ≤ |toRat (mul RectF.half x)| := by
          rw [eh', abs_div, abs_of_pos (by norm_num : (0 : ℚ) < 2)]
          push Not at hb
          norm_num at hb ⊢; linarith
        obtain ⟨z, hz⟩ := toRat_int_of_ge hz
        rw [eh'] at hz
        have : r = z := by
          rw [hz] at hr
          have hr := abs_le.1 hr
          have a1 : ((r - z : ℤ) : ℚ) < 1 := by push_cast; linarith
          have a2 : (-1 : ℚ) < ((r - z : ℤ) : ℚ) := by push_cast; linarith
          have a1 : r - z < 1 := by exact_mod_cast a1
          have a2 : -1 < r - z := by exact_mod_cast a2
          omega
        have e2 : ((2 * r : ℤ) : ℚ) = toRat x := by rw [this]; push_cast; linarith
        rw [e2]; exact Repr.toRat x
    · push Not at hs
      have h3 : |toRat (mul RectF.half x)| ≤ 1 / 2 ^ 125 := by
        rw [eh, rnd_abs, abs_div, abs_of_pos (by norm_num : (0 : ℚ) < 2)]
        apply rnd_le_of_le
        · exact Repr.of_mul_pow (M := 1) (e := 24) (by norm_num) (by norm_num) (by
            rw [abs_of_pos (by positivity)]; norm_num)
        · linarith [abs_nonneg (toRat x)]
      have : r = 0 := by
        have hr := abs_le.1 hr
        have h3 := abs_le.1 h3
        have a1 : (r : ℚ) < 1 := by norm_num at h3 hr ⊢; linarith
        have a2 : (-1 : ℚ) < r := by norm_num at h3 hr ⊢; linarith
        have a1 : r < 1 := by exact_mod_cast a1
        have a2 : -1 < r := by exact_mod_cast a2
        omega
      subst this
      refine ⟨?_, ?_⟩
      · simp only [Int.cast_zero, mul_zero, sub_zero]; norm_num at hs ⊢; linarith
      · simpa using Repr.ofInt (z := 0) (by norm_num)
  obtain ⟨h1, h2⟩ := main
  have ff := isFinite_fround fh
  have e2 : toRat two * toRat (fround (mul RectF.half x)) = ((2 * r : ℤ) : ℚ) := by
    rw [toRat_two, er]; push_cast; ring
  have hov : |toRat two * toRat (fround (mul RectF.half x))| < ovf := by rw [e2]; exact h2.lt_ovf
  have fm : (mul two (fround (mul RectF.half x))).isFinite = true := isFinite_mul (a := two) rfl ff hov
  have em : toRat (mul two (fround (mul RectF.half x))) = 2 * r := by
    rw [toRat_mul rfl ff hov, e2, h2.rnd_eq]; push_cast; ring
  have hov2 : |toRat x - toRat (mul two (fround (mul RectF.half x)))| < ovf := by rw [em]; linarith
  have fs := isFinite_sub hx fm hov2
  have es := toRat_sub hx fm hov2
  rw [em] at es
  obtain ⟨fa, ea⟩ := fabs_spec fs
  have ea' : toRat (applyOutOfRange .mirror x) = rnd |toRat x - 2 * r| := by
    rw [← rnd_abs, ← es]; exact ea
  refine ⟨fa, ?_, ?_, r, h1, ea'⟩
  · rw [ea']; exact rnd_le_of_le repr_one h1
  · rw [ea']; exact rnd_nonneg (abs_nonneg _)

theorem repeat_spec {x : F32} (hx : x.isFinite = true) :
    (applyOutOfRange .repeat x).isFinite = true ∧
    toRat (applyOutOfRange .repeat x) = rnd (Int.fract (toRat x)) := by
  have ff := isFinite_ffloor hx
  have ef := toRat_ffloor hx
  have h0 := Int.fract_nonneg (toRat x)
  have h1 := Int.fract_lt_one (toRat x)
  have ov1 : (1 : ℚ) < ovf := by unfold ovf; norm_num
  have e : toRat x - toRat (ffloor x) = Int.fract (toRat x) := by rw [ef]; rfl
  have hov : |toRat x - toRat (ffloor x)| < ovf := by
    rw [e, abs_of_nonneg h0]; linarith
  refine ⟨isFinite_sub hx ff hov, ?_⟩
  have := toRat_sub hx ff hov
  rw [e] at this
  exact this

/-- C41. For every finite source value, each of the three out-of-range behaviors gives a finite value
between 0 and 1. -/
theorem C41_unit_interval (b : OutOfRange) {x : F32} (hx : x.isFinite = true) :
    (applyOutOfRange b x).isFinite = true ∧
    le zero (applyOutOfRange b x) = true ∧ le (applyOutOfRange b x) one = true := by
  have key : (applyOutOfRange b x).isFinite = true ∧ 0 ≤ toRat (applyOutOfRange b x) ∧
      toRat (applyOutOfRange b x) ≤ 1 := by
    cases b with
    | clamp => exact Color.clamp01 (isNaN_of_isFinite hx)
    | mirror => exact ⟨(mirror_spec hx).1, (mirror_spec hx).2.2.1, (mirror_spec hx).2.1⟩
    | «repeat» =>
      obtain ⟨f, e⟩ := repeat_spec hx
      refine ⟨f, ?_, ?_⟩
      · rw [e]; exact rnd_nonneg (Int.fract_nonneg _)
      · rw [e]; exact rnd_le_of_le repr_one (Int.fract_lt_one _).le
  refine ⟨key.1, (le_iff rfl key.1).2 ?_, (le_iff key.1 rfl).2 ?_⟩
  · rw [toRat_zero]; exact key.2.1
  · rw [toRat_one]; exact key.2.2

/-- C41. What the value is: the source clamped to [0, 1]; the distance to the integer below, rounded;
the distance to a nearest even integer, rounded. -/
theorem C41_values {x : F32} (hx : x.isFinite = true) :
    (toRat (applyOutOfRange .clamp x) = max 0 (min 1 (toRat x))) ∧
    (toRat (applyOutOfRange .repeat x) = rnd (Int.fract (toRat x))) ∧
    ∃ r : ℤ, |toRat x - 2 * r| ≤ 1 ∧
      toRat (applyOutOfRange .mirror x) = rnd |toRat x - 2 * r| := by
  refine ⟨?_, (repeat_spec hx).2, (mirror_spec hx).2.2.2⟩
  have hn := isNaN_of_isFinite hx
  have l1 := lt_iff (a := x) (b := zero) hx rfl
  have l2 := lt_iff (a := one) (b := x) rfl hx
  rw [toRat_zero] at l1
  rw [toRat_one] at l2
  simp only [applyOutOfRange, F32.clamp]
  by_cases h1 : lt x zero = true
  · rw [if_pos h1, toRat_zero]
    have := l1.1 h1
    rw [max_eq_left (_root_.le_trans (min_le_right _ _) this.le)]
  · rw [if_neg h1]
    have g1 : 0 ≤ toRat x := not_lt.1 fun h => h1 (l1.2 h)
    by_cases h2 : lt one x = true
    · rw [if_pos h2, toRat_one]
      have := l2.1 h2
      rw [min_eq_left this.le, max_eq_right zero_le_one]
    · rw [if_neg h2]
      have g2 : toRat x ≤ 1 := not_lt.1 fun h => h2 (l2.2 h)
      rw [min_eq_right g2, max_eq_right g1]

/-- C41. A source value already between 0 and 1 is kept by every behavior, except that repeating sends
1 to 0. -/
theorem C41_identity {x : F32} (hx : x.isFinite = true) (h0 : le zero x = true)
    (h1 : le x one = true) :
    toRat (applyOutOfRange .clamp x) = toRat x ∧ toRat (applyOutOfRange .mirror x) = toRat x ∧
    (lt x one = true → toRat (applyOutOfRange .repeat x) = toRat x) ∧
    (feq x one = true → toRat (applyOutOfRange .repeat x) = 0) := by
  have q0 : 0 ≤ toRat x := by have := (le_iff rfl hx).1 h0; rwa [toRat_zero] at this
  have q1 : toRat x ≤ 1 := by have := (le_iff hx rfl).1 h1; rwa [toRat_one] at this
  obtain ⟨c, p, r, hr, e⟩ := C41_values hx
  refine ⟨by rw [c, min_eq_right q1, max_eq_right q0], ?_, ?_, ?_⟩
  · rw [e]
    have hr' := abs_le.1 hr
    have hr0 : (-1 : ℤ) < r := by
      have : ((-1 : ℤ) : ℚ) < (r : ℚ) := by push_cast; linarith
      exact Int.cast_lt.1 this
    have hr1 : r < (2 : ℤ) := by
      have : (r : ℚ) < ((2 : ℤ) : ℚ) := by push_cast; linarith
      exact Int.cast_lt.1 this
    have : r = 0 ∨ r = 1 := by omega
    rcases this with rfl | rfl
    · simp only [Int.cast_zero, mul_zero, sub_zero, abs_of_nonneg q0, rnd_toRat]
    · have hx1 : toRat x = 1 := by
        simp only [Int.cast_one, mul_one] at hr'; linarith
      rw [hx1]; norm_num; exact repr_one.rnd_eq
  · intro h
    have := (lt_iff hx rfl).1 h
    rw [toRat_one] at this
    rw [p, Int.fract_eq_self.2 ⟨q0, this⟩, rnd_toRat]
  · intro h
    have := (feq_iff hx rfl).1 h
    rw [toRat_one] at this
    rw [p, this]; simp

/-- C41, outside its hypothesis: an infinite source value (a speed that overflowed, say) is clamped, but
becomes null (NaN) when repeated or mirrored. -/
theorem C41_infinite (s : Bool) :
    applyOutOfRange .clamp (.inf s) = (if s then zero else one) ∧
    applyOutOfRange .repeat (.inf s) = .nan ∧ applyOutOfRange .mirror (.inf s) = .nan := by
  cases s <;> decide +kernel

/-- Repeating a small negative value rounds to exactly 1: the upper end of the interval is reached. -/
example : applyOutOfRange .repeat (.fin true 0x2F800000 (by decide)) = one := by decide +kernel

/-- 2.75 clamps to 1, repeats to 0.75 and mirrors to 0.75. -/
example : let x : F32 := .fin false 0x40300000 (by decide)
    x.isFinite = true ∧ applyOutOfRange .clamp x = one ∧
    applyOutOfRange .repeat x = .fin false 0x3F400000 (by decide) ∧
    applyOutOfRange .mirror x = .fin false 0x3F400000 (by decide) := by decide +kernel

end Verif.Tip
