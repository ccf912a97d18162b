import Verif.Model.VecF32
import Verif.F32.Mono

/-!
# Lemmas about unit vectors and angles in binary32 (C57, C58)
-/

set_option autoImplicit false
set_option exponentiation.threshold 400

namespace Verif.VecF

open F32

theorem toRat_one : toRat one = 1 := by
  have : mag 0x3F800000 = 2 ^ 149 := by decide +kernel
  unfold one; rw [toRat_fin_false, this]; norm_num

theorem toRat_half : toRat half = 1 / 2 := by
  have : mag 0x3F000000 = 2 ^ 148 := by decide +kernel
  unfold half; rw [toRat_fin_false, this]; norm_num

theorem abs_half_lt (x : F32) : |toRat half * toRat x| < ovf := by
  have := abs_toRat_le x
  have := maxVal_lt_ovf
  rw [toRat_half, abs_mul]
  have h0 := abs_nonneg (toRat x)
  rw [abs_of_pos (by norm_num : (0 : ℚ) < 1 / 2)]
  linarith

theorem finite_half {x : F32} (hx : x.isFinite = true) : (mul half x).isFinite = true := isFinite_mul rfl hx (abs_half_lt x)

/-- Half of a float is zero only for the smallest floats. -/
theorem half_zero {x : F32} (hx : x.isFinite = true) : (∃ s, mul half x = szero s) ↔ |toRat x| ≤ 1 / 2 ^ 149 := by
  obtain ⟨s, n, hn, rfl⟩ := exists_of_isFinite hx
  rw [abs_toRat_fin]
  by_cases h : n ≤ 1
  · have h1 : n = 0 ∨ n = 1 := by omega
    constructor
    · intro _
      rcases h1 with rfl | rfl
      · have : mag 0 = 0 := by decide +kernel
        rw [this]; norm_num
      · have : mag 1 = 1 := by decide +kernel
        rw [this]; norm_num
    · intro _
      rcases h1 with rfl | rfl
      · have : ∀ s, mul half (fin s 0 (by decide)) = szero s := by decide +kernel
        exact ⟨s, this s⟩
      · have : ∀ s, mul half (fin s 1 (by decide)) = szero s := by decide +kernel
        exact ⟨s, this s⟩
  · have hm : 2 ≤ mag n := by
      have h2 : mag 2 = 2 := by decide +kernel
      rw [← h2]
      exact mag_le_iff.2 (by omega)
    have hm' : (2 : ℚ) ≤ (mag n : ℚ) := by exact_mod_cast hm
    constructor
    · rintro ⟨t, ht⟩
      exfalso
      have e := toRat_mul (a := half) (b := fin s n hn) rfl rfl (abs_half_lt _)
      rw [ht] at e
      have e0 : toRat (szero t) = 0 := by cases t <;> decide +kernel
      rw [e0] at e
      have e1 := rnd_abs (toRat half * toRat (fin s n hn))
      rw [← e, abs_zero, abs_mul, toRat_half, abs_toRat_fin, abs_of_pos (by norm_num : (0 : ℚ) < 1 / 2)] at e1
      have hr : Repr (1 / 2 ^ 149 : ℚ) := Repr.of_mul_pow (M := 1) (e := 0) (by norm_num) (by norm_num) (by norm_num)
      have := le_rnd_of_le hr (q := 1 / 2 * ((mag n : ℚ) / 2 ^ 149)) (by
        rw [div_le_iff₀ (by positivity)]
        have : 1 / 2 * ((mag n : ℚ) / 2 ^ 149) * 2 ^ 149 = mag n / 2 := by field_simp
        rw [this]; linarith)
      rw [← e1] at this
      norm_num at this
    · intro h'
      exfalso
      rw [div_le_div_iff_of_pos_right (by positivity)] at h'
      linarith

theorem isInf_false {x : F32} (h : x.isNaN = false) (h' : x.isInf = false) : x.isFinite = true := by
  cases x with
  | nan => cases h
  | inf s => cases h'
  | fin s n hn => rfl

theorem zero_of_key {x : F32} (h : x.isNaN = false) (hk : key x = 0) : ∃ s, x = szero s := by
  cases x with
  | nan => cases h
  | inf s => cases s <;> revert hk <;> decide
  | fin s n hn =>
    refine ⟨s, ?_⟩
    have : n = 0 := by
      cases s
      · simpa [key] using hk
      · simpa [key] using hk
    subst this
    rfl

theorem feq_zero {x : F32} : feq x zero = true ↔ ∃ s, x = szero s := by
  constructor
  · intro h
    simp only [feq, Bool.and_eq_true, decide_eq_true_eq, Bool.not_eq_true'] at h
    exact zero_of_key h.1.1 h.2
  · rintro ⟨s, rfl⟩; cases s <;> decide

theorem key_fabs (x : F32) : key (fabs x) = |key x| := by
  cases x with
  | nan => rfl
  | inf s => cases s <;> decide
  | fin s n hn =>
    cases s
    · show (n : ℤ) = |(n : ℤ)|; simp
    · show (n : ℤ) = |-(n : ℤ)|; simp

theorem isNaN_fabs (x : F32) : (fabs x).isNaN = x.isNaN := by cases x <;> rfl

/-- The check fails only for the smallest vectors. -/
theorem unit_none {hypot : F32 → F32 → F32} (H : HypotOk hypot) (v : F32 × F32) : asUnitVec hypot v = none ↔
    v.1.isFinite = true ∧ v.2.isFinite = true ∧ ¬ (toRat v.1 = 0 ∧ toRat v.2 = 0) ∧ |toRat v.1| ≤ 1 / 2 ^ 149 ∧ |toRat v.2| ≤ 1 / 2 ^ 149 := by
  obtain ⟨x, y⟩ := v
  unfold asUnitVec
  dsimp only
  have nf : ∀ z : F32, z.isFinite = true → z.isNaN = false ∧ z.isInf = false := fun z hz => by cases z <;> first | exact ⟨rfl, rfl⟩ | cases hz
  by_cases hx : x.isFinite = true
  swap
  · simp only [hx, Bool.false_eq_true, false_and, iff_false]
    split_ifs with h1 h2 h3 h4 h5 <;> try simp
    exfalso
    rw [Bool.or_eq_true, not_or, Bool.not_eq_true] at h1
    rw [Bool.not_eq_true] at h2
    exact hx (isInf_false h1.1 h2)
  by_cases hy : y.isFinite = true
  swap
  · simp only [hy, Bool.false_eq_true, false_and, and_false, iff_false]
    split_ifs with h1 h2 h3 h4 h5 <;> try simp
    exfalso
    rw [Bool.or_eq_true, not_or, Bool.not_eq_true, Bool.not_eq_true] at h1
    rw [Bool.not_eq_true] at h4
    exact hy (isInf_false h1.2 h4)
  rw [(nf x hx).1, (nf x hx).2, (nf y hy).1, (nf y hy).2]
  simp only [Bool.or_false, Bool.false_eq_true, if_false, hx, hy, true_and]
  have hz : (feq x zero && feq y zero) = true ↔ toRat x = 0 ∧ toRat y = 0 := by
    rw [Bool.and_eq_true, feq_iff hx rfl, feq_iff hy rfl]
    have : toRat zero = 0 := by decide +kernel
    rw [this]
  by_cases h0 : (feq x zero && feq y zero) = true
  · rw [if_pos h0]
    simp [hz.1 h0]
  · rw [if_neg h0]
    have h0' : ¬ (toRat x = 0 ∧ toRat y = 0) := fun h => h0 (hz.2 h)
    simp only [h0', not_false_iff, true_and]
    rw [← half_zero hx, ← half_zero hy]
    have fx := finite_half hx
    have fy := finite_half hy
    constructor
    · intro h
      split_ifs at h with hm
      obtain ⟨s, hs⟩ := feq_zero.1 hm
      have l := (le_key (H.left (mul half x) (mul half y) (nf _ fx).1 (nf _ fy).1)).2.2
      have r := (le_key (H.right (mul half x) (mul half y) (nf _ fx).1 (nf _ fy).1)).2.2
      have k0 : key (hypot (mul half x) (mul half y)) = 0 := by rw [hs]; cases s <;> rfl
      rw [k0, key_fabs] at l r
      exact ⟨zero_of_key (nf _ fx).1 (abs_nonpos_iff.1 l), zero_of_key (nf _ fy).1 (abs_nonpos_iff.1 r)⟩
    · rintro ⟨⟨s, hs⟩, ⟨t, ht⟩⟩
      rw [hs, ht, if_pos (H.zero s t)]

/-- A finite float between -1 and 1. -/
def Unit1 (x : F32) : Prop := x.isFinite = true ∧ |toRat x| ≤ 1

theorem unit1_div {x m : F32} (hx : x.isFinite = true) (hm : le (fabs x) m = true) (h0 : feq m zero = false) : Unit1 (div x m) := by
  obtain ⟨s, n, hn, rfl⟩ := exists_of_isFinite hx
  have hmn : m.isNaN = false := by
    simp only [le, Bool.and_eq_true, Bool.not_eq_true'] at hm; exact hm.1.2
  rcases isFinite_or_inf hmn with hf | ⟨t, rfl⟩
  · have hle : toRat (fabs (fin s n hn)) ≤ toRat m := (le_iff rfl hf).1 hm
    have ha : toRat (fabs (fin s n hn)) = |toRat (fin s n hn)| := by
      rw [abs_toRat_fin]; exact toRat_fin_false n hn
    rw [ha] at hle
    have hne : toRat m ≠ 0 := by
      intro h
      have : feq m zero = true := (feq_iff hf rfl).2 (by rw [h]; decide +kernel)
      rw [this] at h0; cases h0
    have hpos : 0 < toRat m := lt_of_le_of_ne (_root_.le_trans (abs_nonneg _) hle) (Ne.symm hne)
    have hq : |toRat (fin s n hn) / toRat m| ≤ 1 := by
      rw [abs_div, abs_of_pos hpos]; exact div_le_one_of_le₀ hle hpos.le
    have hov : |toRat (fin s n hn) / toRat m| < ovf := lt_of_le_of_lt hq (by unfold ovf; norm_num)
    refine ⟨isFinite_div rfl hf hne hov, ?_⟩
    rw [toRat_div rfl hf hne hov, rnd_abs]
    exact rnd_le_of_le (by rw [← toRat_one]; exact Repr.toRat one) hq
  · show Unit1 (szero _)
    generalize (xor s t) = b
    cases b <;> exact ⟨rfl, by decide +kernel⟩

theorem unit_range {hypot : F32 → F32 → F32} (H : HypotOk hypot) {v u : F32 × F32} (h1 : v.1.isNaN = false) (h2 : v.2.isNaN = false)
    (h : asUnitVec hypot v = some u) : Unit1 u.1 ∧ Unit1 u.2 := by
  obtain ⟨x, y⟩ := v
  have cs : ∀ a s : F32, Unit1 a → Unit1 (copysign a s) := by
    rintro a s ⟨ha, hb⟩
    unfold copysign
    split
    · obtain ⟨b, n, hn, rfl⟩ := exists_of_isFinite ha
      refine ⟨rfl, ?_⟩
      rw [abs_toRat_fin] at hb
      show |toRat (fin (!b) n hn)| ≤ 1
      rw [abs_toRat_fin]; exact hb
    · exact ⟨ha, hb⟩
  have u1 : Unit1 one := ⟨rfl, by rw [toRat_one]; norm_num⟩
  have u0 : Unit1 zero := ⟨rfl, by decide +kernel⟩
  have uh : Unit1 halfSqrt2 := ⟨rfl, by decide +kernel⟩
  unfold asUnitVec at h
  dsimp only at h h1 h2
  rw [h1, h2] at h
  simp only [Bool.or_false, Bool.false_eq_true, if_false] at h
  split_ifs at h with c1 c2 c3 c4 c5
  · injection h with h; subst h; exact ⟨cs _ _ uh, cs _ _ uh⟩
  · injection h with h; subst h; exact ⟨cs _ _ u1, cs _ _ u0⟩
  · injection h with h; subst h; exact ⟨cs _ _ u0, cs _ _ u1⟩
  · injection h with h; subst h; exact ⟨cs _ _ u1, cs _ _ u0⟩
  · injection h with h; subst h
    have fx := finite_half (isInf_false h1 (by simpa using c1))
    have fy := finite_half (isInf_false h2 (by simpa using c3))
    have nx := isNaN_of_isFinite fx
    have ny := isNaN_of_isFinite fy
    rw [Bool.not_eq_true] at c5
    exact ⟨unit1_div fx (H.left _ _ nx ny) c5, unit1_div fy (H.right _ _ nx ny) c5⟩

theorem unit1_mul {x y : F32} (hx : Unit1 x) (hy : Unit1 y) : Unit1 (mul x y) := by
  have hq : |toRat x * toRat y| ≤ 1 := by rw [abs_mul]; exact mul_le_one₀ hx.2 (abs_nonneg _) hy.2
  have hov : |toRat x * toRat y| < ovf := lt_of_le_of_lt hq (by unfold ovf; norm_num)
  refine ⟨isFinite_mul hx.1 hy.1 hov, ?_⟩
  rw [toRat_mul hx.1 hy.1 hov, rnd_abs]
  exact rnd_le_of_le (by rw [← toRat_one]; exact Repr.toRat one) hq

theorem dot_num {a b : F32 × F32} (ha : Unit1 a.1 ∧ Unit1 a.2) (hb : Unit1 b.1 ∧ Unit1 b.2) : (dotProduct a b).isNaN = false := by
  have h1 := unit1_mul ha.1 hb.1
  have h2 := unit1_mul ha.2 hb.2
  apply isNaN_of_isFinite
  apply isFinite_add h1.1 h2.1
  calc _ ≤ _ := abs_add_le _ _
    _ ≤ 1 + 1 := add_le_add h1.2 h2.2
    _ < ovf := by unfold ovf; norm_num

theorem clamp_range {x : F32} (h : x.isNaN = false) : le (neg one) (clamp x (neg one) one) = true ∧ le (clamp x (neg one) one) one = true := by
  unfold clamp
  by_cases h1 : lt x (neg one) = true
  · rw [if_pos h1]; decide
  · rw [if_neg h1]
    rw [Bool.not_eq_true, not_lt_iff h rfl] at h1
    by_cases h2 : lt one x = true
    · rw [if_pos h2]; decide
    · rw [if_neg h2]
      rw [Bool.not_eq_true, not_lt_iff rfl h] at h2
      exact ⟨h1, h2⟩

theorem bind_some {α β : Type} {x : Option α} {f : α → Option β} {y : β} (h : x.bind f = some y) : ∃ a, x = some a ∧ f a = some y := by
  cases x with
  | none => cases h
  | some a => exact ⟨a, rfl, h⟩

theorem absolute_range {hypot : F32 → F32 → F32} {acos : F32 → F32} (H : HypotOk hypot) (A : AcosOk acos) {a b : F32 × F32} {r : F32}
    (h1 : a.1.isNaN = false ∧ a.2.isNaN = false) (h2 : b.1.isNaN = false ∧ b.2.isNaN = false)
    (h : absoluteAngleBetween hypot acos a b = some r) : le zero r = true ∧ le r Angle.pi = true := by
  obtain ⟨u, hu, h⟩ := bind_some h
  obtain ⟨w, hw, h⟩ := bind_some h
  injection h with h; subst h
  obtain ⟨c1, c2⟩ := clamp_range (dot_num (unit_range H h1.1 h1.2 hu) (unit_range H h2.1 h2.2 hw))
  exact A.range _ c1 c2

theorem neg_lt {r : F32} (h1 : le zero r = true) (h2 : le r Angle.pi = true) (h3 : feq r Angle.pi = false) :
    lt (neg Angle.pi) (neg r) = true ∧ le (neg r) Angle.pi = true := by
  obtain ⟨-, n, k1⟩ := le_key h1
  obtain ⟨-, -, k2⟩ := le_key h2
  have k3 : key r ≠ key Angle.pi := by
    intro h
    have : feq r Angle.pi = true := by
      simp only [feq, Bool.and_eq_true, Bool.not_eq_true', decide_eq_true_eq]; exact ⟨⟨n, rfl⟩, h⟩
    rw [this] at h3; cases h3
  have kn : ∀ x : F32, key (neg x) = -key x := by
    intro x
    cases x with
    | nan => rfl
    | inf s => cases s <;> decide
    | fin s n hn => cases s <;> simp [key, neg]
  have nn : (neg r).isNaN = false := by cases r <;> first | rfl | exact n
  have z : key zero = 0 := rfl
  have p : 0 < key Angle.pi := by decide
  constructor
  · simp only [lt, Bool.and_eq_true, Bool.not_eq_true', decide_eq_true_eq]
    refine ⟨⟨rfl, nn⟩, ?_⟩
    rw [kn, kn]; omega
  · refine le_of_key nn rfl ?_
    rw [kn]; omega

theorem signed_range {hypot : F32 → F32 → F32} {acos : F32 → F32} (H : HypotOk hypot) (A : AcosOk acos) {a b : F32 × F32} {r : F32}
    (h1 : a.1.isNaN = false ∧ a.2.isNaN = false) (h2 : b.1.isNaN = false ∧ b.2.isNaN = false)
    (h : signedAngleBetween hypot acos a b = some r) : lt (neg Angle.pi) r = true ∧ le r Angle.pi = true := by
  obtain ⟨u, hu, h⟩ := bind_some h
  obtain ⟨w, hw, h⟩ := bind_some h
  injection h with h; subst h
  obtain ⟨c1, c2⟩ := clamp_range (dot_num (unit_range H h1.1 h1.2 hu) (unit_range H h2.1 h2.2 hw))
  obtain ⟨r1, r2⟩ := A.range _ c1 c2
  generalize acos (clamp (dotProduct u w) (neg one) one) = r at *
  split
  · refine ⟨?_, r2⟩
    obtain ⟨-, n, k1⟩ := le_key r1
    simp only [lt, Bool.and_eq_true, Bool.not_eq_true', decide_eq_true_eq]
    refine ⟨⟨rfl, n⟩, ?_⟩
    have z : key zero = 0 := rfl
    have p : key (neg Angle.pi) < 0 := by decide
    omega
  · rename_i hc
    rw [Bool.or_eq_true, not_or, Bool.not_eq_true] at hc
    exact neg_lt r1 r2 hc.1

/-! ## Steps of arcs -/

theorem eq_one {x : F32} (hx : x.isFinite = true) (h : toRat x = 1) : x = one := by
  have hk : key x = key one := (key_eq_iff hx rfl).2 (by rw [h, toRat_one])
  obtain ⟨s, n, hn, rfl⟩ := exists_of_isFinite hx
  cases s
  · have : (n : ℤ) = 0x3F800000 := hk
    have : n = 0x3F800000 := by exact_mod_cast this
    subst this; rfl
  · exfalso
    have : -(n : ℤ) = 0x3F800000 := hk
    omega

theorem rnd_below_one : rnd (1 - 1 / 2 ^ 25) = 1 := by
  unfold rnd
  rw [if_neg (by norm_num)]
  have : roundPat ((1 - 1 / 2 ^ 25) * 2 ^ 149) = 0x3F800000 := by decide +kernel
  rw [this]
  have : mag 0x3F800000 = 2 ^ 149 := by decide +kernel
  rw [this]; norm_num

/-- For a small chord height the angle of a step is zero. -/
theorem arcAngle_zero {acos : F32 → F32} (ha : acos one = zero) {r h : F32} (hr : r.isFinite = true) (hh : h.isFinite = true)
    (h0 : 0 < toRat h) (hs : toRat h * 2 ^ 25 ≤ toRat r) : arcAngleForChordHeight acos r h = zero := by
  have hr0 : 0 < toRat r := by have : 0 < toRat h * 2 ^ 25 := by positivity
                               linarith
  unfold arcAngleForChordHeight
  have hz : feq r zero = false := by
    rw [← Bool.not_eq_true, feq_iff hr rfl]
    have : toRat zero = 0 := by decide +kernel
    rw [this]; exact hr0.ne'
  rw [hz]
  have hq0 : 0 ≤ toRat h / toRat r := by positivity
  have hq1 : toRat h / toRat r ≤ 1 / 2 ^ 25 := by rw [div_le_div_iff₀ hr0 (by positivity)]; linarith
  have hov : |toRat h / toRat r| < ovf := by
    rw [abs_of_nonneg hq0]
    refine lt_of_le_of_lt hq1 ?_
    unfold ovf; norm_num
  have hd := isFinite_div hh hr hr0.ne' hov
  have he := toRat_div hh hr hr0.ne' hov
  have hR : Repr (1 / 2 ^ 25 : ℚ) := ⟨fin false 0x33000000 (by decide), rfl, by decide +kernel⟩
  have d0 : 0 ≤ toRat (div h r) := by rw [he]; exact rnd_nonneg hq0
  have d1 : toRat (div h r) ≤ 1 / 2 ^ 25 := by rw [he]; exact rnd_le_of_le hR hq1
  generalize div h r = q at hd d0 d1
  have hov2 : |toRat one - toRat q| < ovf := by
    rw [toRat_one, abs_lt]
    unfold ovf
    constructor <;> linarith
  have hf := isFinite_sub (a := one) rfl hd hov2
  have hv := toRat_sub (a := one) rfl hd hov2
  rw [toRat_one] at hv
  have hv1 : toRat (sub one q) = 1 := by
    rw [hv]
    apply le_antisymm
    · exact rnd_le_of_le (by rw [← toRat_one]; exact Repr.toRat one) (by linarith)
    · calc (1 : ℚ) = rnd (1 - 1 / 2 ^ 25) := rnd_below_one.symm
        _ ≤ _ := rnd_mono (by linarith)
  rw [eq_one hf hv1]
  have hc : clamp one (neg one) one = one := by decide
  rw [hc, ha]
  decide +kernel

end Verif.VecF
