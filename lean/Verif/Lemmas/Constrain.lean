import Verif.Spec.Constrain
import Verif.F32.Mono
import Verif.Props.Damping
import Mathlib.Tactic.Linarith
import Mathlib.Tactic.Ring
import Mathlib.Tactic.FieldSimp
import Mathlib.Tactic.Positivity

/-!
# Lemmas for C60
-/

set_option autoImplicit false

namespace Verif.Constrain

open F32 Verif.Tip Spec

theorem rnd_one_up : rnd (1 + 1 / 2 ^ 24) = 1 := by decide +kernel

theorem rnd_big_up : rnd (2 ^ 126 + 2 ^ 126 / 2 ^ 24) = 2 ^ 126 := by decide +kernel

/-- Interpolation between numbers from 0 to `B` gives one. -/
theorem lerpF_upTo {B : ℚ} (hB : F32.Repr B) (hr : rnd (B + B / 2 ^ 24) ≤ B) (hs : 1 / 2 ^ 150 ≤ B / 2 ^ 24)
    (ho : B + B / 2 ^ 24 < ovf) {a b t : F32} (ha : UpTo B a) (hb : UpTo B b) (ht : InUnit t) : UpTo B (lerpF a b t) := by
  obtain ⟨fa, a0, aB⟩ := ha
  obtain ⟨fb, b0, bB⟩ := hb
  obtain ⟨ft, t0, t1⟩ := ht
  have hB0 : 0 ≤ B := by linarith
  have hBo : B < ovf := by
    have : 0 ≤ B / 2 ^ 24 := by positivity
    linarith
  have o1 : |toRat b - toRat a| < ovf := by rw [abs_lt]; constructor <;> linarith
  have fd := isFinite_sub fb fa o1
  have ed := toRat_sub fb fa o1
  have hd1 : -toRat a ≤ toRat (sub b a) := by
    rw [ed]; exact le_rnd_of_le (F32.Repr.toRat a).neg (by linarith)
  have hd2 : toRat (sub b a) ≤ B - toRat a + B / 2 ^ 24 := by
    rw [ed]
    have m := rnd_mono (show toRat b - toRat a ≤ B - toRat a by linarith)
    have e := rnd_err (B - toRat a)
    have : max (1 / 2 ^ 150) (|B - toRat a| / 2 ^ 24) ≤ B / 2 ^ 24 := by
      rw [abs_of_nonneg (by linarith)]
      exact max_le hs (by gcongr; linarith)
    have := (abs_le.1 (e.trans this)).2
    linarith
  generalize hdd : toRat (sub b a) = d at *
  have hdu : -toRat a ≤ d * toRat t ∧ d * toRat t ≤ max 0 d ∧ d * toRat t ≤ B := by
    rcases le_total 0 d with h | h
    · have h1 : d * toRat t ≤ d := mul_le_of_le_one_right h t1
      have h2 : 0 ≤ d * toRat t := mul_nonneg h t0
      have h3 : d ≤ B := by
        rw [ed]; exact rnd_le_of_le hB (by linarith)
      exact ⟨by linarith, by rw [max_eq_right h]; exact h1, by linarith⟩
    · have h1 : d ≤ d * toRat t := by nlinarith
      have h2 : d * toRat t ≤ 0 := mul_nonpos_of_nonpos_of_nonneg h t0
      exact ⟨by linarith, by rw [max_eq_left h]; exact h2, by linarith⟩
  have o2 : |toRat (sub b a) * toRat t| < ovf := by rw [hdd, abs_lt]; constructor <;> linarith [hdu.1, hdu.2.2]
  have fm := isFinite_mul fd ft o2
  have em := toRat_mul fd ft o2
  rw [hdd] at em
  have he1 : -toRat a ≤ toRat (mul (sub b a) t) := by
    rw [em]; exact le_rnd_of_le (F32.Repr.toRat a).neg hdu.1
  have he2 : toRat (mul (sub b a) t) ≤ max 0 d := by
    rw [em]
    refine rnd_le_of_le ?_ hdu.2.1
    rcases max_choice 0 d with h | h <;> rw [h]
    · exact ⟨zero, rfl, toRat_zero⟩
    · rw [← hdd]; exact F32.Repr.toRat _
  have hsum : toRat a + toRat (mul (sub b a) t) ≤ B + B / 2 ^ 24 := by
    have h0 : 0 ≤ B / 2 ^ 24 := by positivity
    rcases max_choice 0 d with h | h <;> rw [h] at he2 <;> linarith
  have o3 : |toRat a + toRat (mul (sub b a) t)| < ovf := by rw [abs_lt]; constructor <;> linarith
  refine ⟨isFinite_add fa fm o3, ?_, ?_⟩ <;> unfold lerpF <;> rw [toRat_add fa fm o3]
  · exact rnd_nonneg (by linarith)
  · exact (rnd_mono hsum).trans hr

theorem ovf_big : (2 : ℚ) ^ 126 + 2 ^ 126 / 2 ^ 24 < ovf := by unfold ovf; norm_num

theorem repr_one : F32.Repr 1 := by simpa using F32.Repr.ofInt (z := 1) (by norm_num)

theorem repr_big : F32.Repr (2 ^ 126) :=
  F32.Repr.of_mul_pow (M := 1) (e := 275) (by norm_num) (by rw [← pow_add]; simp) (by rw [abs_of_nonneg (by positivity)]; norm_num)

theorem lerpF_unit {a b t : F32} (ha : InUnit a) (hb : InUnit b) (ht : InUnit t) : InUnit (lerpF a b t) :=
  lerpF_upTo repr_one rnd_one_up.le (by norm_num) (by unfold ovf; norm_num) ha hb ht

theorem lerpF_big {a b t : F32} (ha : UpTo (2 ^ 126) a) (hb : UpTo (2 ^ 126) b) (ht : InUnit t) :
    UpTo (2 ^ 126) (lerpF a b t) :=
  lerpF_upTo repr_big rnd_big_up.le (by norm_num) ovf_big ha hb ht

theorem toRat_one : toRat one = 1 := by decide +kernel

theorem toRat_half : toRat half = 1 / 2 := by decide +kernel

theorem checked_of_valid {s : TipState} (h : Valid s) : checked s = true := by
  have z : ∀ {B : ℚ} {x : F32}, UpTo B x → le zero x = true := fun h =>
    (le_iff rfl h.1).2 (by rw [toRat_zero]; exact h.2.1)
  have o : ∀ {x : F32}, InUnit x → le x one = true := fun h => (le_iff h.1 rfl).2 (by rw [toRat_one]; exact h.2.2)
  simp only [checked, Bool.and_eq_true]
  exact ⟨⟨⟨⟨⟨z h.width, z h.height⟩, z h.percentRadius⟩, o h.percentRadius⟩, z h.pinch⟩, o h.pinch⟩

theorem valid_lerpShape {a b : TipState} {t : F32} (ha : Valid a) (hb : Valid b) (ht : InUnit t) : Valid (lerpShape a b t) :=
  ⟨lerpF_big ha.width hb.width ht, lerpF_big ha.height hb.height ht, lerpF_unit ha.percentRadius hb.percentRadius ht,
    lerpF_unit ha.pinch hb.pinch ht⟩

/-- The middle of two numbers from 0 to 1 is between them. -/
theorem mid_between {l u : F32} (hl : InUnit l) (hu : InUnit u) (h : toRat l ≤ toRat u) :
    InUnit (lerpF l u half) ∧ toRat l ≤ toRat (lerpF l u half) ∧ toRat (lerpF l u half) ≤ toRat u := by
  have hm := lerpF_unit hl hu (t := half) ⟨rfl, by rw [toRat_half]; norm_num, by rw [toRat_half]; norm_num⟩
  refine ⟨hm, ?_⟩
  obtain ⟨fl, l0, l1⟩ := hl
  obtain ⟨fu, u0, u1⟩ := hu
  have o : (2 : ℚ) < ovf := by unfold ovf; norm_num
  have o1 : |toRat u - toRat l| < ovf := by rw [abs_lt]; constructor <;> linarith
  have fd := isFinite_sub fu fl o1
  have ed := toRat_sub fu fl o1
  have hx : 0 ≤ toRat u - toRat l := by linarith
  have d0 : 0 ≤ toRat (sub u l) := by rw [ed]; exact rnd_nonneg hx
  have d1 : toRat (sub u l) ≤ 1 := by rw [ed]; exact rnd_le_of_le repr_one (by linarith)
  have o2 : |toRat (sub u l) * toRat half| < ovf := by rw [toRat_half, abs_lt]; constructor <;> linarith
  have fm := isFinite_mul fd (b := half) rfl o2
  have em := toRat_mul fd (b := half) rfl o2
  rw [toRat_half] at em
  have e0 : 0 ≤ toRat (mul (sub u l) half) := by rw [em]; exact rnd_nonneg (by linarith)
  have e1 : toRat (mul (sub u l) half) ≤ 1 := by rw [em]; exact rnd_le_of_le repr_one (by linarith)
  have o3 : |toRat l + toRat (mul (sub u l) half)| < ovf := by rw [abs_lt]; constructor <;> linarith
  unfold lerpF
  rw [toRat_add fl fm o3]
  refine ⟨le_rnd_of_le (F32.Repr.toRat l) (by linarith), rnd_le_of_le (F32.Repr.toRat u) ?_⟩
  rw [em, ed]
  generalize hxx : toRat u - toRat l = x at *
  suffices rnd (rnd x * (1 / 2)) ≤ x by linarith
  -- the difference is a multiple of the least number
  obtain ⟨zl, hzl⟩ : ∃ z : ℤ, toRat l = z / 2 ^ 149 := by
    obtain ⟨s, n, hn, rfl⟩ := exists_of_isFinite fl
    cases s
    · exact ⟨mag n, by rw [toRat_fin_false]; push_cast; rfl⟩
    · exact ⟨-mag n, by rw [toRat_fin_true]; push_cast; ring⟩
  obtain ⟨zu, hzu⟩ : ∃ z : ℤ, toRat u = z / 2 ^ 149 := by
    obtain ⟨s, n, hn, rfl⟩ := exists_of_isFinite fu
    cases s
    · exact ⟨mag n, by rw [toRat_fin_false]; push_cast; rfl⟩
    · exact ⟨-mag n, by rw [toRat_fin_true]; push_cast; ring⟩
  have hz : x = ((zu - zl : ℤ) : ℚ) / 2 ^ 149 := by rw [← hxx, hzl, hzu]; push_cast; ring
  generalize zu - zl = z at hz
  have hz0 : 0 ≤ z := by
    have : (0 : ℚ) ≤ z := by
      rw [hz] at hx
      have := mul_nonneg hx (by positivity : (0 : ℚ) ≤ 2 ^ 149)
      rwa [div_mul_cancel₀ _ (by positivity)] at this
    exact_mod_cast this
  rcases le_or_gt z 1 with h1 | h1
  · have hr : F32.Repr x := by
      refine F32.Repr.of_mul_pow (M := z) (e := 0) (by rw [abs_of_nonneg hz0]; omega) (by rw [hz]; simp) ?_
      rw [abs_of_nonneg hx]
      have : x ≤ 1 := by linarith
      exact lt_of_le_of_lt this (by norm_num)
    rw [hr.rnd_eq]
    exact rnd_le_of_le hr (by linarith)
  · have hx2 : 4 / 2 ^ 150 ≤ x := by
      rw [hz]
      have : (2 : ℚ) ≤ z := by exact_mod_cast h1
      calc (4 : ℚ) / 2 ^ 150 = 2 / 2 ^ 149 := by norm_num
        _ ≤ _ := by gcongr
    have b1 : rnd x ≤ x + (1 / 2 ^ 150 + x / 2 ^ 24) := by
      have e := rnd_err x
      rw [abs_of_nonneg hx] at e
      have : max (1 / 2 ^ 150) (x / 2 ^ 24) ≤ 1 / 2 ^ 150 + x / 2 ^ 24 :=
        max_le (by have : 0 ≤ x / 2 ^ 24 := by positivity
                   linarith) (by have : (0 : ℚ) ≤ 1 / 2 ^ 150 := by positivity
                                 linarith)
      have := (abs_le.1 (e.trans this)).2
      linarith
    have r0 : 0 ≤ rnd x := rnd_nonneg hx
    generalize rnd x = d at *
    have hd2 : 0 ≤ d * (1 / 2) := by linarith
    have b2 : rnd (d * (1 / 2)) ≤ d * (1 / 2) + (1 / 2 ^ 150 + d * (1 / 2) / 2 ^ 24) := by
      have e := rnd_err (d * (1 / 2))
      rw [abs_of_nonneg hd2] at e
      have : max (1 / 2 ^ 150) (d * (1 / 2) / 2 ^ 24) ≤ 1 / 2 ^ 150 + d * (1 / 2) / 2 ^ 24 :=
        max_le (by have : 0 ≤ d * (1 / 2) / 2 ^ 24 := by positivity
                   linarith) (by have : (0 : ℚ) ≤ 1 / 2 ^ 150 := by positivity
                                 linarith)
      have := (abs_le.1 (e.trans this)).2
      linarith
    have hη : (4 : ℚ) / 2 ^ 150 = 4 * (1 / 2 ^ 150) := by ring
    rw [hη] at hx2
    have hη0 : (0 : ℚ) ≤ 1 / 2 ^ 150 := by positivity
    generalize (1 : ℚ) / 2 ^ 150 = η at *
    norm_num at b1 b2 ⊢
    linarith

theorem repr_dyadic {k i : ℕ} (hi : i ≤ 24) (hk : k ≤ 2 ^ i) : F32.Repr ((k : ℚ) / 2 ^ i) := by
  rcases Nat.lt_or_ge k (2 ^ 24) with h | h
  · refine F32.Repr.of_mul_pow (M := k) (e := 149 - i) (by rw [abs_of_nonneg (by positivity)]; exact_mod_cast h) ?_ ?_
    · rw [show (149 : ℕ) = i + (149 - i) by omega, pow_add, show i + (149 - i) - i = 149 - i by omega]
      push_cast
      field_simp
    · rw [abs_of_nonneg (by positivity)]
      have : (k : ℚ) / 2 ^ i ≤ 1 := by
        rw [div_le_one (by positivity)]; exact_mod_cast hk
      exact lt_of_le_of_lt this (by norm_num)
  · have h2 : 2 ^ i ≤ 2 ^ 24 := Nat.pow_le_pow_right (by norm_num) hi
    have : k = 2 ^ i := by omega
    rw [this, Nat.cast_pow, Nat.cast_ofNat, div_self (by positivity)]
    exact repr_one

/-- The middle of two neighbouring multiples of a power of two is exact. -/
theorem mid_exact {l u : F32} {k i : ℕ} (fl : l.isFinite = true) (fu : u.isFinite = true) (hi : i < 24) (hk : k < 2 ^ i)
    (hl : toRat l = k / 2 ^ i) (hu : toRat u = (k + 1 : ℕ) / 2 ^ i) :
    toRat (lerpF l u half) = (2 * k + 1 : ℕ) / 2 ^ (i + 1) := by
  have o : (2 : ℚ) < ovf := by unfold ovf; norm_num
  have hd : toRat u - toRat l = (1 : ℕ) / 2 ^ i := by rw [hl, hu]; push_cast; ring
  have hr1 := repr_dyadic (k := 1) (i := i) (by omega) (Nat.one_le_two_pow)
  have o1 : |toRat u - toRat l| < ovf := by rw [hd]; exact hr1.lt_ovf
  have fd := isFinite_sub fu fl o1
  have ed : toRat (sub u l) = (1 : ℕ) / 2 ^ i := by rw [toRat_sub fu fl o1, hd, hr1.rnd_eq]
  have hr2 := repr_dyadic (k := 1) (i := i + 1) (by omega) (Nat.one_le_two_pow)
  have hm : toRat (sub u l) * toRat half = (1 : ℕ) / 2 ^ (i + 1) := by rw [ed, toRat_half, pow_succ]; push_cast; field_simp
  have o2 : |toRat (sub u l) * toRat half| < ovf := by rw [hm]; exact hr2.lt_ovf
  have fm := isFinite_mul fd (b := half) rfl o2
  have em : toRat (mul (sub u l) half) = (1 : ℕ) / 2 ^ (i + 1) := by rw [toRat_mul fd (b := half) rfl o2, hm, hr2.rnd_eq]
  have hr3 := repr_dyadic (k := 2 * k + 1) (i := i + 1) (by omega) (by rw [pow_succ]; omega)
  have hs : toRat l + toRat (mul (sub u l) half) = (2 * k + 1 : ℕ) / 2 ^ (i + 1) := by
    rw [em, hl, pow_succ]; push_cast; field_simp
  have o3 : |toRat l + toRat (mul (sub u l) half)| < ovf := by rw [hs]; exact hr3.lt_ovf
  unfold lerpF
  rw [toRat_add fl fm o3, hs, hr3.rnd_eq]

theorem lerpF_part {B : ℚ} (hB : B ≤ big) {a b t : F32} (ha : UpTo B a) (hb : UpTo B b) (ht : InUnit t) :
    Part ((toRat a + toRat b) / 2 ^ 22 + 1 / 2 ^ 148) a b t (lerpF a b t) := by
  have h := (lerpF_err ha.1 hb.1 ht.1 ht.2.1 ht.2.2 (by rw [abs_of_nonneg ha.2.1]; exact ha.2.2.trans hB)
    (by rw [abs_of_nonneg hb.2.1]; exact hb.2.2.trans hB)).2
  rwa [abs_of_nonneg ha.2.1, abs_of_nonneg hb.2.1] at h

theorem lerpAngle_part {a b t : F32} (fa : a.isFinite = true) (fb : b.isFinite = true) (ha : |toRat a| ≤ 4)
    (hb : |toRat b| ≤ 4) (ht : InUnit t) : Part (1 / 2 ^ 18) a b t (lerpAngle a b t) := by
  obtain ⟨ft, t0, t1⟩ := ht
  have o : (16 : ℚ) < ovf := by unfold ovf; norm_num
  have hη : (1 : ℚ) / 2 ^ 150 ≤ 1 / 2 ^ 24 := by norm_num
  have r4 : F32.Repr 4 := by simpa using F32.Repr.ofInt (z := 4) (by norm_num)
  have o1 : |toRat one - toRat t| < ovf := by rw [toRat_one, abs_lt]; constructor <;> linarith
  have fs := isFinite_sub (a := one) rfl ft o1
  have es := toRat_sub (a := one) rfl ft o1
  rw [toRat_one] at es
  have s0 : 0 ≤ toRat (sub one t) := by rw [es]; exact rnd_nonneg (by linarith)
  have s1 : toRat (sub one t) ≤ 1 := by rw [es]; exact rnd_le_of_le repr_one (by linarith)
  have b1 : |toRat (sub one t) - (1 - toRat t)| ≤ 1 / 2 ^ 23 := by
    rw [es]
    refine (err_sum _).trans ?_
    rw [abs_of_nonneg (by linarith)]
    norm_num at hη ⊢
    linarith
  have prod : ∀ {c x : F32}, c.isFinite = true → x.isFinite = true → 0 ≤ toRat c → toRat c ≤ 1 → |toRat x| ≤ 4 →
      (mul c x).isFinite = true ∧ |toRat (mul c x)| ≤ 4 ∧ |toRat (mul c x) - toRat c * toRat x| ≤ 1 / 2 ^ 21 := by
    intro c x fc fx c0 c1 hx
    have hab : |toRat c * toRat x| ≤ 4 := by
      rw [abs_mul, abs_of_nonneg c0]; nlinarith [abs_nonneg (toRat x)]
    have om : |toRat c * toRat x| < ovf := by linarith
    refine ⟨isFinite_mul fc fx om, ?_, ?_⟩ <;> rw [toRat_mul fc fx om]
    · rw [abs_le] at hab ⊢
      exact ⟨le_rnd_of_le r4.neg hab.1, rnd_le_of_le r4 hab.2⟩
    · refine (err_sum _).trans ?_
      generalize |toRat c * toRat x| = v at hab
      norm_num
      linarith
  obtain ⟨fp, p4, ep⟩ := prod fs fa s0 s1 ha
  obtain ⟨fq, q4, eq⟩ := prod ft fb t0 t1 hb
  have hpq : |toRat (mul (sub one t) a) + toRat (mul t b)| ≤ 8 := (abs_add_le _ _).trans (by linarith)
  have o3 : |toRat (mul (sub one t) a) + toRat (mul t b)| < ovf := by linarith
  unfold Part lerpAngle
  have er := err_sum (toRat (mul (sub one t) a) + toRat (mul t b))
  rw [toRat_add fp fq o3]
  have er' : |rnd (toRat (mul (sub one t) a) + toRat (mul t b)) - (toRat (mul (sub one t) a) + toRat (mul t b))| ≤
      1 / 2 ^ 20 := by
    refine er.trans ?_
    norm_num at hη ⊢
    linarith
  have e1 : |(toRat (sub one t) - (1 - toRat t)) * toRat a| ≤ 4 / 2 ^ 23 := by
    rw [abs_mul]
    have := mul_le_mul b1 ha (abs_nonneg _) (by positivity)
    linarith
  have key : rnd (toRat (mul (sub one t) a) + toRat (mul t b)) - (toRat a + (toRat b - toRat a) * toRat t) =
      (rnd (toRat (mul (sub one t) a) + toRat (mul t b)) - (toRat (mul (sub one t) a) + toRat (mul t b))) +
      ((toRat (mul (sub one t) a) - toRat (sub one t) * toRat a) + (toRat (mul t b) - toRat t * toRat b)) +
      (toRat (sub one t) - (1 - toRat t)) * toRat a := by ring
  rw [key]
  refine (abs_add_le _ _).trans ?_
  have h1 := abs_add_le (rnd (toRat (mul (sub one t) a) + toRat (mul t b)) - (toRat (mul (sub one t) a) + toRat (mul t b)))
    ((toRat (mul (sub one t) a) - toRat (sub one t) * toRat a) + (toRat (mul t b) - toRat t * toRat b))
  have h2 := abs_add_le (toRat (mul (sub one t) a) - toRat (sub one t) * toRat a) (toRat (mul t b) - toRat t * toRat b)
  norm_num at *
  linarith

end Verif.Constrain
