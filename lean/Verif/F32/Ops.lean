import Verif.F32.Pat

/-! Value-level facts about the F32 operations. -/

set_option exponentiation.threshold 400

namespace Verif
namespace F32

/-- The rounding function on rationals, without overflow. -/
def rnd (q : ℚ) : ℚ :=
  if q < 0 then -((mag (roundPat (-q * 2 ^ 149)) : ℚ) / 2 ^ 149)
  else (mag (roundPat (q * 2 ^ 149)) : ℚ) / 2 ^ 149

/-- Magnitude-level: the rounded pattern stays finite. -/
def fits (q : ℚ) : Prop := |rnd q| < 2 ^ 128

theorem rnd_neg (q : ℚ) : rnd (-q) = -rnd q := by
  unfold rnd
  rcases lt_trichotomy q 0 with h | h | h
  · rw [if_neg (by linarith), if_pos h]; simp
  · subst h; simp [roundPat_zero_aux]
  · rw [if_pos (by linarith), if_neg (by linarith)]; simp
where
  roundPat_zero_aux : roundPat 0 = 0 := by
    have := roundPat_mag 0; simpa using this

theorem roundPat_zero : roundPat 0 = 0 := by
  have := roundPat_mag 0; simpa using this

@[simp] theorem rnd_zero : rnd 0 = 0 := by simp [rnd, roundPat_zero]

theorem rnd_nonneg {q : ℚ} (h : 0 ≤ q) : 0 ≤ rnd q := by
  unfold rnd; rw [if_neg (by linarith)]; positivity

theorem rnd_nonpos {q : ℚ} (h : q ≤ 0) : rnd q ≤ 0 := by
  have := rnd_nonneg (q := -q) (by linarith)
  rw [rnd_neg] at this; linarith

theorem rnd_of_nonneg {q : ℚ} (h : 0 ≤ q) :
    rnd q = (mag (roundPat (q * 2 ^ 149)) : ℚ) / 2 ^ 149 := by
  unfold rnd; rw [if_neg (by linarith)]

theorem rnd_mono {p q : ℚ} (h : p ≤ q) : rnd p ≤ rnd q := by
  have pos : ∀ {p q : ℚ}, 0 ≤ p → p ≤ q → rnd p ≤ rnd q := by
    intro p q hp hpq
    rw [rnd_of_nonneg hp, rnd_of_nonneg (le_trans hp hpq)]
    apply div_le_div_of_nonneg_right _ (by positivity)
    have := roundPat_mono (p := p * 2 ^ 149) (q := q * 2 ^ 149) (by positivity)
      (mul_le_mul_of_nonneg_right hpq (by positivity))
    exact_mod_cast mag_le_iff.2 this
  rcases le_total 0 p with hp | hp
  · exact pos hp h
  · rcases le_total 0 q with hq | hq
    · exact le_trans (rnd_nonpos hp) (rnd_nonneg hq)
    · have := pos (p := -q) (q := -p) (by linarith) (by linarith)
      rw [rnd_neg, rnd_neg] at this; linarith

theorem rnd_abs (q : ℚ) : |rnd q| = rnd |q| := by
  rcases le_total 0 q with h | h
  · rw [abs_of_nonneg h, abs_of_nonneg (rnd_nonneg h)]
  · rw [abs_of_nonpos h, abs_of_nonpos (rnd_nonpos h), rnd_neg]

/-! ### toRat -/

theorem toRat_fin (s : Bool) (n : Nat) (h : n < infPat) :
    toRat (fin s n h) = (if s then -1 else 1) * (mag n : ℚ) / 2 ^ 149 := rfl

theorem toRat_fin_false (n : Nat) (h : n < infPat) :
    toRat (fin false n h) = (mag n : ℚ) / 2 ^ 149 := by simp [toRat]

theorem toRat_fin_true (n : Nat) (h : n < infPat) :
    toRat (fin true n h) = -((mag n : ℚ) / 2 ^ 149) := by simp [toRat]; ring

theorem abs_toRat_fin (s : Bool) (n : Nat) (h : n < infPat) :
    |toRat (fin s n h)| = (mag n : ℚ) / 2 ^ 149 := by
  have hp : (0 : ℚ) ≤ (mag n : ℚ) / 2 ^ 149 := by positivity
  cases s
  · rw [toRat_fin_false, abs_of_nonneg hp]
  · rw [toRat_fin_true, abs_neg, abs_of_nonneg hp]

@[simp] theorem toRat_neg (a : F32) : toRat (neg a) = -toRat a := by
  cases a with
  | nan => simp [neg, toRat]
  | inf s => simp [neg, toRat]
  | fin s n h => cases s <;> simp [neg, toRat] <;> ring

@[simp] theorem toRat_szero (s : Bool) : toRat (szero s) = 0 := by simp [szero, toRat]
@[simp] theorem toRat_zero : toRat zero = 0 := by simp [zero, toRat]
@[simp] theorem isFinite_szero (s : Bool) : isFinite (szero s) = true := rfl
@[simp] theorem isFinite_zero : isFinite zero = true := rfl
@[simp] theorem isFinite_fin (s n h) : isFinite (fin s n h) = true := rfl
@[simp] theorem isNaN_fin (s n h) : isNaN (fin s n h) = false := rfl
@[simp] theorem isNaN_inf (s) : isNaN (inf s) = false := rfl
@[simp] theorem isFinite_neg (a : F32) : isFinite (neg a) = isFinite a := by cases a <;> rfl
@[simp] theorem isNaN_neg (a : F32) : isNaN (neg a) = isNaN a := by cases a <;> rfl
@[simp] theorem key_neg (a : F32) : key (neg a) = -key a := by
  cases a with
  | nan => rfl
  | inf s => cases s <;> simp [neg, key]
  | fin s n h => cases s <;> simp [neg, key]

theorem isNaN_of_isFinite {a : F32} (h : a.isFinite) : a.isNaN = false := by
  cases a <;> simp_all [isFinite, isNaN]

/-- A finite float is an odd-symmetric image of a finite pattern. -/
theorem exists_of_isFinite {a : F32} (h : a.isFinite) : ∃ s n hn, a = fin s n hn := by
  cases a with
  | nan => simp [isFinite] at h
  | inf => simp [isFinite] at h
  | fin s n hn => exact ⟨s, n, hn, rfl⟩

theorem mag_lt_of_lt_infPat {n : Nat} (h : n < infPat) : mag n ≤ 2 ^ 277 - 2 ^ 253 := by
  rw [← mag_max]; exact mag_le_iff.2 (by unfold infPat at h; omega)

/-- The largest finite value. -/
def maxVal : ℚ := (2 ^ 24 - 1) * 2 ^ 104

theorem abs_toRat_le (a : F32) : |toRat a| ≤ maxVal := by
  cases a with
  | nan => simp [toRat, maxVal]; norm_num
  | inf s => simp [toRat, maxVal]; norm_num
  | fin s n h =>
    rw [abs_toRat_fin]
    have : (mag n : ℚ) ≤ 2 ^ 277 - 2 ^ 253 := by
      have := mag_lt_of_lt_infPat h
      have : mag n + 2 ^ 253 ≤ 2 ^ 277 := by omega
      have : (mag n : ℚ) + 2 ^ 253 ≤ 2 ^ 277 := by exact_mod_cast this
      linarith
    rw [div_le_iff₀ (by positivity)]
    refine le_trans this ?_
    unfold maxVal; norm_num

theorem rnd_toRat (a : F32) : rnd (toRat a) = toRat a := by
  cases a with
  | nan => simp [toRat]
  | inf s => simp [toRat]
  | fin s n h =>
    have : rnd ((mag n : ℚ) / 2 ^ 149) = (mag n : ℚ) / 2 ^ 149 := by
      rw [rnd_of_nonneg (by positivity), div_mul_cancel₀ _ (by positivity), roundPat_mag]
    cases s
    · rw [toRat_fin_false]; exact this
    · rw [toRat_fin_true, rnd_neg, this]

/-! ### comparison -/

theorem key_lt_iff {a b : F32} (ha : a.isFinite) (hb : b.isFinite) :
    key a < key b ↔ toRat a < toRat b := by
  obtain ⟨s, n, hn, rfl⟩ := exists_of_isFinite ha
  obtain ⟨t, m, hm, rfl⟩ := exists_of_isFinite hb
  have hp : (0 : ℚ) < 2 ^ 149 := by positivity
  cases s <;> cases t <;>
    simp only [key, toRat_fin_false, toRat_fin_true, if_true, if_false, Bool.false_eq_true,
      neg_lt_neg_iff]
  · rw [div_lt_div_iff_of_pos_right hp]; exact_mod_cast mag_lt_iff.symm
  · constructor
    · intro h; omega
    · intro h
      have h1 : (0 : ℚ) ≤ (mag n : ℚ) / 2 ^ 149 := by positivity
      have h2 : (0 : ℚ) ≤ (mag m : ℚ) / 2 ^ 149 := by positivity
      linarith
  · constructor
    · intro h
      have h1 : (0 : ℚ) ≤ (mag n : ℚ) / 2 ^ 149 := by positivity
      have h2 : (0 : ℚ) ≤ (mag m : ℚ) / 2 ^ 149 := by positivity
      have : 0 < n ∨ 0 < m := by omega
      rcases this with h3 | h3
      · have : (0 : ℚ) < mag n := by exact_mod_cast mag_pos.2 h3
        have : (0 : ℚ) < (mag n : ℚ) / 2 ^ 149 := by positivity
        linarith
      · have : (0 : ℚ) < mag m := by exact_mod_cast mag_pos.2 h3
        have : (0 : ℚ) < (mag m : ℚ) / 2 ^ 149 := by positivity
        linarith
    · intro h
      by_contra hc
      have h1 : n = 0 := by omega
      have h2 : m = 0 := by omega
      subst h1 h2
      simp at h
  · rw [div_lt_div_iff_of_pos_right hp]; exact_mod_cast mag_lt_iff.symm

theorem key_le_iff {a b : F32} (ha : a.isFinite) (hb : b.isFinite) :
    key a ≤ key b ↔ toRat a ≤ toRat b := by
  rw [← not_lt, ← not_lt, key_lt_iff hb ha]

theorem key_eq_iff {a b : F32} (ha : a.isFinite) (hb : b.isFinite) :
    key a = key b ↔ toRat a = toRat b := by
  rw [le_antisymm_iff, le_antisymm_iff, key_le_iff ha hb, key_le_iff hb ha]

theorem lt_iff {a b : F32} (ha : a.isFinite) (hb : b.isFinite) :
    lt a b = true ↔ toRat a < toRat b := by
  simp [lt, isNaN_of_isFinite ha, isNaN_of_isFinite hb, key_lt_iff ha hb]

theorem le_iff {a b : F32} (ha : a.isFinite) (hb : b.isFinite) :
    le a b = true ↔ toRat a ≤ toRat b := by
  simp [le, isNaN_of_isFinite ha, isNaN_of_isFinite hb, key_le_iff ha hb]

theorem feq_iff {a b : F32} (ha : a.isFinite) (hb : b.isFinite) :
    feq a b = true ↔ toRat a = toRat b := by
  simp [feq, isNaN_of_isFinite ha, isNaN_of_isFinite hb, key_eq_iff ha hb]

/-- Bounds of keys. -/
theorem key_bounds (a : F32) : -(infPat : Int) ≤ key a ∧ key a ≤ infPat := by
  cases a with
  | nan => simp [key]
  | inf s => cases s <;> simp [key]
  | fin s n h =>
    have h' : n < 2139095040 := h
    cases s <;> simp [key, infPat] <;> omega

theorem isFinite_iff_key (a : F32) :
    a.isFinite = true ↔ a.isNaN = false ∧ -(infPat : Int) < key a ∧ key a < infPat := by
  cases a with
  | nan => simp [isFinite, isNaN]
  | inf s => cases s <;> simp [isFinite, isNaN, key]
  | fin s n h =>
    have h' : n < 2139095040 := h
    cases s <;> simp [isFinite, isNaN, key, infPat] <;> omega

/-- A non-NaN float between two finite ones is finite. -/
theorem isFinite_of_between {a b c : F32} (ha : a.isFinite) (hc : c.isFinite)
    (h1 : le a b = true) (h2 : le b c = true) : b.isFinite = true := by
  rw [isFinite_iff_key] at *
  simp [le] at h1 h2
  refine ⟨h1.1.2, ?_, ?_⟩ <;> omega

/-! ### packing -/

theorem isNaN_pack (s n) : isNaN (pack s n) = false := by unfold pack; split <;> rfl

theorem pack_of_lt {s : Bool} {n : Nat} (h : n < infPat) : pack s n = fin s n h := by
  simp [pack, h]

theorem isFinite_pack (s n) : isFinite (pack s n) = decide (n < infPat) := by
  unfold pack; split <;> simp_all [isFinite]

theorem isNaN_packRound (s q) : isNaN (packRound s q) = false := isNaN_pack _ _

theorem isNaN_ofRat (q) : isNaN (ofRat q) = false := by
  unfold ofRat; split <;> exact isNaN_pack _ _

/-- Threshold: rounding stays finite exactly below `maxVal + 2^103`. -/
theorem roundPat_lt_infPat_iff {q : ℚ} (hq : 0 ≤ q) :
    roundPat q < infPat ↔ q < 2 ^ 277 - 2 ^ 252 := by
  have e1 : (mag 0x7F7FFFFF : ℚ) = 2 ^ 277 - 2 ^ 253 := by
    rw [mag_max, Nat.cast_sub (Nat.pow_le_pow_right (by norm_num) (by norm_num)), Nat.cast_pow,
      Nat.cast_pow]
    rfl
  have e2 : ((mag (0x7F7FFFFF + 1) : ℕ) : ℚ) = 2 ^ 277 := by
    have h : mag (0x7F7FFFFF + 1) = 2 ^ 277 := mag_infPat
    rw [h]; exact Nat.cast_pow 2 277
  rcases lt_or_ge q (mag 0x7F7FFFFF) with h | h
  · have : roundPat q ≤ 0x7F7FFFFF := roundPat_le_of_le hq h.le
    constructor
    · intro _; rw [e1] at h
      refine lt_trans h ?_; norm_num
    · intro _; unfold infPat; omega
  · rcases lt_or_ge q (mag (0x7F7FFFFF + 1)) with h2 | h2
    · rw [roundPat_between hq h h2, e1, e2]
      split_ifs with c1 c2 c3
      · constructor
        · intro _; norm_num at c1 ⊢; linarith
        · intro _; decide
      · constructor
        · intro hh; unfold infPat at hh; omega
        · intro hh; norm_num at c2 hh; linarith
      · exact absurd c3 (by decide)
      · constructor
        · intro hh; unfold infPat at hh; omega
        · intro hh; norm_num at c1 hh; linarith
    · have : infPat ≤ roundPat q := le_roundPat_of_le (n := infPat) h2
      constructor
      · intro hh; omega
      · intro hh; rw [e2] at h2; norm_num at h2 hh; linarith

/-- The overflow threshold `2^128 - 2^103`. -/
def ovf : ℚ := 2 ^ 128 - 2 ^ 103

theorem isFinite_packRound_iff {s : Bool} {q : ℚ} (hq : 0 ≤ q) :
    isFinite (packRound s q) = true ↔ q < ovf := by
  unfold packRound ovf
  rw [isFinite_pack, decide_eq_true_iff, roundPat_lt_infPat_iff (by positivity)]
  constructor
  · intro h
    have : q * 2 ^ 149 < (2 ^ 128 - 2 ^ 103) * 2 ^ 149 := by
      refine lt_of_lt_of_eq h ?_; norm_num
    exact lt_of_mul_lt_mul_right this (by positivity)
  · intro h
    have : q * 2 ^ 149 < (2 ^ 128 - 2 ^ 103) * 2 ^ 149 :=
      mul_lt_mul_of_pos_right h (by positivity)
    refine lt_of_lt_of_eq this ?_; norm_num

theorem isFinite_ofRat_iff {q : ℚ} : isFinite (ofRat q) = true ↔ |q| < ovf := by
  unfold ofRat
  split_ifs with h
  · rw [isFinite_packRound_iff (by linarith), abs_of_neg h]
  · rw [isFinite_packRound_iff (by linarith), abs_of_nonneg (by linarith)]

theorem packRound_inf {s : Bool} {q : ℚ} (hq : 0 ≤ q) (h : ovf ≤ q) : packRound s q = inf s := by
  have : ¬ isFinite (packRound s q) = true := by
    rw [isFinite_packRound_iff hq]; linarith
  unfold packRound pack at *
  split at this
  · simp at this
  · rename_i h'; simp [h']

theorem toRat_packRound_false {q : ℚ} (hq : 0 ≤ q) (h : q < ovf) :
    toRat (packRound false q) = rnd q := by
  have hf : isFinite (packRound false q) = true := (isFinite_packRound_iff hq).2 h
  unfold packRound at *
  rw [isFinite_pack, decide_eq_true_iff] at hf
  rw [pack_of_lt hf, toRat_fin_false, rnd_of_nonneg hq]

theorem toRat_packRound_true {q : ℚ} (hq : 0 ≤ q) (h : q < ovf) :
    toRat (packRound true q) = -rnd q := by
  have hf : isFinite (packRound true q) = true := (isFinite_packRound_iff hq).2 h
  unfold packRound at *
  rw [isFinite_pack, decide_eq_true_iff] at hf
  rw [pack_of_lt hf, toRat_fin_true, rnd_of_nonneg hq]

theorem toRat_packRound {s : Bool} {q : ℚ} (hq : 0 ≤ q) (h : q < ovf) :
    toRat (packRound s q) = rnd ((if s then -1 else 1) * q) := by
  cases s
  · simp [toRat_packRound_false hq h]
  · simp [toRat_packRound_true hq h, rnd_neg]

theorem toRat_ofRat {q : ℚ} (h : |q| < ovf) : toRat (ofRat q) = rnd q := by
  unfold ofRat
  split_ifs with h0
  · rw [abs_of_neg h0] at h
    rw [toRat_packRound_true (by linarith) h, rnd_neg, neg_neg]
  · rw [abs_of_nonneg (by linarith)] at h
    exact toRat_packRound_false (by linarith) h

/-! ### arithmetic -/

theorem isFinite_add {a b : F32} (ha : a.isFinite) (hb : b.isFinite)
    (h : |toRat a + toRat b| < ovf) : isFinite (add a b) = true := by
  obtain ⟨s, n, hn, rfl⟩ := exists_of_isFinite ha
  obtain ⟨t, m, hm, rfl⟩ := exists_of_isFinite hb
  simp only [add]
  split_ifs
  · rfl
  · exact isFinite_ofRat_iff.2 h

theorem toRat_add {a b : F32} (ha : a.isFinite) (hb : b.isFinite)
    (h : |toRat a + toRat b| < ovf) : toRat (add a b) = rnd (toRat a + toRat b) := by
  obtain ⟨s, n, hn, rfl⟩ := exists_of_isFinite ha
  obtain ⟨t, m, hm, rfl⟩ := exists_of_isFinite hb
  simp only [add]
  split_ifs with h0
  · rw [h0]; simp
  · exact toRat_ofRat h

theorem isFinite_sub {a b : F32} (ha : a.isFinite) (hb : b.isFinite)
    (h : |toRat a - toRat b| < ovf) : isFinite (sub a b) = true := by
  unfold sub
  apply isFinite_add ha (by simpa using hb)
  rwa [toRat_neg, ← sub_eq_add_neg]

theorem toRat_sub {a b : F32} (ha : a.isFinite) (hb : b.isFinite)
    (h : |toRat a - toRat b| < ovf) : toRat (sub a b) = rnd (toRat a - toRat b) := by
  unfold sub
  rw [toRat_add ha (by simpa using hb), toRat_neg, ← sub_eq_add_neg]
  rwa [toRat_neg, ← sub_eq_add_neg]

theorem isFinite_mul {a b : F32} (ha : a.isFinite) (hb : b.isFinite)
    (h : |toRat a * toRat b| < ovf) : isFinite (mul a b) = true := by
  obtain ⟨s, n, hn, rfl⟩ := exists_of_isFinite ha
  obtain ⟨t, m, hm, rfl⟩ := exists_of_isFinite hb
  simp only [mul]
  rw [isFinite_packRound_iff (by positivity)]
  rwa [abs_mul, abs_toRat_fin, abs_toRat_fin] at h

theorem toRat_mul {a b : F32} (ha : a.isFinite) (hb : b.isFinite)
    (h : |toRat a * toRat b| < ovf) : toRat (mul a b) = rnd (toRat a * toRat b) := by
  obtain ⟨s, n, hn, rfl⟩ := exists_of_isFinite ha
  obtain ⟨t, m, hm, rfl⟩ := exists_of_isFinite hb
  simp only [mul]
  rw [abs_mul, abs_toRat_fin, abs_toRat_fin] at h
  rw [toRat_packRound (by positivity) h]
  cases s <;> cases t <;> simp [toRat_fin_false, toRat_fin_true]

theorem isFinite_div {a b : F32} (ha : a.isFinite) (hb : b.isFinite) (h0 : toRat b ≠ 0)
    (h : |toRat a / toRat b| < ovf) : isFinite (div a b) = true := by
  obtain ⟨s, n, hn, rfl⟩ := exists_of_isFinite ha
  obtain ⟨t, m, hm, rfl⟩ := exists_of_isFinite hb
  have hm0 : m ≠ 0 := by rintro rfl; simp [toRat] at h0
  simp only [div]
  rw [if_neg hm0, isFinite_packRound_iff (by positivity)]
  rwa [abs_div, abs_toRat_fin, abs_toRat_fin, div_div_div_cancel_right₀ (by positivity)] at h

theorem toRat_div {a b : F32} (ha : a.isFinite) (hb : b.isFinite) (h0 : toRat b ≠ 0)
    (h : |toRat a / toRat b| < ovf) : toRat (div a b) = rnd (toRat a / toRat b) := by
  obtain ⟨s, n, hn, rfl⟩ := exists_of_isFinite ha
  obtain ⟨t, m, hm, rfl⟩ := exists_of_isFinite hb
  have hm0 : m ≠ 0 := by rintro rfl; simp [toRat] at h0
  simp only [div]
  rw [abs_div, abs_toRat_fin, abs_toRat_fin, div_div_div_cancel_right₀ (by positivity)] at h
  rw [if_neg hm0, toRat_packRound (by positivity) h]
  have e : ((mag n : ℚ) / 2 ^ 149) / ((mag m : ℚ) / 2 ^ 149) = (mag n : ℚ) / mag m :=
    div_div_div_cancel_right₀ (by positivity) _ _
  cases s <;> cases t <;>
    simp only [toRat_fin_false, toRat_fin_true, neg_div, div_neg, e, neg_neg] <;> simp

/-! ### representable values -/

/-- A rational is representable when it is the value of a finite float. -/
def Repr (q : ℚ) : Prop := ∃ a : F32, a.isFinite = true ∧ toRat a = q

theorem Repr.toRat (a : F32) : Repr (toRat a) := by
  cases a with
  | nan => exact ⟨zero, rfl, by rw [toRat_zero]; rfl⟩
  | inf s => exact ⟨zero, rfl, by rw [toRat_zero]; rfl⟩
  | fin s n h => exact ⟨_, rfl, rfl⟩

theorem Repr.rnd_eq {q : ℚ} (h : Repr q) : rnd q = q := by
  obtain ⟨a, _, rfl⟩ := h; exact rnd_toRat a

theorem Repr.abs_le {q : ℚ} (h : Repr q) : |q| ≤ maxVal := by
  obtain ⟨a, _, rfl⟩ := h; exact abs_toRat_le a

theorem maxVal_lt_ovf : maxVal < ovf := by unfold maxVal ovf; norm_num

theorem Repr.lt_ovf {q : ℚ} (h : Repr q) : |q| < ovf := lt_of_le_of_lt h.abs_le maxVal_lt_ovf

theorem Repr.neg {q : ℚ} (h : Repr q) : Repr (-q) := by
  obtain ⟨a, ha, rfl⟩ := h
  exact ⟨F32.neg a, by simpa using ha, by simp⟩

/-- 24 significant bits and a bounded exponent make a rational representable. -/
theorem Repr.of_mul_pow {M : ℤ} {e : ℕ} {q : ℚ} (hM : |M| < 2 ^ 24)
    (hq : q * 2 ^ 149 = M * 2 ^ e) (hb : |q| < 2 ^ 128) : Repr q := by
  have pos : ∀ (M : ℕ) (q : ℚ), M < 2 ^ 24 → q * 2 ^ 149 = M * 2 ^ e → |q| < 2 ^ 128 → Repr q := by
    intro M q hM hq hb
    obtain ⟨n, hn⟩ := exists_mag_of_mul_pow M e hM
    have h1 : q = (mag n : ℚ) / 2 ^ 149 := by
      rw [hn, eq_div_iff (by positivity), hq]; push_cast; rfl
    have h2 : n < infPat := by
      rw [← mag_lt_iff, mag_infPat]
      have hpos : (0 : ℚ) ≤ q := by rw [h1]; positivity
      rw [abs_of_nonneg hpos, h1, div_lt_iff₀ (by positivity)] at hb
      have : (mag n : ℚ) < 2 ^ 277 := lt_of_lt_of_eq hb (by norm_num)
      exact_mod_cast this
    exact ⟨fin false n h2, rfl, by rw [toRat_fin_false, h1]⟩
  rcases le_total 0 M with h | h
  · obtain ⟨k, rfl⟩ := Int.eq_ofNat_of_zero_le h
    apply pos k q _ (by exact_mod_cast hq) hb
    have := abs_of_nonneg h; omega
  · obtain ⟨k, hk⟩ := Int.eq_ofNat_of_zero_le (a := -M) (by omega)
    have hM' : (M : ℚ) = -(k : ℚ) := by
      have : M = -(k : ℤ) := by omega
      rw [this]; push_cast; rfl
    have : Repr (-q) := by
      apply pos k (-q) _ _ (by rwa [abs_neg])
      · have := abs_of_nonpos h; omega
      · rw [neg_mul, hq, hM']; ring
    simpa using this.neg

/-- Small integers are representable. -/
theorem Repr.ofInt {z : ℤ} (h : |z| ≤ 2 ^ 24) : Repr (z : ℚ) := by
  rcases lt_or_eq_of_le h with h | h
  · apply Repr.of_mul_pow (M := z) (e := 149) h rfl
    have : (|z| : ℤ) < 2 ^ 128 := by omega
    exact_mod_cast this
  · apply Repr.of_mul_pow (M := z / 2) (e := 150)
    · rw [abs_lt]; rw [abs_eq (by norm_num)] at h; omega
    · have : z = z / 2 * 2 := by rw [abs_eq (by norm_num)] at h; omega
      have h2 : (z : ℚ) = ((z / 2 : ℤ) : ℚ) * 2 := by exact_mod_cast congrArg (fun t : ℤ => (t : ℚ)) this
      rw [h2]; ring_nf
    · have : (|z| : ℤ) < 2 ^ 128 := by omega
      exact_mod_cast this

theorem Repr.ofRat_finite {q : ℚ} (h : Repr q) : isFinite (ofRat q) = true :=
  isFinite_ofRat_iff.2 h.lt_ovf

theorem Repr.toRat_ofRat {q : ℚ} (h : Repr q) : F32.toRat (ofRat q) = q := by
  rw [F32.toRat_ofRat h.lt_ovf, h.rnd_eq]

/-- Rounding never crosses a representable value. -/
theorem rnd_le_of_le {p q : ℚ} (hq : Repr q) (h : p ≤ q) : rnd p ≤ q := by
  have := rnd_mono h; rwa [hq.rnd_eq] at this

theorem le_rnd_of_le {p q : ℚ} (hp : Repr p) (h : p ≤ q) : p ≤ rnd q := by
  have := rnd_mono h; rwa [hp.rnd_eq] at this

/-- Rounding error bound. -/
theorem rnd_err (q : ℚ) : |rnd q - q| ≤ max (1 / 2 ^ 150) (|q| / 2 ^ 24) := by
  have pos : ∀ q : ℚ, 0 ≤ q → |rnd q - q| ≤ max (1 / 2 ^ 150) (|q| / 2 ^ 24) := by
    intro q hq
    rw [rnd_of_nonneg hq, abs_of_nonneg hq]
    have := roundPat_relerr (q := q * 2 ^ 149) (by positivity)
    have e : (mag (roundPat (q * 2 ^ 149)) : ℚ) / 2 ^ 149 - q =
        ((mag (roundPat (q * 2 ^ 149)) : ℚ) - q * 2 ^ 149) / 2 ^ 149 := by
      field_simp
    rw [e, abs_div, abs_of_pos (show (0 : ℚ) < 2 ^ 149 by positivity), div_le_iff₀ (by positivity)]
    refine le_trans this ?_
    rw [max_mul_of_nonneg _ _ (by positivity)]
    apply max_le_max
    · norm_num
    · apply le_of_eq; ring
  rcases le_total 0 q with h | h
  · exact pos q h
  · have := pos (-q) (by linarith)
    rw [rnd_neg, abs_neg] at this
    rwa [show -rnd q - -q = -(rnd q - q) by ring, abs_neg] at this

/-- Relative error bound in the normal range. -/
theorem rnd_err_normal {q : ℚ} (h : 1 / 2 ^ 126 ≤ |q|) : |rnd q - q| ≤ |q| / 2 ^ 24 := by
  have := rnd_err q
  rwa [max_eq_right] at this
  rw [le_div_iff₀ (by positivity)]
  refine le_trans (le_of_eq ?_) h
  norm_num

/-- Nearest property. -/
theorem rnd_nearest {q r : ℚ} (hr : Repr r) : |rnd q - q| ≤ |r - q| := by
  have pos : ∀ q r : ℚ, 0 ≤ q → Repr r → |rnd q - q| ≤ |r - q| := by
    intro q r hq hr
    have nonneg : ∀ n : Nat, |rnd q - q| ≤ |(mag n : ℚ) / 2 ^ 149 - q| := by
      intro n
      rw [rnd_of_nonneg hq]
      have := roundPat_nearest (q := q * 2 ^ 149) (by positivity) n
      have e : ∀ k : ℚ, k / 2 ^ 149 - q = (k - q * 2 ^ 149) / 2 ^ 149 := by
        intro k; field_simp
      rw [e, e, abs_div, abs_div]
      exact div_le_div_of_nonneg_right this (by positivity)
    obtain ⟨a, ha, rfl⟩ := hr
    obtain ⟨s, n, hn, rfl⟩ := exists_of_isFinite ha
    cases s
    · rw [toRat_fin_false]; exact nonneg n
    · have h0 := nonneg 0
      simp only [mag_zero, Nat.cast_zero, zero_div, zero_sub, abs_neg, abs_of_nonneg hq] at h0
      refine le_trans h0 ?_
      rw [toRat_fin_true]
      have : (0 : ℚ) ≤ (mag n : ℚ) / 2 ^ 149 := by positivity
      rw [abs_of_nonpos (by linarith)]; linarith
  rcases le_total 0 q with h | h
  · exact pos q r h hr
  · have := pos (-q) (-r) (by linarith) hr.neg
    rw [rnd_neg] at this
    rwa [show -rnd q - -q = -(rnd q - q) by ring, show -r - -q = -(r - q) by ring, abs_neg,
      abs_neg] at this

end F32
end Verif
