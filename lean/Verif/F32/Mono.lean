import Verif.F32.Int

/-!
# Monotonicity of the float operations, infinities included
-/

set_option autoImplicit false
set_option exponentiation.threshold 400

namespace Verif.F32

/-- The key after rounding a rational. -/
def keyR (q : ℚ) : Int := key (ofRat q)

theorem key_pack (s : Bool) (n : Nat) :
    key (pack s n) = (if s then -1 else 1) * (min n infPat : Nat) := by
  unfold pack
  by_cases h : n < infPat
  · rw [dif_pos h, Nat.min_eq_left h.le]; cases s <;> simp [key]
  · rw [dif_neg h, Nat.min_eq_right (by omega)]; cases s <;> simp [key]

theorem keyR_of_nonneg {q : ℚ} (h : 0 ≤ q) :
    keyR q = (min (roundPat (q * 2 ^ 149)) infPat : Nat) := by
  unfold keyR ofRat
  rw [if_neg (not_lt.2 h), packRound, key_pack]; simp

theorem keyR_neg (q : ℚ) : keyR (-q) = -keyR q := by
  rcases lt_trichotomy q 0 with h | h | h
  · unfold keyR ofRat
    rw [if_neg (by linarith), if_pos h, packRound, packRound, key_pack, key_pack]; simp
  · subst h
    rw [neg_zero, keyR_of_nonneg le_rfl, zero_mul, roundPat_zero]; simp
  · unfold keyR ofRat
    rw [if_pos (by linarith), if_neg (by linarith), packRound, packRound, key_pack, key_pack]; simp

theorem keyR_zero : keyR 0 = 0 := by
  rw [keyR_of_nonneg le_rfl, zero_mul, roundPat_zero]; simp

theorem keyR_nonneg {q : ℚ} (h : 0 ≤ q) : 0 ≤ keyR q := by
  rw [keyR_of_nonneg h]; exact Int.natCast_nonneg _

theorem keyR_mono {p q : ℚ} (h : p ≤ q) : keyR p ≤ keyR q := by
  have pos : ∀ {p q : ℚ}, 0 ≤ p → p ≤ q → keyR p ≤ keyR q := by
    intro p q hp hpq
    rw [keyR_of_nonneg hp, keyR_of_nonneg (le_trans hp hpq)]
    have : roundPat (p * 2 ^ 149) ≤ roundPat (q * 2 ^ 149) :=
      roundPat_mono (by positivity) (by gcongr)
    have : min (roundPat (p * 2 ^ 149)) infPat ≤ min (roundPat (q * 2 ^ 149)) infPat := by
      simp only [Nat.min_def]; split_ifs <;> omega
    exact_mod_cast this
  by_cases hp : 0 ≤ p
  · exact pos hp h
  · by_cases hq : 0 ≤ q
    · have h1 := keyR_nonneg hq
      have h2 := keyR_nonneg (q := -p) (by linarith)
      rw [keyR_neg] at h2; omega
    · have := pos (p := -q) (q := -p) (by linarith) (by linarith)
      rw [keyR_neg, keyR_neg] at this; omega

theorem keyR_toRat {a : F32} (ha : a.isFinite) : keyR (toRat a) = key a := by
  obtain ⟨s, n, hn, rfl⟩ := exists_of_isFinite ha
  have h0 : (0 : ℚ) ≤ toRat (fin false n hn) := by rw [toRat_fin_false]; positivity
  have : keyR (toRat (fin false n hn)) = n := by
    rw [keyR_of_nonneg h0, toRat_fin_false, div_mul_cancel₀ _ (by positivity), roundPat_mag,
      Nat.min_eq_left hn.le]
  cases s
  · rw [this]; simp [key]
  · have e : toRat (fin true n hn) = - toRat (fin false n hn) := by
      rw [toRat_fin_false, toRat_fin_true]
    rw [e, keyR_neg, this]; simp [key]

theorem key_packRound (s : Bool) {q : ℚ} (hq : 0 ≤ q) :
    key (packRound s q) = keyR ((if s then -1 else 1) * q) := by
  rw [packRound, key_pack]
  cases s
  · simp [keyR_of_nonneg hq]
  · simp only [if_true, neg_mul, one_mul, keyR_neg, keyR_of_nonneg hq]

theorem key_add {a b : F32} (ha : a.isFinite) (hb : b.isFinite) :
    (add a b).isNaN = false ∧ key (add a b) = keyR (toRat a + toRat b) := by
  obtain ⟨s, n, hn, rfl⟩ := exists_of_isFinite ha
  obtain ⟨t, m, hm, rfl⟩ := exists_of_isFinite hb
  simp only [add]
  split_ifs with h
  · rw [h, keyR_zero]; cases s <;> cases t <;> exact ⟨rfl, rfl⟩
  · exact ⟨isNaN_ofRat _, rfl⟩

theorem key_sub {a b : F32} (ha : a.isFinite) (hb : b.isFinite) :
    (sub a b).isNaN = false ∧ key (sub a b) = keyR (toRat a - toRat b) := by
  have := key_add ha (b := neg b) (by simpa using hb)
  rw [toRat_neg, ← sub_eq_add_neg] at this
  exact this

theorem key_mul {a b : F32} (ha : a.isFinite) (hb : b.isFinite) :
    (mul a b).isNaN = false ∧ key (mul a b) = keyR (toRat a * toRat b) := by
  obtain ⟨s, n, hn, rfl⟩ := exists_of_isFinite ha
  obtain ⟨t, m, hm, rfl⟩ := exists_of_isFinite hb
  simp only [mul]
  refine ⟨isNaN_packRound _ _, ?_⟩
  rw [key_packRound _ (by positivity), toRat_fin, toRat_fin]
  congr 1
  cases s <;> cases t <;> simp <;> ring

theorem key_div {a b : F32} (ha : a.isFinite) (hb : b.isFinite) (h0 : toRat b ≠ 0) :
    (div a b).isNaN = false ∧ key (div a b) = keyR (toRat a / toRat b) := by
  obtain ⟨s, n, hn, rfl⟩ := exists_of_isFinite ha
  obtain ⟨t, m, hm, rfl⟩ := exists_of_isFinite hb
  have hm0 : m ≠ 0 := by rintro rfl; simp [toRat] at h0
  simp only [div]
  rw [if_neg hm0]
  refine ⟨isNaN_packRound _ _, ?_⟩
  rw [key_packRound _ (by positivity), toRat_fin, toRat_fin]
  congr 1
  have : (mag m : ℚ) ≠ 0 := by exact_mod_cast fun h => hm0 (mag_eq_zero.1 h)
  cases s <;> cases t <;> simp <;> field_simp

/-! ## Order -/

theorem le_of_key {a b : F32} (ha : a.isNaN = false) (hb : b.isNaN = false) (h : key a ≤ key b) :
    le a b = true := by simp [le, ha, hb, h]

theorem le_key {a b : F32} (h : le a b = true) :
    a.isNaN = false ∧ b.isNaN = false ∧ key a ≤ key b := by
  simp [le] at h; exact ⟨h.1.1, h.1.2, h.2⟩

theorem le_trans {a b c : F32} (h1 : le a b = true) (h2 : le b c = true) : le a c = true := by
  have := le_key h1; have := le_key h2
  exact le_of_key (by tauto) (by tauto) (by omega)

theorem le_refl {a : F32} (h : a.isNaN = false) : le a a = true := le_of_key h h (by omega)

theorem le_total {a b : F32} (ha : a.isNaN = false) (hb : b.isNaN = false) :
    le a b = true ∨ le b a = true := by
  rcases Int.le_total (key a) (key b) with h | h
  · exact Or.inl (le_of_key ha hb h)
  · exact Or.inr (le_of_key hb ha h)

theorem not_lt_iff {a b : F32} (ha : a.isNaN = false) (hb : b.isNaN = false) :
    lt a b = false ↔ le b a = true := by
  simp [lt, le, ha, hb]

theorem sub_le_sub_right {a b c : F32} (ha : a.isFinite) (hb : b.isFinite) (hc : c.isFinite)
    (h : le a b = true) : le (sub a c) (sub b c) = true := by
  have h1 := key_sub ha hc
  have h2 := key_sub hb hc
  apply le_of_key h1.1 h2.1
  rw [h1.2, h2.2]
  apply keyR_mono
  have := (le_iff ha hb).1 h
  linarith

theorem isFinite_or_inf {a : F32} (h : a.isNaN = false) : a.isFinite = true ∨ ∃ s, a = inf s := by
  cases a with
  | nan => simp [isNaN] at h
  | inf s => exact Or.inr ⟨s, rfl⟩
  | fin s n hn => exact Or.inl rfl

theorem key_inf_true : key (inf true) = -(infPat : Int) := rfl

theorem key_inf_false : key (inf false) = (infPat : Int) := rfl

theorem neg_inf_le {b : F32} (h : b.isNaN = false) : le (inf true) b = true := by
  apply le_of_key rfl h
  have := key_bounds b
  simp [key] at *; omega

theorem le_pos_inf {b : F32} (h : b.isNaN = false) : le b (inf false) = true := by
  apply le_of_key h rfl
  have := key_bounds b
  simp [key] at *; omega

/-- Dividing by a positive finite number keeps the order, infinities included. -/
theorem div_le_div_right {a b c : F32} (hc : c.isFinite) (h0 : 0 < toRat c)
    (h : le a b = true) : le (div a c) (div b c) = true := by
  obtain ⟨na, nb, hk⟩ := le_key h
  have inf_div : ∀ s, div (inf s) c = inf s := by
    intro s
    obtain ⟨t, m, hm, rfl⟩ := exists_of_isFinite hc
    have : t = false := by
      cases t
      · rfl
      · rw [toRat_fin_true] at h0
        have : (0 : ℚ) ≤ (mag m : ℚ) / 2 ^ 149 := by positivity
        linarith
    subst this
    simp [div]
  have nan_div : ∀ x : F32, x.isNaN = false → (div x c).isNaN = false := by
    intro x hx
    rcases isFinite_or_inf hx with hf | ⟨s, rfl⟩
    · exact (key_div hf hc h0.ne').1
    · rw [inf_div]; rfl
  rcases isFinite_or_inf na with fa | ⟨s, rfl⟩
  · rcases isFinite_or_inf nb with fb | ⟨t, rfl⟩
    · have h1 := key_div fa hc h0.ne'
      have h2 := key_div fb hc h0.ne'
      apply le_of_key h1.1 h2.1
      rw [h1.2, h2.2]
      apply keyR_mono
      have := (le_iff fa fb).1 h
      gcongr
    · cases t
      · rw [inf_div]; exact le_pos_inf (nan_div _ na)
      · exfalso
        have := (isFinite_iff_key a).1 fa
        rw [key_inf_true] at hk; omega
  · cases s
    · rcases isFinite_or_inf nb with fb | ⟨t, rfl⟩
      · exfalso
        have := (isFinite_iff_key b).1 fb
        rw [key_inf_false] at hk; omega
      · cases t
        · rw [inf_div]; rfl
        · simp [key] at hk
    · rw [inf_div]; exact neg_inf_le (nan_div _ nb)

theorem toRat_fround_mono {a b : F32} (ha : a.isFinite) (hb : b.isFinite) (h : toRat a ≤ toRat b) :
    toRat (fround a) ≤ toRat (fround b) := by
  obtain ⟨s, n, hn, rfl⟩ := exists_of_isFinite ha
  obtain ⟨t, m, hm, rfl⟩ := exists_of_isFinite hb
  rw [toRat_fround_abs, toRat_fround_abs]
  have hn0 : (0 : ℚ) ≤ (mag n : ℚ) / 2 ^ 149 := by positivity
  have hm0 : (0 : ℚ) ≤ (mag m : ℚ) / 2 ^ 149 := by positivity
  have fl : ∀ x : ℚ, 0 ≤ x → (0 : ℚ) ≤ ((⌊x + 1 / 2⌋ : ℤ) : ℚ) := by
    intro x hx; exact_mod_cast Int.floor_nonneg.2 (by linarith)
  have f1 := fl _ hn0
  have f2 := fl _ hm0
  have mono : ∀ x y : ℚ, x ≤ y → ((⌊x + 1 / 2⌋ : ℤ) : ℚ) ≤ ((⌊y + 1 / 2⌋ : ℤ) : ℚ) := by
    intro x y hxy
    have : ⌊x + 1 / 2⌋ ≤ ⌊y + 1 / 2⌋ := Int.floor_le_floor (by linarith)
    exact_mod_cast this
  cases s <;> cases t
  · rw [toRat_fin_false, toRat_fin_false] at h
    simpa using mono _ _ h
  · rw [toRat_fin_false, toRat_fin_true] at h
    have e1 : (mag n : ℚ) / 2 ^ 149 = 0 := by linarith
    have e2 : (mag m : ℚ) / 2 ^ 149 = 0 := by linarith
    rw [e1, e2]
    have : ⌊(0 : ℚ) + 1 / 2⌋ = 0 := by norm_num
    rw [this]; simp
  · simp only [if_true, Bool.false_eq_true, if_false]; linarith
  · rw [toRat_fin_true, toRat_fin_true] at h
    have := mono _ _ (neg_le_neg_iff.1 h)
    simp only [if_true]; linarith

theorem fround_le_fround {a b : F32} (h : le a b = true) : le (fround a) (fround b) = true := by
  obtain ⟨na, nb, hk⟩ := le_key h
  have nan_r : ∀ x : F32, x.isNaN = false → (fround x).isNaN = false := by
    intro x hx
    rcases isFinite_or_inf hx with hf | ⟨s, rfl⟩
    · exact isNaN_of_isFinite (isFinite_fround hf)
    · rfl
  rcases isFinite_or_inf na with fa | ⟨s, rfl⟩
  · rcases isFinite_or_inf nb with fb | ⟨t, rfl⟩
    · rw [le_iff (isFinite_fround fa) (isFinite_fround fb)]
      exact toRat_fround_mono fa fb ((le_iff fa fb).1 h)
    · cases t
      · exact le_pos_inf (nan_r _ na)
      · exfalso
        have := (isFinite_iff_key a).1 fa
        rw [key_inf_true] at hk; omega
  · cases s
    · rcases isFinite_or_inf nb with fb | ⟨t, rfl⟩
      · exfalso
        have := (isFinite_iff_key b).1 fb
        rw [key_inf_false] at hk; omega
      · cases t
        · rfl
        · simp [key] at hk
    · exact neg_inf_le (nan_r _ nb)

end Verif.F32
