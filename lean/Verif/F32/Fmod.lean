import Verif.F32.Int
import Verif.F32.Mono

/-! Multiples of powers of two, `std::fmod`, and differences. -/

set_option exponentiation.threshold 400

namespace Verif

theorem mag_dvd {j n : Nat} (h : 2 ^ (j + 23) ≤ mag n) : 2 ^ j ∣ mag n := by
  obtain ⟨M, hM, he, -⟩ := mag_eq n
  have : j ≤ gapE n := by
    by_contra hc
    have h1 : 2 ^ (gapE n + 1) ≤ 2 ^ j := Nat.pow_le_pow_right (by norm_num) (by omega)
    have h2 : M * 2 ^ gapE n < 2 ^ 24 * 2 ^ gapE n := Nat.mul_lt_mul_of_pos_right hM (by positivity)
    rw [← he] at h2
    have h3 : 2 ^ 24 * 2 ^ gapE n = 2 ^ 23 * 2 ^ (gapE n + 1) := by rw [pow_succ]; ring
    have h4 : 2 ^ 23 * 2 ^ (gapE n + 1) ≤ 2 ^ 23 * 2 ^ j := Nat.mul_le_mul_left _ h1
    have h5 : 2 ^ (j + 23) = 2 ^ 23 * 2 ^ j := by rw [pow_add]; ring
    omega
  rw [he]
  exact Dvd.dvd.mul_left (pow_dvd_pow 2 this) M

namespace F32

/-- Every finite float is a multiple of the smallest one. -/
theorem toRat_unit (a : F32) : ∃ z : ℤ, toRat a = z / 2 ^ 149 := by
  cases a with
  | nan => exact ⟨0, by simp [toRat]⟩
  | inf s => exact ⟨0, by simp [toRat]⟩
  | fin s n h =>
    cases s
    · exact ⟨mag n, by rw [toRat_fin_false]; push_cast; rfl⟩
    · exact ⟨-mag n, by rw [toRat_fin_true]; push_cast; ring⟩

/-- A float of at least `2^(j+23)` units is a multiple of `2^j` units. -/
theorem toRat_dvd {a : F32} {j : Nat} (h : (2 : ℚ) ^ (j + 23) / 2 ^ 149 ≤ |toRat a|) :
    ∃ z : ℤ, toRat a = z * 2 ^ j / 2 ^ 149 := by
  cases a with
  | nan => exact ⟨0, by simp [toRat]⟩
  | inf s => exact ⟨0, by simp [toRat]⟩
  | fin s n hn =>
    rw [abs_toRat_fin, div_le_div_iff_of_pos_right (by positivity)] at h
    obtain ⟨k, hk⟩ := mag_dvd (j := j) (n := n) (by exact_mod_cast h)
    cases s
    · exact ⟨k, by rw [toRat_fin_false, hk]; push_cast; ring⟩
    · exact ⟨-k, by rw [toRat_fin_true, hk]; push_cast; ring⟩

/-- The remainder of two magnitudes is a magnitude. -/
theorem exists_mag_mod (n m : Nat) (hm : m ≠ 0) : ∃ k, mag k = mag n % mag m ∧ k < m := by
  have hm0 : 0 < mag m := mag_pos.2 (Nat.pos_of_ne_zero hm)
  have hlt := Nat.mod_lt (mag n) hm0
  have : ∃ k, mag k = mag n % mag m := by
    by_cases h : mag n < mag m
    · exact ⟨n, (Nat.mod_eq_of_lt h).symm⟩
    · obtain ⟨M, hM, he, -⟩ := mag_eq m
      obtain ⟨N, hN, hn, -⟩ := mag_eq n
      have hnm : m ≤ n := mag_le_iff.1 (by omega)
      have hg : gapE m ≤ gapE n := by
        unfold gapE
        have := Nat.div_le_div_right (c := 2 ^ 23) hnm
        omega
      have d1 : 2 ^ gapE m ∣ mag m := by rw [he]; exact Dvd.intro_left _ rfl
      have d2 : 2 ^ gapE m ∣ mag n := by
        rw [hn]; exact Dvd.dvd.mul_left (pow_dvd_pow 2 hg) N
      obtain ⟨q, hq⟩ := (Nat.dvd_mod_iff d1).2 d2
      rw [hq] at hlt ⊢
      rw [he] at hlt
      have hqM : q < M := by
        rw [mul_comm] at hlt
        exact Nat.lt_of_mul_lt_mul_right hlt
      obtain ⟨k, hk⟩ := exists_mag_of_mul_pow q (gapE m) (by omega)
      exact ⟨k, by rw [hk]; ring⟩
  obtain ⟨k, hk⟩ := this
  exact ⟨k, hk, mag_lt_iff.1 (by omega)⟩

/-- `std::fmod` is exact. -/
theorem fmod_fin (s t : Bool) (n m : Nat) (hn : n < infPat) (hm : m < infPat) (h0 : m ≠ 0) :
    ∃ k, ∃ hk : k < infPat, k < m ∧ mag k = mag n % mag m ∧ fmod (fin s n hn) (fin t m hm) = fin s k hk := by
  obtain ⟨k, hk, hlt⟩ := exists_mag_mod n m h0
  refine ⟨k, by omega, hlt, hk, ?_⟩
  simp only [fmod, if_neg h0]
  unfold packRound
  rw [div_mul_cancel₀ _ (by positivity), ← hk, roundPat_mag, pack_of_lt]

/-- `std::fmod`: same sign, smaller than the divisor, and congruent. -/
theorem toRat_fmod {a b : F32} (ha : a.isFinite) (hb : b.isFinite) (h0 : toRat b ≠ 0) :
    (fmod a b).isFinite = true ∧ |toRat (fmod a b)| < |toRat b| ∧
    (0 ≤ toRat a → 0 ≤ toRat (fmod a b)) ∧ (toRat a ≤ 0 → toRat (fmod a b) ≤ 0) ∧
    ∃ k : ℤ, toRat (fmod a b) = toRat a - k * toRat b := by
  obtain ⟨s, n, hn, rfl⟩ := exists_of_isFinite ha
  obtain ⟨t, m, hm, rfl⟩ := exists_of_isFinite hb
  have hm0 : m ≠ 0 := by
    rintro rfl; apply h0; simp [toRat]
  obtain ⟨k, hk, hlt, hmod, hf⟩ := fmod_fin s t n m hn hm hm0
  rw [hf]
  obtain ⟨d, hdiv⟩ : ∃ d : ℤ, (mag n : ℚ) = d * mag m + mag k := by
    refine ⟨((mag n / mag m : Nat) : ℤ), ?_⟩
    rw [hmod, Int.cast_natCast, ← Nat.cast_mul, ← Nat.cast_add, Nat.cast_inj, mul_comm]
    exact (Nat.div_add_mod (mag n) (mag m)).symm
  refine ⟨rfl, ?_, ?_, ?_, ?_⟩
  · rw [abs_toRat_fin, abs_toRat_fin, div_lt_div_iff_of_pos_right (by positivity)]
    exact_mod_cast mag_lt_iff.2 hlt
  · intro h
    cases s
    · rw [toRat_fin_false]; positivity
    · rw [toRat_fin_true] at h ⊢
      have h1 : (mag n : ℚ) / 2 ^ 149 ≤ 0 := by linarith
      have h2 : (mag n : ℚ) ≤ 0 := by
        rw [div_le_iff₀ (by positivity)] at h1; linarith
      have h3 : mag n = 0 := by
        have : mag n ≤ 0 := by exact_mod_cast h2
        omega
      rw [h3, Nat.zero_mod] at hmod
      rw [hmod]; simp
  · intro h
    cases s
    · rw [toRat_fin_false] at h ⊢
      have h2 : (mag n : ℚ) ≤ 0 := by
        rw [div_le_iff₀ (by positivity)] at h; linarith
      have h3 : mag n = 0 := by
        have : mag n ≤ 0 := by exact_mod_cast h2
        omega
      rw [h3, Nat.zero_mod] at hmod
      rw [hmod]; simp
    · rw [toRat_fin_true]
      have : (0 : ℚ) ≤ (mag k : ℚ) / 2 ^ 149 := by positivity
      linarith
  · cases s <;> cases t <;> simp only [toRat_fin_true, toRat_fin_false]
    · exact ⟨d, by rw [hdiv]; ring⟩
    · exact ⟨-d, by rw [hdiv]; push_cast; ring⟩
    · exact ⟨-d, by rw [hdiv]; push_cast; ring⟩
    · exact ⟨d, by rw [hdiv]; ring⟩

theorem key_eq_zero_iff {a : F32} (h : a.isNaN = false) : key a = 0 ↔ a.isFinite = true ∧ toRat a = 0 := by
  constructor
  · intro hk
    rcases isFinite_or_inf h with hf | ⟨s, rfl⟩
    · refine ⟨hf, ?_⟩
      have := (key_eq_iff hf isFinite_zero).1 (by rw [hk]; rfl)
      simpa using this
    · cases s <;> simp [key] at hk
  · rintro ⟨hf, h0⟩
    have := (key_eq_iff hf isFinite_zero).2 (by simpa using h0)
    rw [this]; rfl

/-- Gradual underflow: a difference of two different floats is not zero. -/
theorem sub_neg_of_lt {a b : F32} (h : lt a b = true) : lt (sub a b) zero = true := by
  unfold lt at h
  simp only [Bool.and_eq_true, Bool.not_eq_true', decide_eq_true_eq] at h
  obtain ⟨⟨ha, hb⟩, hk⟩ := h
  rcases isFinite_or_inf ha with fa | ⟨s, rfl⟩
  · rcases isFinite_or_inf hb with fb | ⟨t, rfl⟩
    · have hq := (key_lt_iff fa fb).1 hk
      have hks := key_sub fa fb
      have : toRat a - toRat b ≤ toRat (fin true 1 (by decide)) := by
        obtain ⟨x, hx⟩ := toRat_unit a
        obtain ⟨y, hy⟩ := toRat_unit b
        rw [toRat_fin_true, hx, hy]
        rw [hx, hy, div_lt_div_iff_of_pos_right (by positivity)] at hq
        have hxy : x < y := by exact_mod_cast hq
        have : (x : ℚ) + 1 ≤ y := by exact_mod_cast hxy
        have e : (mag 1 : ℚ) = 1 := by norm_num [mag]
        rw [e, ← sub_div, ← neg_div, div_le_div_iff_of_pos_right (by positivity)]
        linarith
      have h2 := keyR_mono this
      rw [keyR_toRat rfl] at h2
      have h3 : key (fin true 1 (by decide)) = -1 := rfl
      unfold lt
      rw [hks.1, hks.2]
      have h4 : key zero = 0 := rfl
      have h5 : zero.isNaN = false := rfl
      rw [h4, h5]
      simp only [Bool.not_false, Bool.true_and, decide_eq_true_eq]
      omega
    · obtain ⟨s, n, hn, rfl⟩ := exists_of_isFinite fa
      cases t
      · simp only [sub, F32.neg, add]; rfl
      · rw [key_inf_true] at hk
        have := key_bounds (fin s n hn)
        omega
  · cases s
    · rw [key_inf_false] at hk
      have := key_bounds b
      omega
    · rcases isFinite_or_inf hb with fb | ⟨t, rfl⟩
      · obtain ⟨s, n, hn, rfl⟩ := exists_of_isFinite fb
        simp only [sub, F32.neg, add]; rfl
      · cases t
        · rfl
        · omega

end F32
end Verif
