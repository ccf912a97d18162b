import Verif.F32.Ops

/-!
# Integers, rounding to integers and bit patterns of floats
-/

set_option autoImplicit false
set_option exponentiation.threshold 400

namespace Verif
namespace F32

theorem toBits_lt (a : F32) : toBits a < 2 ^ 32 := by
  cases a with
  | nan => simp [toBits]
  | inf s => cases s <;> simp [toBits, infPat]
  | fin s n h =>
    have h' : n < 2139095040 := h
    cases s <;> simp [toBits] <;> omega

theorem ofBits_toBits (a : F32) : ofBits (toBits a) = a := by
  cases a with
  | nan => simp [toBits, ofBits, infPat]
  | inf s => cases s <;> simp [toBits, ofBits, infPat]
  | fin s n h =>
    have h' : n < 2139095040 := h
    have e1 : ((if s then 2 ^ 31 else 0) + n) % 2 ^ 31 = n := by cases s <;> simp <;> omega
    have e2 : ((if s then 2 ^ 31 else 0) + n) / 2 ^ 31 % 2 = if s then 1 else 0 := by
      cases s <;> simp <;> omega
    simp only [toBits, ofBits, e1, e2]
    rw [dif_pos h]
    cases s <;> simp

/-- A float magnitude of at least `2^23` is an integer. -/
theorem mag_dvd_of_ge {n : Nat} (h : 2 ^ 172 ≤ mag n) : 2 ^ 149 ∣ mag n := by
  obtain ⟨M, hM, he, -⟩ := mag_eq n
  have : 149 ≤ gapE n := by
    by_contra hc
    have h1 : 2 ^ gapE n ≤ 2 ^ 148 := Nat.pow_le_pow_right (by norm_num) (by omega)
    have h2 : M * 2 ^ gapE n < 2 ^ 24 * 2 ^ 148 :=
      Nat.mul_lt_mul_of_lt_of_le hM h1 (by positivity)
    rw [← he] at h2
    have : 2 ^ 24 * 2 ^ 148 = 2 ^ 172 := by norm_num
    omega
  rw [he]
  exact Dvd.dvd.mul_left (pow_dvd_pow 2 this) M

theorem toRat_int_of_ge {a : F32} (h : 2 ^ 23 ≤ |toRat a|) : ∃ z : ℤ, toRat a = z := by
  have nonneg : ∀ n : Nat, 2 ^ 23 ≤ (mag n : ℚ) / 2 ^ 149 → ∃ z : ℤ, (mag n : ℚ) / 2 ^ 149 = z := by
    intro n h
    rw [le_div_iff₀ (by positivity)] at h
    have h' : 2 ^ 172 ≤ mag n := by
      have : (2 : ℚ) ^ 23 * 2 ^ 149 = 2 ^ 172 := by norm_num
      rw [this] at h; exact_mod_cast h
    obtain ⟨k, hk⟩ := mag_dvd_of_ge h'
    refine ⟨k, ?_⟩
    rw [hk, Nat.cast_mul, Nat.cast_pow, Nat.cast_ofNat, mul_div_assoc, mul_comm, div_mul_cancel₀ _ (by positivity)]
    norm_cast
  cases a with
  | nan => exact ⟨0, by simp [toRat]⟩
  | inf s => exact ⟨0, by simp [toRat]⟩
  | fin s n hn =>
    rw [abs_toRat_fin] at h
    obtain ⟨z, hz⟩ := nonneg n h
    cases s
    · exact ⟨z, by rw [toRat_fin_false, hz]⟩
    · exact ⟨-z, by rw [toRat_fin_true, hz]; push_cast; rfl⟩

/-- The rounded magnitude of a float is again a float. -/
theorem repr_round {a : F32} (h0 : 0 ≤ toRat a) : Repr ((⌊toRat a + 1 / 2⌋ : ℤ) : ℚ) := by
  by_cases h : 2 ^ 23 ≤ toRat a
  · obtain ⟨z, hz⟩ := toRat_int_of_ge (a := a) (by rwa [abs_of_nonneg h0])
    have : ⌊toRat a + 1 / 2⌋ = z := by
      rw [hz, Int.floor_eq_iff]; constructor <;> linarith
    rw [this, ← hz]; exact Repr.toRat a
  · apply Repr.ofInt
    have h1 : 0 ≤ ⌊toRat a + 1 / 2⌋ := Int.floor_nonneg.2 (by linarith)
    have h2 : ⌊toRat a + 1 / 2⌋ < 2 ^ 23 + 1 := by
      rw [Int.floor_lt]; push_cast; linarith
    rw [abs_of_nonneg h1]; omega

theorem repr_floor (a : F32) : Repr ((⌊toRat a⌋ : ℤ) : ℚ) := by
  by_cases h : 2 ^ 23 ≤ |toRat a|
  · obtain ⟨z, hz⟩ := toRat_int_of_ge h
    rw [hz, Int.floor_intCast, ← hz]; exact Repr.toRat a
  · apply Repr.ofInt
    have h := abs_lt.1 (not_le.1 h)
    have h1 : -2 ^ 23 ≤ ⌊toRat a⌋ := by rw [Int.le_floor]; push_cast; linarith
    have h2 : ⌊toRat a⌋ < 2 ^ 23 := by rw [Int.floor_lt]; push_cast; linarith
    rw [abs_le]; omega

theorem isFinite_fround {a : F32} (ha : a.isFinite) : (fround a).isFinite = true := by
  obtain ⟨s, n, hn, rfl⟩ := exists_of_isFinite ha
  have h0 : 0 ≤ toRat (fin false n hn) := by rw [toRat_fin_false]; positivity
  have hr := repr_round h0
  rw [toRat_fin_false] at hr h0
  simp only [fround]
  have h1 : (0 : ℤ) ≤ ⌊(mag n : ℚ) / 2 ^ 149 + 1 / 2⌋ := Int.floor_nonneg.2 (by linarith)
  have h1' : (0 : ℚ) ≤ (⌊(mag n : ℚ) / 2 ^ 149 + 1 / 2⌋ : ℤ) := by exact_mod_cast h1
  rw [isFinite_packRound_iff h1']
  have := hr.lt_ovf
  rwa [abs_of_nonneg h1'] at this

theorem toRat_fround_abs (s : Bool) (n : Nat) (hn : n < infPat) :
    toRat (fround (fin s n hn)) =
      (if s then -1 else 1) * ((⌊(mag n : ℚ) / 2 ^ 149 + 1 / 2⌋ : ℤ) : ℚ) := by
  have h0 : 0 ≤ toRat (fin false n hn) := by rw [toRat_fin_false]; positivity
  have hr := repr_round h0
  rw [toRat_fin_false] at hr h0
  simp only [fround]
  have h1 : (0 : ℤ) ≤ ⌊(mag n : ℚ) / 2 ^ 149 + 1 / 2⌋ := Int.floor_nonneg.2 (by linarith)
  have h1' : (0 : ℚ) ≤ (⌊(mag n : ℚ) / 2 ^ 149 + 1 / 2⌋ : ℤ) := by exact_mod_cast h1
  have := hr.lt_ovf
  rw [abs_of_nonneg h1'] at this
  rw [toRat_packRound h1' this]
  cases s
  · simp only [Bool.false_eq_true, if_false, one_mul]; exact hr.rnd_eq
  · simp only [if_true, neg_one_mul]; rw [rnd_neg, hr.rnd_eq]

/-- `std::round` of a nonnegative float. -/
theorem toRat_fround_of_nonneg {a : F32} (ha : a.isFinite) (h0 : 0 ≤ toRat a) :
    toRat (fround a) = (⌊toRat a + 1 / 2⌋ : ℤ) := by
  obtain ⟨s, n, hn, rfl⟩ := exists_of_isFinite ha
  rw [toRat_fround_abs]
  cases s
  · simp [toRat_fin_false]
  · rw [toRat_fin_true] at h0 ⊢
    have hp : (0 : ℚ) ≤ (mag n : ℚ) / 2 ^ 149 := by positivity
    have e : (mag n : ℚ) / 2 ^ 149 = 0 := by linarith
    rw [e]; norm_num

theorem isFinite_ffloor {a : F32} (ha : a.isFinite) : (ffloor a).isFinite = true := by
  obtain ⟨s, n, hn, rfl⟩ := exists_of_isFinite ha
  simp only [ffloor]
  by_cases h : n = 0
  · rw [if_pos h]; rfl
  rw [if_neg h]
  have hr := repr_floor (fin s n hn)
  have hl := hr.lt_ovf
  cases s
  · have h0 : 0 ≤ toRat (fin false n hn) := by rw [toRat_fin_false]; positivity
    have h1 : (0 : ℚ) ≤ (⌊toRat (fin false n hn)⌋ : ℤ) := by exact_mod_cast Int.floor_nonneg.2 h0
    rw [abs_of_nonneg h1] at hl
    simp only [Bool.false_eq_true, if_false]
    rw [isFinite_packRound_iff h1]; exact hl
  · have h0 : toRat (fin true n hn) ≤ 0 := by
      rw [toRat_fin_true, neg_nonpos]; positivity
    have h1 : ((⌊toRat (fin true n hn)⌋ : ℤ) : ℚ) ≤ 0 := le_trans (Int.floor_le _) h0
    rw [abs_of_nonpos h1] at hl
    simp only [if_true]
    rw [isFinite_packRound_iff (by linarith)]; exact hl

theorem toRat_ffloor {a : F32} (ha : a.isFinite) : toRat (ffloor a) = (⌊toRat a⌋ : ℤ) := by
  obtain ⟨s, n, hn, rfl⟩ := exists_of_isFinite ha
  simp only [ffloor]
  by_cases h : n = 0
  · subst h; simp [toRat]
  rw [if_neg h]
  have hr := repr_floor (fin s n hn)
  have hl := hr.lt_ovf
  cases s
  · have h0 : 0 ≤ toRat (fin false n hn) := by rw [toRat_fin_false]; positivity
    have h1 : (0 : ℚ) ≤ (⌊toRat (fin false n hn)⌋ : ℤ) := by exact_mod_cast Int.floor_nonneg.2 h0
    rw [abs_of_nonneg h1] at hl
    simp only [Bool.false_eq_true, if_false]
    rw [toRat_packRound_false h1 hl, hr.rnd_eq]
  · have h0 : toRat (fin true n hn) ≤ 0 := by
      rw [toRat_fin_true, neg_nonpos]; positivity
    have h1 : ((⌊toRat (fin true n hn)⌋ : ℤ) : ℚ) ≤ 0 := le_trans (Int.floor_le _) h0
    rw [abs_of_nonpos h1] at hl
    simp only [if_true]
    rw [toRat_packRound_true (by linarith) hl, rnd_neg, hr.rnd_eq, neg_neg]

theorem isFinite_ofInt {z : ℤ} (h : |z| ≤ 2 ^ 24) : (ofInt z).isFinite = true :=
  (Repr.ofInt h).ofRat_finite

theorem toRat_ofInt {z : ℤ} (h : |z| ≤ 2 ^ 24) : toRat (ofInt z) = z :=
  (Repr.ofInt h).toRat_ofRat

end F32
end Verif
