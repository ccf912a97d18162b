import Verif.F32.Int

/-!
# Rounding errors of quantisation
-/

set_option autoImplicit false
set_option exponentiation.threshold 400

namespace Verif.F32

private theorem rel {q : ℚ} (h : 1 / 2 ^ 126 ≤ q) : rnd q ≤ q * (1 + 1 / 2 ^ 24) ∧ q * (1 - 1 / 2 ^ 24) ≤ rnd q := by
  have h0 : 0 < q := lt_of_lt_of_le (by norm_num) h
  have := rnd_err_normal (q := q) (by rwa [abs_of_pos h0])
  rw [abs_of_pos h0, abs_le] at this
  constructor <;> linarith [this.1, this.2]

private theorem absl {q B : ℚ} (hB : 1 / 2 ^ 126 ≤ B) (h : |q| ≤ B) : |rnd q - q| ≤ B / 2 ^ 24 := by
  refine le_trans (rnd_err q) (max_le ?_ ?_)
  · have : (1 : ℚ) / 2 ^ 150 = 1 / 2 ^ 126 / 2 ^ 24 := by norm_num
    rw [this]; exact div_le_div_of_nonneg_right hB (by positivity)
  · exact div_le_div_of_nonneg_right h (by positivity)

structure QuantFacts (M : ℕ) (lo hi v r s d q x : ℚ) (k : ℤ) : Prop where
  rpos : 0 < r
  rle : r ≤ 2 ^ 128 - 2 ^ 104
  spos : 0 < s
  sle : s ≤ 2 ^ 127
  d0 : 0 ≤ d
  dle : d ≤ r
  q0 : 0 ≤ q
  qle : d / s ≤ 2 ^ 21
  k0 : 0 ≤ k
  kM : k ≤ M
  ks : k * s ≤ 2 ^ 128 - 2 ^ 104
  xlo : |x + lo| ≤ 2 ^ 127
  err : |rnd (x + lo) - v| ≤ (hi - lo) / (2 * M) + max |lo| |hi| / 2 ^ 20

set_option maxHeartbeats 4000000 in
theorem quant {M : ℕ} (hM0 : 2 ≤ M) (hM2 : M < 2 ^ 20) {lo hi v : ℚ}
    (h1 : lo ≤ v) (h2 : v ≤ hi) (hD : (M : ℚ) / 2 ^ 126 ≤ hi - lo)
    (hlo : |lo| ≤ 2 ^ 126) (hhi : |hi| ≤ 2 ^ 126) :
    QuantFacts M lo hi v (rnd (hi - lo)) (rnd (rnd (hi - lo) / M)) (rnd (v - lo))
      (rnd (rnd (v - lo) / rnd (rnd (hi - lo) / M)))
      (rnd (⌊rnd (rnd (v - lo) / rnd (rnd (hi - lo) / M)) + 1 / 2⌋ * rnd (rnd (hi - lo) / M)))
      ⌊rnd (rnd (v - lo) / rnd (rnd (hi - lo) / M)) + 1 / 2⌋ := by
  have hMq0 : (2 : ℚ) ≤ M := by exact_mod_cast hM0
  have hMq1 : (1 : ℚ) ≤ M := by linarith
  have hMq2 : (M : ℚ) ≤ 2 ^ 20 - 1 := by
    have : M + 1 ≤ 2 ^ 20 := hM2
    have : (M : ℚ) + 1 ≤ 2 ^ 20 := by exact_mod_cast this
    linarith
  have hMpos : (0 : ℚ) < M := by linarith
  set D := hi - lo with hDdef
  set r := rnd D with hr
  set s := rnd (r / M) with hs
  set d := rnd (v - lo) with hd
  set q := rnd (d / s) with hq
  set k := ⌊q + 1 / 2⌋ with hk
  set x := rnd (k * s) with hx
  have hlo' := abs_le.1 hlo
  have hhi' := abs_le.1 hhi
  set A := max |lo| |hi| with hA
  have hA1 : |lo| ≤ A := le_max_left _ _
  have hA2 : |hi| ≤ A := le_max_right _ _
  have hA3 : A ≤ 2 ^ 126 := max_le hlo hhi
  have hDA : D ≤ 2 * A := by
    have := abs_le.1 hA1; have := abs_le.1 hA2; simp only [hDdef]; linarith
  have t126 : (1 : ℚ) / 2 ^ 126 ≤ M / 2 ^ 126 := by
    exact div_le_div_of_nonneg_right hMq1 (by positivity)
  have hDn : 1 / 2 ^ 126 ≤ D := le_trans t126 hD
  have hDpos : 0 < D := lt_of_lt_of_le (by norm_num) hDn
  obtain ⟨r1, r2⟩ := rel hDn
  rw [← hr] at r1 r2
  have hrM : (M : ℚ) / 2 ^ 126 ≤ r := by
    apply le_rnd_of_le _ hD
    apply Repr.of_mul_pow (M := M) (e := 23)
    · rw [abs_of_nonneg (by positivity)]; omega
    · push_cast
      have : (2 : ℚ) ^ 149 = 2 ^ 126 * 2 ^ 23 := by norm_num
      rw [this]; field_simp
    · rw [abs_of_nonneg (by positivity), div_lt_iff₀ (by positivity)]
      have : (2:ℚ) ^ 20 < 2 ^ 128 * 2 ^ 126 := by norm_num
      linarith
  have hrpos : 0 < r := lt_of_lt_of_le (by positivity) hrM
  have hsn : 1 / 2 ^ 126 ≤ r / M := by
    rw [le_div_iff₀ hMpos]; linarith [hrM, show 1 / 2 ^ 126 * (M:ℚ) = M / 2 ^ 126 by ring]
  obtain ⟨s1, s2⟩ := rel hsn
  rw [← hs] at s1 s2
  have hspos : 0 < s := lt_of_lt_of_le (by positivity) s2
  -- M * s against r
  have e1 : r / M * M = r := by field_simp
  have Ms1 : M * s ≤ r * (1 + 1 / 2 ^ 24) := by
    calc M * s ≤ M * (r / M * (1 + 1 / 2 ^ 24)) := by gcongr
      _ = (r / M * M) * (1 + 1 / 2 ^ 24) := by ring
      _ = _ := by rw [e1]
  have Ms2 : r * (1 - 1 / 2 ^ 24) ≤ M * s := by
    calc r * (1 - 1 / 2 ^ 24) = (r / M * M) * (1 - 1 / 2 ^ 24) := by rw [e1]
      _ = M * (r / M * (1 - 1 / 2 ^ 24)) := by ring
      _ ≤ _ := by gcongr
  have hd0 : 0 ≤ d := rnd_nonneg (by linarith)
  have hdr : d ≤ r := rnd_mono (by linarith)
  have hderr : |d - (v - lo)| ≤ D / 2 ^ 24 := by
    apply absl hDn; rw [abs_of_nonneg (by linarith)]; linarith
  have hds0 : 0 ≤ d / s := by positivity
  have hds : d / s ≤ M + 1 / 8 := by
    rw [div_le_iff₀ hspos]
    have hp := mul_pos hMpos hspos
    have hp2 := mul_le_mul_of_nonneg_right hMq2 hspos.le
    have : r ≤ M * s * (1 + 1 / 2 ^ 23) := by linarith
    have h3 : M * s * (1 + 1 / 2 ^ 23) ≤ (M + 1 / 8) * s := by linarith
    linarith
  have hq0 : 0 ≤ q := rnd_nonneg hds0
  have hqM : q ≤ M + 1 / 4 := by
    apply rnd_le_of_le
    · apply Repr.of_mul_pow (M := 4 * M + 1) (e := 147)
      · rw [abs_of_nonneg (by positivity)]; omega
      · push_cast
        have : (2 : ℚ) ^ 149 = 4 * 2 ^ 147 := by norm_num
        rw [this]; ring
      · rw [abs_of_nonneg (by positivity)]
        have : (2:ℚ) ^ 20 < 2 ^ 128 := by norm_num
        linarith
    · linarith
  have hqerr : |q - d / s| ≤ (M + 1 / 8) / 2 ^ 24 := by
    apply absl
    · have : (1 : ℚ) / 2 ^ 126 ≤ 1 := by norm_num
      linarith
    · rw [abs_of_nonneg hds0]; exact hds
  have hk0 : 0 ≤ k := Int.floor_nonneg.2 (by linarith)
  have hkM : k ≤ M := by
    have : k < M + 1 := by
      rw [hk, Int.floor_lt]; push_cast; linarith
    omega
  have hkq : |(k : ℚ) - q| ≤ 1 / 2 := by
    have a1 := Int.floor_le (q + 1 / 2)
    have a2 := Int.lt_floor_add_one (q + 1 / 2)
    rw [← hk] at a1 a2
    rw [abs_le]; constructor <;> linarith
  have hk0q : (0 : ℚ) ≤ k := by exact_mod_cast hk0
  have hkMq : (k : ℚ) ≤ M := by exact_mod_cast hkM
  have hks0 : 0 ≤ k * s := by positivity
  have hksM : k * s ≤ M * s := by gcongr
  -- |k s - d|
  have hksd : |k * s - d| ≤ s * (1 / 2 + (M + 1 / 8) / 2 ^ 24) := by
    have e : k * s - d = s * ((k - q) + (q - d / s)) := by field_simp; ring
    rw [e, abs_mul, abs_of_pos hspos]
    apply mul_le_mul_of_nonneg_left _ hspos.le
    exact le_trans (abs_add_le _ _) (add_le_add hkq hqerr)
  have hrD : r ≤ D * (1 + 1 / 2 ^ 24) := r1
  have hx0 : 0 ≤ x := rnd_nonneg hks0
  have hxabs : ∀ B : ℚ, 1 / 2 ^ 126 ≤ B → |k * s| ≤ B → |x - k * s| ≤ B / 2 ^ 24 := fun B h1 h2 => absl h1 h2
  clear_value A x k q d s r
  have hMs : M * s ≤ D * (1 + 3 / 2 ^ 24) := by linarith
  have hxerr : |x - k * s| ≤ D * (1 + 3 / 2 ^ 24) / 2 ^ 24 := by
    apply hxabs
    · linarith
    · rw [abs_of_nonneg hks0]; linarith
  have hxD : x ≤ D * (1 + 5 / 2 ^ 24) := by
    have := (abs_le.1 hxerr).2; linarith
  have hxlo : |x + lo| ≤ A * (1 + 10 / 2 ^ 24) := by
    have a1 := abs_le.1 hA1; have a2 := abs_le.1 hA2
    have a0 : 0 ≤ A := le_trans (abs_nonneg _) hA1
    rw [abs_le]; constructor
    · linarith
    · have : x + lo ≤ hi + D * (5 / 2 ^ 24) := by simp only [hDdef] at hxD ⊢; linarith
      linarith
  have hAn : 1 / 2 ^ 126 ≤ A * (1 + 10 / 2 ^ 24) := by
    have : D / 2 ≤ A := by linarith
    have : (2 : ℚ) / 2 ^ 126 ≤ M / 2 ^ 126 := div_le_div_of_nonneg_right hMq0 (by positivity)
    linarith [show (2 : ℚ) / 2 ^ 126 = 2 * (1 / 2 ^ 126) by ring]
  have hfin : |rnd (x + lo) - (x + lo)| ≤ A * (1 + 10 / 2 ^ 24) / 2 ^ 24 := absl hAn hxlo
  refine ⟨hrpos, ?_, hspos, ?_, hd0, hdr, hq0, ?_, hk0, hkM, ?_, ?_, ?_⟩
  · have : (2:ℚ) ^ 127 * (1 + 1 / 2 ^ 24) ≤ 2 ^ 128 - 2 ^ 104 := by norm_num
    linarith
  · have : (2:ℚ) ^ 127 * (1 + 3 / 2 ^ 24) ≤ 2 ^ 128 := by norm_num
    linarith [mul_le_mul_of_nonneg_right hMq0 hspos.le]
  · have : (2:ℚ) ^ 20 ≤ 2 ^ 21 := by norm_num
    linarith
  · have : (2:ℚ) ^ 127 * (1 + 3 / 2 ^ 24) ≤ 2 ^ 128 - 2 ^ 104 := by norm_num
    linarith
  · have : (2:ℚ) ^ 126 * (1 + 10 / 2 ^ 24) ≤ 2 ^ 127 := by norm_num
    linarith
  · have tri : |rnd (x + lo) - v| ≤ |rnd (x + lo) - (x + lo)| + |x - k * s| + |k * s - d| +
        |d - (v - lo)| := by
      have e : rnd (x + lo) - v = (rnd (x + lo) - (x + lo)) + (x - k * s) + (k * s - d) +
        (d - (v - lo)) := by ring
      rw [e]
      exact le_trans (abs_add_le _ _) (add_le_add_left (le_trans (abs_add_le _ _)
        (add_le_add_left (abs_add_le _ _) _)) _)
    have hhalf : s / 2 ≤ D / (2 * M) * (1 + 3 / 2 ^ 24) := by
      rw [div_mul_eq_mul_div, le_div_iff₀ (by positivity)]; linarith
    have hDM : D / (2 * M) ≤ D / 2 := by
      apply div_le_div_of_nonneg_left hDpos.le (by norm_num); linarith
    have hsM : s * ((M + 1 / 8) / 2 ^ 24) ≤ 2 * D * (1 + 3 / 2 ^ 24) / 2 ^ 24 := by
      have : s * (M + 1 / 8) ≤ 2 * (M * s) := by
        linarith [mul_le_mul_of_nonneg_right hMq1 hspos.le]
      rw [← mul_div_assoc]
      apply div_le_div_of_nonneg_right _ (by positivity)
      linarith
    have : s * (1 / 2 + (M + 1 / 8) / 2 ^ 24) = s / 2 + s * ((M + 1 / 8) / 2 ^ 24) := by ring
    rw [this] at hksd
    linarith

end Verif.F32
