import Verif.Model.Shader
import Verif.Lemmas.Requantise

/-!
# The arithmetic of the unpacking functions of the shader
-/

set_option autoImplicit false

namespace Verif.Shader

open Verif Verif.F32 Verif.Mesh

/-! ## Exact operations on numbers that are not negative -/

theorem ofRat_nonneg {q : ℚ} (h : 0 ≤ q) : ofRat q = packRound false q := by
  unfold ofRat
  rw [if_neg (not_lt.2 h)]

theorem ofRat_zero : ofRat 0 = zero := by decide +kernel

/-- A representable number that is not negative, as a float without sign. -/
theorem ofRat_fin {q : ℚ} (h : 0 ≤ q) (hr : F32.Repr q) :
    ∃ n hn, ofRat q = fin false n hn ∧ toRat (fin false n hn) = q ∧ (mag n : ℚ) / 2 ^ 149 = q := by
  have hf := hr.ofRat_finite
  have hv := hr.toRat_ofRat
  rw [ofRat_nonneg h] at hf hv ⊢
  unfold packRound pack at hf hv ⊢
  split at hf
  · rename_i hn
    rw [dif_pos hn] at hv ⊢
    refine ⟨_, hn, rfl, hv, ?_⟩
    rw [toRat_fin_false] at hv
    exact hv
  · cases hf

theorem mul_ofRat {x y : ℚ} (hx : 0 ≤ x) (hy : 0 ≤ y) (rx : F32.Repr x) (ry : F32.Repr y) :
    mul (ofRat x) (ofRat y) = ofRat (x * y) := by
  obtain ⟨n, hn, h1, -, h2⟩ := ofRat_fin hx rx
  obtain ⟨m, hm, h3, -, h4⟩ := ofRat_fin hy ry
  rw [h1, h3, ofRat_nonneg (mul_nonneg hx hy)]
  simp only [mul, h2, h4, Bool.xor_false]

theorem div_ofRat {x y : ℚ} (hx : 0 ≤ x) (hy : 0 < y) (rx : F32.Repr x) (ry : F32.Repr y) :
    div (ofRat x) (ofRat y) = ofRat (x / y) := by
  obtain ⟨n, hn, h1, -, h2⟩ := ofRat_fin hx rx
  obtain ⟨m, hm, h3, -, h4⟩ := ofRat_fin hy.le ry
  have hm0 : m ≠ 0 := by
    rintro rfl
    rw [mag_zero] at h4
    simp only [Nat.cast_zero, zero_div] at h4
    exact absurd h4 hy.ne
  rw [h1, h3, ofRat_nonneg (div_nonneg hx hy.le)]
  simp only [div, if_neg hm0, Bool.xor_false]
  congr 1
  rw [← h2, ← h4, div_div_div_cancel_right₀ (by positivity)]

theorem add_ofRat {x y : ℚ} (hx : 0 ≤ x) (hy : 0 ≤ y) (rx : F32.Repr x) (ry : F32.Repr y) :
    add (ofRat x) (ofRat y) = ofRat (x + y) := by
  obtain ⟨n, hn, h1, h2, -⟩ := ofRat_fin hx rx
  obtain ⟨m, hm, h3, h4, -⟩ := ofRat_fin hy ry
  rw [h1, h3]
  simp only [add, h2, h4]
  split
  · rename_i h
    rw [h, ofRat_zero]
    rfl
  · rfl

theorem sub_ofRat {x y : ℚ} (hx : 0 ≤ x) (hy : 0 ≤ y) (rx : F32.Repr x) (ry : F32.Repr y) :
    sub (ofRat x) (ofRat y) = ofRat (x - y) := by
  obtain ⟨n, hn, h1, h2, -⟩ := ofRat_fin hx rx
  obtain ⟨m, hm, h3, h4, -⟩ := ofRat_fin hy ry
  have h5 : toRat (fin true m hm) = -y := by
    rw [← h4]
    exact toRat_neg (fin false m hm)
  rw [h1, h3]
  simp only [sub, neg, add, h2, Bool.not_false, h5]
  rw [← sub_eq_add_neg]
  split
  · rename_i h
    rw [h, ofRat_zero]
    rfl
  · rfl

theorem ffloor_ofRat {x : ℚ} (hx : 0 ≤ x) (rx : F32.Repr x) : ffloor (ofRat x) = ofRat ⌊x⌋ := by
  obtain ⟨n, hn, h1, h2, h3⟩ := ofRat_fin hx rx
  rw [h1]
  unfold ffloor
  by_cases h0 : n = 0
  · subst h0
    have : x = 0 := by
      rw [← h3, mag_zero]
      simp
    subst this
    simp only [Int.floor_zero, Int.cast_zero, ofRat_zero]
    rfl
  · have : (0 : ℚ) ≤ ⌊x⌋ := by exact_mod_cast Int.floor_nonneg.2 hx
    simp only [if_neg h0, h2, Bool.false_eq_true, if_false, ofRat_nonneg this]

theorem repr_nat {n : ℕ} (h : n ≤ 2 ^ 24) : F32.Repr (n : ℚ) := by
  have : |(n : ℤ)| ≤ 2 ^ 24 := by
    rw [abs_of_nonneg (by positivity)]
    exact_mod_cast h
  simpa using Repr.ofInt this

/-- Numbers with at most 24 bits, some of them after the point. -/
theorem repr_div {n e : ℕ} (h : n < 2 ^ 24) (he : e ≤ 100) : F32.Repr ((n : ℚ) / 2 ^ e) := by
  have hM : |((n : ℕ) : ℤ)| < 2 ^ 24 := by
    rw [abs_of_nonneg (by positivity)]
    exact_mod_cast h
  refine Repr.of_mul_pow (M := n) (e := 149 - e) hM ?_ ?_
  · rw [div_mul_eq_mul_div, div_eq_iff (by positivity), mul_assoc, ← pow_add, Nat.sub_add_cancel (by omega)]
    push_cast
    rfl
  · rw [abs_of_nonneg (by positivity)]
    have h1 : ((n : ℕ) : ℚ) < 2 ^ 24 := by exact_mod_cast h
    calc (n : ℚ) / 2 ^ e ≤ n := div_le_self (by positivity) (one_le_pow₀ (by norm_num))
      _ < 2 ^ 24 := h1
      _ < 2 ^ 128 := by norm_num

/-! ## Rounding and powers of two -/

theorem mag_double {n : Nat} (h : 2 ^ 23 ≤ n) : mag (n + 2 ^ 23) = 2 * mag n := by
  unfold mag
  rw [if_neg (by omega)]
  have h1 : (n + 2 ^ 23) % 2 ^ 23 = n % 2 ^ 23 := by omega
  have h2 : (n + 2 ^ 23) / 2 ^ 23 - 1 = n / 2 ^ 23 := by omega
  rw [h1, h2]
  split
  · have h3 : n / 2 ^ 23 = 1 := by omega
    have h4 : n % 2 ^ 23 + 2 ^ 23 = n := by omega
    rw [h3, h4]
    omega
  · have h3 : n / 2 ^ 23 = n / 2 ^ 23 - 1 + 1 := by omega
    rw [h3, pow_succ, Nat.add_sub_cancel]
    ring

theorem roundPat_double {q : ℚ} (h : 2 ^ 23 ≤ q) : roundPat (2 * q) = roundPat q + 2 ^ 23 := by
  have hq : 0 ≤ q := le_trans (by positivity) h
  obtain ⟨c, h1, h2⟩ := exists_bracket hq
  have hc : 2 ^ 23 ≤ c := by
    have h3 : (2 : ℚ) ^ 23 < mag (c + 1) := lt_of_le_of_lt h h2
    have h4 : mag (2 ^ 23) < mag (c + 1) := by
      have : mag (2 ^ 23) = 2 ^ 23 := by decide
      rw [this]
      exact_mod_cast h3
    have := mag_lt_iff.1 h4
    omega
  have e1 := mag_double hc
  have e2 := mag_double (n := c + 1) (by omega)
  have hP : 2 ^ 23 % 2 = 0 := by norm_num
  generalize (2 ^ 23 : ℕ) = P at e1 e2 hP ⊢
  have e3 : c + P + 1 = c + 1 + P := by omega
  rw [roundPat_between hq h1 h2, roundPat_between (c := c + P) (by linarith)
    (by rw [e1]; push_cast; linarith) (by rw [e3, e2]; push_cast; linarith), e3, e1, e2]
  push_cast
  have a1 : (2 * (2 * q) < 2 * (mag c : ℚ) + 2 * mag (c + 1)) ↔ 2 * q < (mag c : ℚ) + mag (c + 1) := by
    constructor <;> intro h <;> linarith
  have a2 : (2 * (2 * q) > 2 * (mag c : ℚ) + 2 * mag (c + 1)) ↔ 2 * q > (mag c : ℚ) + mag (c + 1) := by
    constructor <;> intro h <;> linarith
  have a3 : (c + P) % 2 = c % 2 := by omega
  simp only [a1, a2, a3]
  split_ifs <;> omega

theorem rnd_double {q : ℚ} (h : 1 / 2 ^ 126 ≤ q) : rnd (2 * q) = 2 * rnd q := by
  have hq : 0 ≤ q := le_trans (by positivity) h
  have h1 : (2 : ℚ) ^ 23 ≤ q * 2 ^ 149 := by
    calc (2 : ℚ) ^ 23 = 1 / 2 ^ 126 * 2 ^ 149 := by norm_num
      _ ≤ _ := by gcongr
  have h2 : 2 ^ 23 ≤ roundPat (q * 2 ^ 149) :=
    le_roundPat_of_le (by
      have : mag (2 ^ 23) = 2 ^ 23 := by decide
      rw [this]
      exact_mod_cast h1)
  rw [rnd_of_nonneg hq, rnd_of_nonneg (by linarith), mul_assoc, roundPat_double h1, mag_double h2]
  push_cast
  ring

theorem rnd_pow {q : ℚ} (h : 1 / 2 ^ 126 ≤ q) : ∀ k : ℕ, rnd (2 ^ k * q) = 2 ^ k * rnd q
  | 0 => by simp
  | k + 1 => by
    have h2 : (1 : ℚ) ≤ 2 ^ k := one_le_pow₀ (by norm_num)
    have hq : 0 ≤ q := le_trans (by positivity) h
    have h3 : 1 / 2 ^ 126 ≤ 2 ^ k * q := h.trans (le_mul_of_one_le_left hq h2)
    rw [pow_succ', mul_assoc, rnd_double h3, rnd_pow h k, mul_assoc]

theorem ofRat_rnd {q : ℚ} (h : 0 ≤ q) : ofRat (rnd q) = ofRat q := by
  rw [ofRat_nonneg h, ofRat_nonneg (rnd_nonneg h), rnd_of_nonneg h]
  unfold packRound
  rw [div_mul_cancel₀ _ (by positivity), roundPat_mag]

/-! ## Bytes -/

theorem unorm32_eq (b : Nat) (h : b < 256) :
    unorm32 b = ofRat (rnd (b / 255)) ∧ F32.Repr (rnd ((b : ℚ) / 255)) := by
  have h1 : unorm32 b = ofRat (b / 255) := by
    unfold unorm32 ofInt
    rw [div_ofRat (by positivity) (by norm_num) _ _]
    · push_cast
      rfl
    · simpa using repr_nat (n := b) (by omega)
    · simpa using repr_nat (n := 255) (by omega)
  refine ⟨by rw [h1, ofRat_rnd (by positivity)], ?_⟩
  have h2 : |(b : ℚ) / 255| < ovf := by
    rw [abs_of_nonneg (by positivity), div_lt_iff₀ (by norm_num)]
    have : (b : ℚ) < 256 := by exact_mod_cast h
    unfold ovf
    linarith
  rw [← toRat_ofRat h2]
  exact Repr.toRat _

theorem unorm_table : ∀ b : Fin 256, mul (ofRat (255 / 64)) (unorm32 b) = ofRat (b / 64) := by
  decide +kernel

/-- A power of two times 255, times the number that stands for `b / 255`. -/
theorem mul_unorm {b : Nat} (h : b < 256) (k : ℕ) (hk : k ≤ 14) :
    mul (ofRat (255 / 64 * 2 ^ k)) (unorm32 b) = ofRat (b / 64 * 2 ^ k) := by
  obtain ⟨h1, h2⟩ := unorm32_eq b h
  have r : ∀ k : ℕ, k ≤ 14 → F32.Repr ((255 : ℚ) / 64 * 2 ^ k) := by
    intro k hk
    have : ((255 * 2 ^ k : ℕ) : ℚ) / 2 ^ 6 = 255 / 64 * 2 ^ k := by
      push_cast
      ring
    rw [← this]
    refine repr_div ?_ (by norm_num)
    calc 255 * 2 ^ k ≤ 255 * 2 ^ 14 := Nat.mul_le_mul_left _ (Nat.pow_le_pow_right (by norm_num) hk)
      _ < 2 ^ 24 := by norm_num
  have hu : 0 ≤ rnd ((b : ℚ) / 255) := rnd_nonneg (by positivity)
  have h3 := unorm_table ⟨b, h⟩
  simp only at h3
  rw [h1, mul_ofRat (by norm_num) hu (by simpa using r 0 (by omega)) h2] at h3
  rw [h1, mul_ofRat (by positivity) hu (r k hk) h2]
  by_cases h0 : b = 0
  · subst h0
    simp
  · have hb : (1 : ℚ) ≤ b := by exact_mod_cast Nat.one_le_iff_ne_zero.2 h0
    have hl : 1 / 2 ^ 8 ≤ rnd ((b : ℚ) / 255) := by
      refine le_rnd_of_le ?_ ?_
      · simpa using repr_div (n := 1) (e := 8) (by norm_num) (by norm_num)
      · rw [div_le_div_iff₀ (by positivity) (by norm_num)]
        linarith
    have h4 : (1 : ℚ) / 2 ^ 126 ≤ 255 / 64 * rnd (b / 255) := by
      calc (1 : ℚ) / 2 ^ 126 ≤ 255 / 64 * (1 / 2 ^ 8) := by norm_num
        _ ≤ _ := by gcongr
    have hb2 : (b : ℚ) < 256 := by exact_mod_cast h
    have h5 : rnd (255 / 64 * rnd ((b : ℚ) / 255)) = b / 64 := by
      have r1 : F32.Repr ((b : ℚ) / 64) := by
        have := repr_div (n := b) (e := 6) (by omega) (by norm_num)
        norm_num at this
        exact this
      have := congrArg toRat h3
      rw [toRat_ofRat, r1.toRat_ofRat] at this
      · exact this
      · have hu1 : rnd ((b : ℚ) / 255) ≤ 1 := by
          refine rnd_le_of_le (by simpa using repr_nat (n := 1) (by norm_num)) ?_
          rw [div_le_one (by norm_num)]
          have : b ≤ 255 := by omega
          exact_mod_cast this
        rw [abs_of_nonneg (by positivity)]
        unfold ovf
        calc 255 / 64 * rnd ((b : ℚ) / 255) ≤ 255 / 64 * 1 := by gcongr
          _ < _ := by norm_num
    rw [← ofRat_rnd (by positivity), ← ofRat_rnd (q := (b : ℚ) / 64 * 2 ^ k) (by positivity)]
    have e1 : 255 / 64 * 2 ^ k * rnd ((b : ℚ) / 255) = 2 ^ k * (255 / 64 * rnd (b / 255)) := by ring
    rw [e1, rnd_pow h4, h5]
    have r2 : F32.Repr ((b : ℚ) / 64 * 2 ^ k) := by
      have : ((b * 2 ^ k : ℕ) : ℚ) / 2 ^ 6 = b / 64 * 2 ^ k := by
        push_cast
        ring
      rw [← this]
      refine repr_div ?_ (by norm_num)
      calc b * 2 ^ k ≤ 255 * 2 ^ 14 :=
            Nat.mul_le_mul (by omega) (Nat.pow_le_pow_right (by norm_num) hk)
        _ < 2 ^ 24 := by norm_num
    rw [r2.rnd_eq, mul_comm]

end Verif.Shader
