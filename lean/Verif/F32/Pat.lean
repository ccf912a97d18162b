import Verif.F32.Basic
import Mathlib.Tactic.Positivity
import Mathlib.Order.Monotone.Basic
import Mathlib.Tactic.Push
import Mathlib.Tactic.FieldSimp

/-! Facts about bit patterns, magnitudes and rounding of magnitudes. -/

namespace Verif

/-- Exponent (in units of `2^-149`) of the gap above pattern `n`. -/
def gapE (n : Nat) : Nat := n / 2 ^ 23 - 1

theorem mag_eq (n : Nat) :
    ∃ M, M < 2 ^ 24 ∧ mag n = M * 2 ^ gapE n ∧ (0 < gapE n → 2 ^ 23 ≤ M) ∧
      (gapE n = 0 → n = M) ∧ (0 < gapE n → n = (gapE n) * 2 ^ 23 + M) := by
  unfold mag gapE
  by_cases h : n < 2 ^ 24
  · have : n / 2 ^ 23 - 1 = 0 := by omega
    refine ⟨n, h, ?_, ?_, ?_, ?_⟩
    · rw [if_pos h, this, pow_zero, mul_one]
    · omega
    · intro _; rfl
    · omega
  · refine ⟨n % 2 ^ 23 + 2 ^ 23, by omega, by rw [if_neg h], by omega, by omega, ?_⟩
    intro _
    omega

theorem mag_succ (n : Nat) : mag (n + 1) = mag n + 2 ^ gapE n := by
  unfold mag gapE
  by_cases h : n + 1 < 2 ^ 24
  · have : n / 2 ^ 23 - 1 = 0 := by omega
    rw [if_pos h, if_pos (by omega), this, pow_zero]
  · by_cases h2 : n < 2 ^ 24
    · have : n = 2 ^ 24 - 1 := by omega
      subst this; norm_num
    · simp only [h, h2, if_false]
      obtain ⟨j, hj⟩ : ∃ j, n / 2 ^ 23 = j + 1 := ⟨n / 2 ^ 23 - 1, by omega⟩
      by_cases h3 : n % 2 ^ 23 + 1 < 2 ^ 23
      · have e1 : (n + 1) / 2 ^ 23 = n / 2 ^ 23 := by omega
        have e2 : (n + 1) % 2 ^ 23 = n % 2 ^ 23 + 1 := by omega
        rw [e1, e2]; ring
      · have e1 : (n + 1) / 2 ^ 23 = n / 2 ^ 23 + 1 := by omega
        have e2 : (n + 1) % 2 ^ 23 = 0 := by omega
        have e3 : n % 2 ^ 23 = 2 ^ 23 - 1 := by omega
        rw [e1, e2, e3, hj]
        simp only [Nat.add_sub_cancel]
        rw [pow_succ]; norm_num; ring

theorem mag_strictMono : StrictMono mag :=
  strictMono_nat_of_lt_succ fun n => by
    rw [mag_succ]; exact Nat.lt_add_of_pos_right (by positivity)

theorem mag_lt_iff {a b : Nat} : mag a < mag b ↔ a < b := mag_strictMono.lt_iff_lt
theorem mag_le_iff {a b : Nat} : mag a ≤ mag b ↔ a ≤ b := mag_strictMono.le_iff_le
theorem mag_inj {a b : Nat} : mag a = mag b ↔ a = b := mag_strictMono.injective.eq_iff

@[simp] theorem mag_zero : mag 0 = 0 := by decide

theorem mag_pos {n : Nat} : 0 < mag n ↔ 0 < n := by
  have := @mag_lt_iff 0 n; simpa using this

theorem mag_eq_zero {n : Nat} : mag n = 0 ↔ n = 0 := by
  have := @mag_inj n 0; simpa using this

theorem floorPat_spec (k : Nat) : mag (floorPat k) ≤ k ∧ k < mag (floorPat k + 1) := by
  unfold floorPat
  by_cases h : k < 2 ^ 24
  · rw [if_pos h]
    have : mag k = k := by unfold mag; rw [if_pos h]
    rw [mag_succ, this]
    exact ⟨le_refl _, Nat.lt_add_of_pos_right (by positivity)⟩
  · rw [if_neg h]
    have hk : k ≠ 0 := by omega
    have hlog : 24 ≤ Nat.log2 k := by
      rw [Nat.log2_eq_log_two]
      exact Nat.le_log_of_pow_le (by norm_num) (by omega)
    obtain ⟨l, hl⟩ : ∃ l, Nat.log2 k = l + 23 := ⟨Nat.log2 k - 23, by omega⟩
    have h1 : 2 ^ (l + 23) ≤ k := by rw [← hl]; exact Nat.log2_self_le hk
    have h2 : k < 2 ^ (l + 24) := by
      have := @Nat.lt_log2_self k
      rw [hl] at this; exact this
    simp only [hl, Nat.add_sub_cancel]
    have hp : 0 < 2 ^ l := by positivity
    have m1 : 2 ^ 23 ≤ k / 2 ^ l := by
      rw [Nat.le_div_iff_mul_le hp, ← pow_add, Nat.add_comm]; exact h1
    have m2 : k / 2 ^ l < 2 ^ 24 := by
      rw [Nat.div_lt_iff_lt_mul hp, ← pow_add, Nat.add_comm 24]; exact h2
    have hl1 : 1 ≤ l := by omega
    generalize hm : k / 2 ^ l = m at *
    have hdiv : (l * 2 ^ 23 + m) / 2 ^ 23 = l + 1 := by omega
    have hmod : (l * 2 ^ 23 + m) % 2 ^ 23 = m - 2 ^ 23 := by omega
    have hmag : mag (l * 2 ^ 23 + m) = m * 2 ^ l := by
      unfold mag
      rw [if_neg (by omega), hdiv, hmod]
      simp only [Nat.add_sub_cancel]
      congr 1; omega
    have hg : gapE (l * 2 ^ 23 + m) = l := by unfold gapE; omega
    rw [mag_succ, hmag, hg]
    have hdm := Nat.div_add_mod k (2 ^ l)
    have hml := Nat.mod_lt k hp
    rw [hm] at hdm
    constructor
    · rw [Nat.mul_comm]; omega
    · rw [Nat.mul_comm]; omega

theorem floorPat_unique {k c : Nat} (h1 : mag c ≤ k) (h2 : k < mag (c + 1)) :
    floorPat k = c := by
  have ⟨a, b⟩ := floorPat_spec k
  have : mag (floorPat k) < mag (c + 1) := by omega
  have h3 := mag_lt_iff.1 this
  have : mag c < mag (floorPat k + 1) := by omega
  have h4 := mag_lt_iff.1 this
  omega

theorem floor_bracket {q : ℚ} (hq : 0 ≤ q) :
    (mag (floorPat ⌊q⌋.toNat) : ℚ) ≤ q ∧ q < mag (floorPat ⌊q⌋.toNat + 1) := by
  have ⟨a, b⟩ := floorPat_spec ⌊q⌋.toNat
  have hf : 0 ≤ ⌊q⌋ := Int.floor_nonneg.2 hq
  have hc : ((⌊q⌋.toNat : Nat) : ℚ) = (⌊q⌋ : ℚ) := by
    have : ((⌊q⌋.toNat : Nat) : Int) = ⌊q⌋ := Int.toNat_of_nonneg hf
    exact_mod_cast congrArg (fun z : Int => (z : ℚ)) this
  constructor
  · calc (mag (floorPat ⌊q⌋.toNat) : ℚ) ≤ (⌊q⌋.toNat : Nat) := by exact_mod_cast a
      _ = ⌊q⌋ := hc
      _ ≤ q := Int.floor_le q
  · have h1 : q < ⌊q⌋ + 1 := Int.lt_floor_add_one q
    have h2 : ((⌊q⌋.toNat : Nat) : ℚ) + 1 ≤ (mag (floorPat ⌊q⌋.toNat + 1) : ℚ) := by
      exact_mod_cast b
    rw [hc] at h2
    linarith

/-- Characterisation of rounding between two neighbouring patterns. -/
theorem roundPat_between {q : ℚ} (hq : 0 ≤ q) {c : Nat} (h1 : (mag c : ℚ) ≤ q)
    (h2 : q < mag (c + 1)) :
    roundPat q = if 2 * q < mag c + mag (c + 1) then c
      else if 2 * q > mag c + mag (c + 1) then c + 1
      else if c % 2 = 0 then c else c + 1 := by
  have ⟨a, b⟩ := floor_bracket hq
  have e : floorPat ⌊q⌋.toNat = c := by
    have h3 : mag (floorPat ⌊q⌋.toNat) < mag (c + 1) := by
      have : (mag (floorPat ⌊q⌋.toNat) : ℚ) < mag (c + 1) := by linarith
      exact_mod_cast this
    have h4 : mag c < mag (floorPat ⌊q⌋.toNat + 1) := by
      have : (mag c : ℚ) < mag (floorPat ⌊q⌋.toNat + 1) := by linarith
      exact_mod_cast this
    have h5 := mag_lt_iff.1 h3
    have h6 := mag_lt_iff.1 h4
    omega
  simp only [roundPat, e]

/-- Every nonnegative rational lies between two neighbouring magnitudes. -/
theorem exists_bracket {q : ℚ} (hq : 0 ≤ q) :
    ∃ c : Nat, (mag c : ℚ) ≤ q ∧ q < mag (c + 1) := ⟨_, floor_bracket hq⟩

theorem roundPat_mag (n : Nat) : roundPat (mag n) = n := by
  have h : (mag n : ℚ) < mag (n + 1) := by exact_mod_cast mag_strictMono (Nat.lt_succ_self n)
  rw [roundPat_between (by positivity) le_rfl h, if_pos (by linarith)]

theorem roundPat_eq_or {q : ℚ} {c : Nat} (h1 : (mag c : ℚ) ≤ q) (h2 : q < mag (c + 1)) :
    roundPat q = c ∨ roundPat q = c + 1 := by
  have hq : 0 ≤ q := le_trans (by positivity) h1
  rw [roundPat_between hq h1 h2]
  split_ifs <;> simp

theorem roundPat_mono {p q : ℚ} (hp : 0 ≤ p) (hpq : p ≤ q) : roundPat p ≤ roundPat q := by
  have hq : 0 ≤ q := le_trans hp hpq
  obtain ⟨c, a1, a2⟩ := exists_bracket hp
  obtain ⟨d, b1, b2⟩ := exists_bracket hq
  have hcd : c ≤ d := by
    have : (mag c : ℚ) < mag (d + 1) := by linarith
    have : mag c < mag (d + 1) := by exact_mod_cast this
    have := mag_lt_iff.1 this; omega
  rcases Nat.lt_or_eq_of_le hcd with h | h
  · rcases roundPat_eq_or a1 a2 with e | e <;> rcases roundPat_eq_or b1 b2 with f | f <;> omega
  · subst h
    rw [roundPat_between hp a1 a2, roundPat_between hq b1 b2]
    split_ifs <;> first | omega | (exfalso; linarith)

theorem roundPat_le_of_le {q : ℚ} (hq : 0 ≤ q) {n : Nat} (h : q ≤ mag n) : roundPat q ≤ n := by
  have := roundPat_mono hq h; rwa [roundPat_mag] at this

theorem le_roundPat_of_le {q : ℚ} {n : Nat} (h : (mag n : ℚ) ≤ q) : n ≤ roundPat q := by
  have := roundPat_mono (by positivity) h; rwa [roundPat_mag] at this

/-- Rounding picks a nearest magnitude. -/
theorem roundPat_nearest {q : ℚ} (hq : 0 ≤ q) (n : Nat) :
    |(mag (roundPat q) : ℚ) - q| ≤ |(mag n : ℚ) - q| := by
  obtain ⟨c, a1, a2⟩ := exists_bracket hq
  have key : |(mag (roundPat q) : ℚ) - q| ≤ q - mag c ∧
      |(mag (roundPat q) : ℚ) - q| ≤ mag (c + 1) - q := by
    rw [roundPat_between hq a1 a2]
    split_ifs with h1 h2 h3
    · rw [abs_of_nonpos (by linarith)]; constructor <;> linarith
    · rw [abs_of_nonneg (by linarith)]; constructor <;> linarith
    · rw [abs_of_nonpos (by linarith)]; constructor <;> linarith
    · rw [abs_of_nonneg (by linarith)]; constructor <;> linarith
  rcases Nat.lt_or_ge c n with h | h
  · have : (mag (c + 1) : ℚ) ≤ mag n := by exact_mod_cast mag_le_iff.2 h
    rw [abs_of_nonneg (a := (mag n : ℚ) - q) (by linarith)]; linarith [key.2]
  · have : (mag n : ℚ) ≤ mag c := by exact_mod_cast mag_le_iff.2 h
    rw [abs_of_nonpos (a := (mag n : ℚ) - q) (by linarith)]; linarith [key.1]

/-- The rounding error is at most half the gap of the lower neighbour. -/
theorem roundPat_err {q : ℚ} {c : Nat} (h1 : (mag c : ℚ) ≤ q) (h2 : q < mag (c + 1)) :
    |(mag (roundPat q) : ℚ) - q| ≤ 2 ^ gapE c / 2 := by
  have hq : 0 ≤ q := le_trans (by positivity) h1
  have hs : (mag (c + 1) : ℚ) = mag c + 2 ^ gapE c := by exact_mod_cast mag_succ c
  have a := roundPat_nearest hq c
  have b := roundPat_nearest hq (c + 1)
  rw [abs_of_nonpos (a := (mag c : ℚ) - q) (by linarith)] at a
  rw [abs_of_nonneg (a := (mag (c + 1) : ℚ) - q) (by linarith)] at b
  linarith

/-- Relative error `2^-24` plus half a subnormal unit. -/
theorem roundPat_relerr {q : ℚ} (hq : 0 ≤ q) :
    |(mag (roundPat q) : ℚ) - q| ≤ max (1 / 2) (q / 2 ^ 24) := by
  obtain ⟨c, h1, h2⟩ := exists_bracket hq
  have he := roundPat_err h1 h2
  obtain ⟨M, _, hm, hM, _⟩ := mag_eq c
  rcases Nat.eq_zero_or_pos (gapE c) with h | h
  · rw [h] at he; simp only [pow_zero] at he
    exact le_trans he (le_max_left _ _)
  · refine le_trans he (le_trans ?_ (le_max_right _ _))
    have h3 := hM h
    have h4 : (2 : ℚ) ^ 23 * 2 ^ gapE c ≤ mag c := by
      rw [hm]; push_cast
      have : ((2 : ℚ) ^ 23) ≤ M := by exact_mod_cast h3
      exact mul_le_mul_of_nonneg_right this (by positivity)
    have : (2 : ℚ) ^ gapE c / 2 = (2 ^ 23 * 2 ^ gapE c) / 2 ^ 24 := by norm_num; ring
    rw [this]
    exact div_le_div_of_nonneg_right (le_trans h4 h1) (by positivity)

/-- In the normal range the relative error is at most `2^-24`. -/
theorem roundPat_relerr_normal {q : ℚ} (hq : (2 : ℚ) ^ 23 ≤ q) :
    |(mag (roundPat q) : ℚ) - q| ≤ q / 2 ^ 24 := by
  have := roundPat_relerr (q := q) (le_trans (by positivity) hq)
  rwa [max_eq_right] at this
  rw [le_div_iff₀ (by positivity)]
  linarith [hq, show (1 / 2 : ℚ) * 2 ^ 24 = 2 ^ 23 by norm_num]

/-- An integer number of units is a magnitude when it has at most 24 significant bits. -/
theorem exists_mag_of_mul_pow (M e : Nat) (hM : M < 2 ^ 24) : ∃ n, mag n = M * 2 ^ e := by
  induction e generalizing M with
  | zero => exact ⟨M, by unfold mag; rw [if_pos hM, pow_zero, mul_one]⟩
  | succ e ih =>
    by_cases h : M < 2 ^ 23
    · obtain ⟨n, hn⟩ := ih (2 * M) (by omega)
      exact ⟨n, by rw [hn, pow_succ]; ring⟩
    · refine ⟨(e + 1) * 2 ^ 23 + M, ?_⟩
      unfold mag
      rw [if_neg (by omega)]
      have h1 : ((e + 1) * 2 ^ 23 + M) / 2 ^ 23 = e + 2 := by omega
      have h2 : ((e + 1) * 2 ^ 23 + M) % 2 ^ 23 = M - 2 ^ 23 := by omega
      rw [h1, h2]
      congr 1; omega

theorem mag_infPat : mag infPat = 2 ^ 277 := by
  decide +kernel

theorem mag_max : mag 0x7F7FFFFF = 2 ^ 277 - 2 ^ 253 := by
  decide +kernel

end Verif
