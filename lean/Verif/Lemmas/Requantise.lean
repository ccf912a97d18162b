import Verif.Spec.FlipCorrection
import Verif.Props.TipState
import Verif.Lemmas.Quantise
import Verif.Props.MeshPacking

/-!
# Quantising a value again
-/

set_option autoImplicit false
set_option exponentiation.threshold 400

namespace Verif.Flip

open F32 Mesh FlipSpec

/-! ## binary32 -/

theorem add_parts {a b : F32} (hb : b.isFinite = true) (h : (add a b).isFinite = true) :
    a.isFinite = true ∧ |toRat a + toRat b| < ovf := by
  obtain ⟨t, m, hm, rfl⟩ := exists_of_isFinite hb
  cases a with
  | nan => cases h
  | inf s => cases h
  | fin s n hn =>
    refine ⟨rfl, ?_⟩
    simp only [add] at h
    split at h
    · rename_i h0; rw [h0, abs_zero]; unfold ovf; norm_num
    · exact isFinite_ofRat_iff.1 h

theorem mul_parts {a b : F32} (hb : b.isFinite = true) (h0 : toRat b ≠ 0) (h : (mul a b).isFinite = true) :
    a.isFinite = true ∧ |toRat a * toRat b| < ovf := by
  obtain ⟨t, m, hm, rfl⟩ := exists_of_isFinite hb
  have hm0 : m ≠ 0 := by rintro rfl; simp [toRat] at h0
  cases a with
  | nan => cases h
  | inf s => simp only [mul, if_neg hm0] at h; cases h
  | fin s n hn =>
    refine ⟨rfl, ?_⟩
    simp only [mul] at h
    rw [isFinite_packRound_iff (by positivity)] at h
    rwa [abs_mul, abs_toRat_fin, abs_toRat_fin]

theorem div_parts {a b : F32} (hb : b.isFinite = true) (h0 : toRat b ≠ 0) (h : (div a b).isFinite = true) :
    a.isFinite = true ∧ |toRat a / toRat b| < ovf := by
  obtain ⟨t, m, hm, rfl⟩ := exists_of_isFinite hb
  have hm0 : m ≠ 0 := by rintro rfl; simp [toRat] at h0
  cases a with
  | nan => cases h
  | inf s => cases h
  | fin s n hn =>
    refine ⟨rfl, ?_⟩
    simp only [div] at h
    rw [if_neg hm0, isFinite_packRound_iff (by positivity)] at h
    rwa [abs_div, abs_toRat_fin, abs_toRat_fin, div_div_div_cancel_right₀ (by positivity)]

theorem fround_parts {a : F32} (h : (fround a).isFinite = true) : a.isFinite = true := by
  cases a with
  | nan => cases h
  | inf s => cases h
  | fin s n hn => rfl

/-- `fround` gives the nearest integer. -/
theorem fround_near {a : F32} (ha : a.isFinite = true) {j : ℤ} (h : |toRat a - j| < 1 / 2) :
    toRat (fround a) = j := by
  obtain ⟨s, n, hn, rfl⟩ := exists_of_isFinite ha
  rw [toRat_fround_abs]
  rw [abs_lt] at h
  cases s with
  | false =>
    rw [toRat_fin_false] at h
    have : ⌊(mag n : ℚ) / 2 ^ 149 + 1 / 2⌋ = j := by
      rw [Int.floor_eq_iff]; constructor <;> linarith [h.1, h.2]
    rw [this]; simp
  | true =>
    rw [toRat_fin_true] at h
    have : ⌊(mag n : ℚ) / 2 ^ 149 + 1 / 2⌋ = -j := by
      rw [Int.floor_eq_iff]; push_cast; constructor <;> linarith [h.1, h.2]
    rw [this]; simp

theorem fround_int {a : F32} (ha : a.isFinite = true) :
    ∃ k : ℤ, toRat (fround a) = k ∧ |(k : ℚ) - toRat a| ≤ 1 / 2 := by
  obtain ⟨s, n, hn, rfl⟩ := exists_of_isFinite ha
  rw [toRat_fround_abs]
  have h1 := Int.floor_le ((mag n : ℚ) / 2 ^ 149 + 1 / 2)
  have h2 := Int.lt_floor_add_one ((mag n : ℚ) / 2 ^ 149 + 1 / 2)
  cases s with
  | false =>
    refine ⟨⌊(mag n : ℚ) / 2 ^ 149 + 1 / 2⌋, by simp, ?_⟩
    rw [toRat_fin_false, abs_le]
    constructor <;> linarith
  | true =>
    refine ⟨-⌊(mag n : ℚ) / 2 ^ 149 + 1 / 2⌋, by simp, ?_⟩
    rw [toRat_fin_true, abs_le]
    push_cast
    constructor <;> linarith

theorem eq_of_toRat {a b : F32} (ha : a.isFinite = true) (hb : b.isFinite = true) (h : toRat a = toRat b)
    (h0 : toRat a ≠ 0) : a = b := by
  obtain ⟨s, n, hn, rfl⟩ := exists_of_isFinite ha
  obtain ⟨t, m, hm, rfl⟩ := exists_of_isFinite hb
  rw [← Tip.ofRat_toRat_of_ne hn h0, h, Tip.ofRat_toRat_of_ne hm (h ▸ h0)]

theorem zero_of_toRat {a : F32} (ha : a.isFinite = true) (h : toRat a = 0) : ∃ s, a = szero s := by
  obtain ⟨s, n, hn, rfl⟩ := exists_of_isFinite ha
  have : mag n = 0 := by
    have h' := abs_toRat_fin s n hn
    rw [h, abs_zero] at h'
    have : (mag n : ℚ) = 0 := by
      rcases div_eq_zero_iff.1 h'.symm with h | h
      · exact h
      · exact absurd h (by positivity)
    exact_mod_cast this
  have : n = 0 := mag_inj.1 (by rw [this, mag_zero])
  subst this
  exact ⟨s, rfl⟩

/-- With an offset that is not the negative zero, the sign of a zero does not matter. -/
theorem unpack_congr {a b s o : F32} (ha : a.isFinite = true) (hb : b.isFinite = true)
    (hs : s.isFinite = true) (ho : o.isFinite = true) (hn : o ≠ neg zero) (h : toRat a = toRat b) :
    add (mul a s) o = add (mul b s) o := by
  by_cases h0 : toRat a = 0
  · obtain ⟨sa, rfl⟩ := zero_of_toRat ha h0
    obtain ⟨sb, rfl⟩ := zero_of_toRat hb (h ▸ h0)
    have hz : ∀ t, ∃ u, mul (szero t) s = szero u := by
      intro t
      apply zero_of_toRat
      · apply isFinite_mul (by rfl) hs
        have : toRat (szero t) = 0 := by cases t <;> decide +kernel
        rw [this, zero_mul, abs_zero]; unfold ovf; norm_num
      · have ht : toRat (szero t) = 0 := by cases t <;> decide +kernel
        rw [toRat_mul (by rfl) hs (by rw [ht, zero_mul, abs_zero]; unfold ovf; norm_num), ht, zero_mul]
        decide +kernel
    obtain ⟨u, hu⟩ := hz sa
    obtain ⟨w, hw⟩ := hz sb
    rw [hu, hw]
    obtain ⟨t, m, hm, rfl⟩ := exists_of_isFinite ho
    have hz' : ∀ v : Bool, toRat (szero v) = 0 := by intro v; cases v <;> decide +kernel
    have key : ∀ v : Bool, add (szero v) (fin t m hm) =
        if toRat (fin t m hm) = 0 then szero (v && t) else ofRat (toRat (fin t m hm)) := by
      intro v
      show (if toRat (szero v) + toRat (fin t m hm) = 0 then szero (v && t)
        else ofRat (toRat (szero v) + toRat (fin t m hm))) = _
      rw [hz', zero_add]
    rw [key, key]
    split
    · rename_i hm0
      cases t with
      | false => simp
      | true =>
        exfalso
        obtain ⟨v, hv⟩ := zero_of_toRat (by rfl) hm0
        cases v with
        | false => unfold szero at hv; simp at hv
        | true => exact hn hv
    · rfl
  · rw [eq_of_toRat ha hb h h0]

theorem toRat_scale {c : Coding} (ok : CodingOk c) : 0 < toRat c.scale := by
  have := ok.pos
  rw [lt_iff (by rfl) ok.scale] at this
  have z : toRat zero = 0 := by decide +kernel
  rwa [z] at this

/-- The steps of `quantize`, when the result is finite. -/
structure Parts (c : Coding) (x : F32) (k : ℤ) : Prop where
  fin : x.isFinite = true
  kf : (fround (div (sub x c.offset) c.scale)).isFinite = true
  int : toRat (fround (div (sub x c.offset) c.scale)) = k
  near : |(k : ℚ) - rnd (rnd (toRat x - toRat c.offset) / toRat c.scale)| ≤ 1 / 2
  q : toRat (quantize c x) = rnd (rnd (k * toRat c.scale) + toRat c.offset)

theorem parts {c : Coding} (ok : CodingOk c) {x : F32} (h : (quantize c x).isFinite = true) :
    ∃ k, Parts c x k := by
  have hs := (toRat_scale ok).ne'
  unfold quantize at h
  obtain ⟨h1, o1⟩ := add_parts ok.offset h
  obtain ⟨h2, o2⟩ := mul_parts ok.scale hs h1
  have h3 := fround_parts h2
  obtain ⟨h4, o4⟩ := div_parts ok.scale hs h3
  have h4' : (add x (neg c.offset)).isFinite = true := h4
  obtain ⟨h5, o5⟩ := add_parts (by simp [ok.offset]) h4'
  obtain ⟨k, hk, hn⟩ := fround_int h3
  refine ⟨k, h5, h2, hk, ?_, ?_⟩
  · rw [toRat_div h4 ok.scale hs o4] at hn
    rw [toRat_neg, ← sub_eq_add_neg] at o5
    rwa [toRat_sub h5 ok.offset o5] at hn
  · unfold quantize
    rw [toRat_add h1 ok.offset o1, toRat_mul h2 ok.scale o2, hk]

theorem add_ne_negZero {a o : F32} (ho : o.isFinite = true) (hn : o ≠ neg zero) : add a o ≠ neg zero := by
  obtain ⟨t, m, hm, rfl⟩ := exists_of_isFinite ho
  cases a with
  | nan => intro h; cases h
  | inf s => intro h; cases h
  | fin s n hs =>
    intro h
    have hf : (add (fin s n hs) (fin t m hm)).isFinite = true := by rw [h]; rfl
    obtain ⟨-, ov⟩ := add_parts (by rfl) hf
    have hz : toRat (add (fin s n hs) (fin t m hm)) = 0 := by rw [h]; decide +kernel
    rw [toRat_add (by rfl) (by rfl) ov] at hz
    simp only [add] at h
    split at h
    · rename_i h0
      unfold szero at h
      have hst : (s && t) = true := by
        cases hb : (s && t)
        · rw [hb] at h; exact absurd h (by decide)
        · rfl
      rw [Bool.and_eq_true] at hst
      obtain ⟨rfl, rfl⟩ := hst
      rw [toRat_fin_true, toRat_fin_true] at h0
      have h1 : (0 : ℚ) ≤ (mag n : ℚ) / 2 ^ 149 := by positivity
      have h2 : (0 : ℚ) ≤ (mag m : ℚ) / 2 ^ 149 := by positivity
      have h3 : toRat (fin true m hm) = 0 := by rw [toRat_fin_true]; linarith
      obtain ⟨v, hv⟩ := zero_of_toRat (by rfl) h3
      cases v with
      | false => unfold szero at hv; simp at hv
      | true => exact hn hv
    · rename_i h0
      have hi : ∃ z : ℤ, toRat (fin s n hs) + toRat (fin t m hm) = z / 2 ^ 149 := by
        cases s <;> cases t <;> simp only [toRat_fin_true, toRat_fin_false]
        · exact ⟨mag n + mag m, by push_cast; ring⟩
        · exact ⟨mag n - mag m, by push_cast; ring⟩
        · exact ⟨-mag n + mag m, by push_cast; ring⟩
        · exact ⟨-mag n - mag m, by push_cast; ring⟩
      obtain ⟨z, hz'⟩ := hi
      rw [hz'] at h0 hz
      have hz0 : z ≠ 0 := by rintro rfl; simp at h0
      have h1 : (1 : ℚ) ≤ |(z : ℚ)| := by
        have : 1 ≤ |z| := Int.one_le_abs hz0
        exact_mod_cast this
      have e := rnd_err ((z : ℚ) / 2 ^ 149)
      rw [hz, zero_sub, abs_neg, abs_div, abs_of_pos (a := (2 : ℚ) ^ 149) (by positivity)] at e
      rcases le_max_iff.1 e with h2 | h2
      · have : (1 : ℚ) / 2 ^ 149 ≤ |(z : ℚ)| / 2 ^ 149 := div_le_div_of_nonneg_right h1 (by positivity)
        have : (1 : ℚ) / 2 ^ 150 < 1 / 2 ^ 149 := by norm_num
        linarith
      · have : (0 : ℚ) < |(z : ℚ)| / 2 ^ 149 := div_pos (by linarith) (by positivity)
        linarith

theorem add_zero' {x : F32} (h : x ≠ neg zero) : add x zero = x := by
  cases x with
  | nan => rfl
  | inf s => rfl
  | fin s n hn =>
    show (if toRat (fin s n hn) + toRat zero = 0 then szero (s && false) else ofRat (toRat (fin s n hn) + toRat zero)) = _
    have z : toRat zero = 0 := by decide +kernel
    rw [z, _root_.add_zero]
    split
    · rename_i h0
      obtain ⟨v, hv⟩ := zero_of_toRat (by rfl) h0
      cases v with
      | false => rw [hv, Bool.and_false]
      | true => exact absurd hv h
    · rename_i h0
      exact Tip.ofRat_toRat_of_ne hn h0

theorem quantize_add_zero {c : Coding} (ok : CodingOk c) (x : F32) : add (quantize c x) zero = quantize c x :=
  add_zero' (add_ne_negZero ok.offset ok.offset_ne)

/-! ## Errors -/

theorem rnd_bound {z B : ℚ} (hB : 1 / 2 ^ 126 ≤ B) (h : |z| ≤ B) : |rnd z - z| ≤ B / 2 ^ 24 := by
  refine _root_.le_trans (rnd_err z) (max_le ?_ ?_)
  · have : (1 : ℚ) / 2 ^ 150 = 1 / 2 ^ 126 / 2 ^ 24 := by norm_num
    rw [this]; exact div_le_div_of_nonneg_right hB (by positivity)
  · exact div_le_div_of_nonneg_right h (by positivity)

theorem rnd_inv {z B : ℚ} (hB : 1 / 2 ^ 126 ≤ B) (h : |rnd z| ≤ B) :
    |z| ≤ B * (101 / 100) ∧ |rnd z - z| ≤ B * (101 / 100) / 2 ^ 24 := by
  have hz : |z| ≤ B * (101 / 100) := by
    have e := rnd_err z
    have t : |z| ≤ |rnd z| + |rnd z - z| := by
      have := abs_sub_abs_le_abs_sub z (rnd z)
      rw [abs_sub_comm] at this
      linarith
    rcases le_max_iff.1 e with h1 | h1
    · have : (1 : ℚ) / 2 ^ 150 ≤ 1 / 2 ^ 126 * (1 / 100) := by norm_num
      linarith
    · linarith
  exact ⟨hz, rnd_bound (by linarith) hz⟩

/-- The parameters are such that one step is more than the precision at `A`, and there are at most
`2 ^ 20` steps in `R`. -/
structure Near (c : Coding) (A R : ℚ) : Prop where
  off : |toRat c.offset| ≤ A
  sR : toRat c.scale ≤ R
  RA : R ≤ 5 / 2 * A
  As : A ≤ 2 ^ 21 * toRat c.scale
  Rs : R ≤ 2 ^ 20 * toRat c.scale
  s0 : 1 / 2 ^ 100 ≤ toRat c.scale
  s1 : toRat c.scale ≤ 2 ^ 100

variable {c : Coding} {A R : ℚ}

/-- The error of unpacking. -/
def unpackErr (A R : ℚ) : ℚ := (101 / 100 * A + 115 / 100 * R) / 2 ^ 24

theorem Near.pos (N : Near c A R) : 0 < A := by
  have : (0 : ℚ) < 1 / 2 ^ 100 := by positivity
  linarith [N.s0, N.sR, N.RA]

theorem unpack_err (N : Near c A R) {k : ℤ} (hq : |rnd (rnd (k * toRat c.scale) + toRat c.offset)| ≤ A)
    (hqo : |rnd (rnd (k * toRat c.scale) + toRat c.offset) - toRat c.offset| ≤ R) :
    |rnd (rnd (k * toRat c.scale) + toRat c.offset) - (toRat c.offset + k * toRat c.scale)| ≤ unpackErr A R ∧
    |k * toRat c.scale| ≤ 115 / 100 * R := by
  obtain ⟨off, sR, RA, As, Rs, s0, s1⟩ := N
  generalize toRat c.scale = s at *
  generalize toRat c.offset = o at *
  have hA : 1 / 2 ^ 126 ≤ A := by
    have : (1 : ℚ) / 2 ^ 126 ≤ 2 / 5 * (1 / 2 ^ 100) := by norm_num
    linarith
  have hA0 : 0 < A := by
    have : (0 : ℚ) < 1 / 2 ^ 126 := by positivity
    linarith
  have hs0 : 0 < s := by
    have : (0 : ℚ) < 1 / 2 ^ 100 := by positivity
    linarith
  obtain ⟨h1, h2⟩ := rnd_inv hA hq
  have hu : A / 2 ^ 24 ≤ s / 8 := by
    rw [div_le_iff₀ (by positivity)]
    have : s / 8 * 2 ^ 24 = 2 ^ 21 * s := by ring
    rw [this]; exact As
  have e2 : A * (101 / 100) / 2 ^ 24 = 101 / 100 * (A / 2 ^ 24) := by ring
  rw [e2] at h2
  have h3 : |rnd (k * s)| ≤ 113 / 100 * R := by
    have a := abs_le.1 h2
    have b := abs_le.1 hqo
    rw [abs_le]
    constructor <;> linarith [a.1, a.2, b.1, b.2]
  obtain ⟨h4, h5⟩ := rnd_inv (by
    have : (1 : ℚ) / 2 ^ 126 ≤ 1 / 2 ^ 100 := by norm_num
    linarith) h3
  refine ⟨?_, by linarith⟩
  have e3 : 113 / 100 * R * (101 / 100) / 2 ^ 24 = 11413 / 10000 * (R / 2 ^ 24) := by ring
  rw [e3] at h5
  have e : unpackErr A R = 101 / 100 * (A / 2 ^ 24) + 115 / 100 * (R / 2 ^ 24) := by
    unfold unpackErr; ring
  rw [e]
  rw [abs_le] at h2 h5 ⊢
  have : 0 ≤ R / 2 ^ 24 := by
    have : 0 ≤ R := by linarith
    positivity
  constructor <;> linarith [h2.1, h2.2, h5.1, h5.2]

theorem unpackErr_le (N : Near c A R) : unpackErr A R ≤ 1 / 5 * toRat c.scale ∧ 2 * unpackErr A R ≤ A / 2 ^ 21 ∧
    0 ≤ unpackErr A R := by
  have h1 := N.As
  have h2 := N.Rs
  have h3 := N.RA
  have h4 := N.pos
  have h5 := N.sR
  have h6 := N.s0
  unfold unpackErr
  generalize toRat c.scale = s at *
  have hs0 : 0 < s := by
    have : (0 : ℚ) < 1 / 2 ^ 100 := by positivity
    linarith
  refine ⟨?_, ?_, ?_⟩
  · rw [div_le_iff₀ (by positivity)]
    linarith
  · have : A / 2 ^ 21 = 8 * A / 2 ^ 24 := by ring
    rw [this, ← mul_div_assoc]
    apply div_le_div_of_nonneg_right _ (by positivity)
    linarith
  · have : 0 ≤ R := by linarith
    positivity

/-- A value close to a step is packed as that step. -/
theorem pack_near (ok : CodingOk c) (N : Near c A R) {w : F32} (hw : w.isFinite = true) {j : ℤ}
    (hj : |j * toRat c.scale| ≤ 115 / 100 * R + toRat c.scale)
    (h : |toRat w - (toRat c.offset + j * toRat c.scale)| ≤ 33 / 100 * toRat c.scale) :
    (fround (div (sub w c.offset) c.scale)).isFinite = true ∧
    toRat (fround (div (sub w c.offset) c.scale)) = j := by
  have hs := toRat_scale ok
  obtain ⟨off, sR, RA, As, Rs, s0, s1⟩ := N
  have ov : (2 : ℚ) ^ 122 < ovf := by unfold ovf; norm_num
  have hd : |toRat w - toRat c.offset| ≤ (115 / 100 * 2 ^ 20 + 133 / 100) * toRat c.scale := by
    have hw' := abs_le.1 h
    have hj' := abs_le.1 hj
    rw [abs_le]
    constructor <;> linarith [hw'.1, hw'.2, hj'.1, hj'.2]
  have o1 : |toRat w - toRat c.offset| < ovf := by
    have : (2 : ℚ) ^ 122 = 2 ^ 22 * 2 ^ 100 := by norm_num
    linarith
  have f1 := isFinite_sub hw ok.offset o1
  have t1 := toRat_sub hw ok.offset o1
  have e1 := rnd_bound (B := (115 / 100 * 2 ^ 20 + 133 / 100) * toRat c.scale) (by
    have : (1 : ℚ) / 2 ^ 126 ≤ 1 / 2 ^ 100 := by norm_num
    linarith) hd
  have e1' : |toRat (sub w c.offset) / toRat c.scale - j| ≤ 33 / 100 + 73 / 1000 := by
    rw [t1]
    have : rnd (toRat w - toRat c.offset) / toRat c.scale - j =
        (rnd (toRat w - toRat c.offset) - j * toRat c.scale) / toRat c.scale := by
      field_simp
    rw [this, abs_div, abs_of_pos hs, div_le_iff₀ hs]
    have hw' := abs_le.1 h
    have e' := abs_le.1 e1
    have hAs : (115 / 100 * 2 ^ 20 + 133 / 100) * toRat c.scale / 2 ^ 24 ≤ 73 / 1000 * toRat c.scale := by
      rw [div_le_iff₀ (by positivity)]
      linarith
    rw [abs_le]
    constructor <;> linarith [hw'.1, hw'.2, e'.1, e'.2]
  have hjb : |(j : ℚ)| ≤ 115 / 100 * 2 ^ 20 + 1 := by
    rw [abs_mul, abs_of_pos hs] at hj
    by_contra hc
    rw [not_le] at hc
    have := mul_lt_mul_of_pos_right hc hs
    linarith
  have hdb : |toRat (sub w c.offset) / toRat c.scale| ≤ 115 / 100 * 2 ^ 20 + 2 := by
    have := abs_sub_abs_le_abs_sub (toRat (sub w c.offset) / toRat c.scale) (j : ℚ)
    linarith
  have o2 : |toRat (sub w c.offset) / toRat c.scale| < ovf := by
    refine lt_of_le_of_lt hdb ?_
    unfold ovf; norm_num
  have f2 := isFinite_div f1 ok.scale hs.ne' o2
  have t2 := toRat_div f1 ok.scale hs.ne' o2
  have e2 := rnd_bound (B := 115 / 100 * 2 ^ 20 + 2) (by norm_num) hdb
  refine ⟨isFinite_fround f2, fround_near f2 ?_⟩
  rw [t2]
  have h2 := abs_le.1 e2
  have h1 := abs_le.1 e1'
  rw [abs_lt]
  have n : (115 / 100 * 2 ^ 20 + 2 : ℚ) / 2 ^ 24 < 73 / 1000 := by norm_num
  constructor <;> linarith [h1.1, h1.2, h2.1, h2.2]

/-- Quantised values of size up to `A`, up to `R` from the offset, are not changed by being quantised
again. -/
theorem requantise (ok : CodingOk c) (N : Near c A R) {x : F32} (hf : (quantize c x).isFinite = true)
    (hA : |toRat (quantize c x)| ≤ A) (hR : |toRat (quantize c x) - toRat c.offset| ≤ R) :
    quantize c (quantize c x) = quantize c x := by
  obtain ⟨k, P⟩ := parts ok hf
  have hq := P.q
  rw [hq] at hA hR
  obtain ⟨e, hk⟩ := unpack_err N hA hR
  have hq4 := unpackErr_le N
  have hs := toRat_scale ok
  obtain ⟨f, t⟩ := pack_near ok N hf (j := k) (by linarith) (by rw [hq]; linarith)
  show add (mul (fround (div (sub (quantize c x) c.offset) c.scale)) c.scale) c.offset =
    add (mul (fround (div (sub x c.offset) c.scale)) c.scale) c.offset
  exact unpack_congr f P.kf ok.scale ok.offset ok.offset_ne (t.trans P.int.symm)

/-- How far a value is from its quantised value. -/
theorem quantize_err (ok : CodingOk c) (N : Near c A R) {v : F32} {k : ℤ} (P : Parts c v k)
    (hA : |toRat (quantize c v)| ≤ A) (hR : |toRat (quantize c v) - toRat c.offset| ≤ R) :
    |toRat v - (toRat c.offset + k * toRat c.scale)| ≤ toRat c.scale / 2 + 34 / 10 * (R / 2 ^ 24) := by
  have hs := toRat_scale ok
  rw [P.q] at hA hR
  obtain ⟨-, hks⟩ := unpack_err N hA hR
  have near := P.near
  obtain ⟨off, sR, RA, As, Rs, s0, s1⟩ := N
  have hv : toRat v = toRat c.offset + (toRat v - toRat c.offset) := by ring
  generalize toRat v - toRat c.offset = z at *
  rw [hv]
  clear hv
  generalize toRat c.offset = o at *
  generalize toRat c.scale = s at *
  have hR126 : 1 / 2 ^ 126 ≤ R := by
    have : (1 : ℚ) / 2 ^ 126 ≤ 1 / 2 ^ 100 := by norm_num
    linarith
  have hR0 : 0 < R := by linarith
  have hRs1 : 1 ≤ R / s := by rw [le_div_iff₀ hs]; linarith
  -- the quotient
  have hy : |rnd (rnd z / s)| ≤ 165 / 100 * (R / s) := by
    have h1 : |(k : ℚ)| ≤ 115 / 100 * (R / s) := by
      rw [abs_mul, abs_of_pos hs] at hks
      rw [← mul_div_assoc, le_div_iff₀ hs]
      exact hks
    have h2 := abs_sub_abs_le_abs_sub (rnd (rnd z / s)) (k : ℚ)
    rw [abs_sub_comm] at h2
    linarith
  obtain ⟨h3, h4⟩ := rnd_inv (B := 165 / 100 * (R / s)) (by
    have : (1 : ℚ) / 2 ^ 126 ≤ 1 := by norm_num
    linarith) hy
  have h5 : |rnd z| ≤ 16665 / 10000 * R := by
    rw [abs_div, abs_of_pos hs, div_le_iff₀ hs] at h3
    have : 165 / 100 * (R / s) * (101 / 100) * s = 16665 / 10000 * R := by field_simp; norm_num
    rw [this] at h3
    exact h3
  obtain ⟨h6, h7⟩ := rnd_inv (B := 16665 / 10000 * R) (by linarith) h5
  have h8 : |rnd (rnd z / s) * s - rnd z| ≤ 16665 / 10000 * (R / 2 ^ 24) := by
    have e : rnd (rnd z / s) * s - rnd z = (rnd (rnd z / s) - rnd z / s) * s := by field_simp
    rw [e, abs_mul, abs_of_pos hs]
    have := mul_le_mul_of_nonneg_right h4 hs.le
    have e2 : 165 / 100 * (R / s) * (101 / 100) / 2 ^ 24 * s = 16665 / 10000 * (R / 2 ^ 24) := by
      field_simp; norm_num
    rw [e2] at this
    exact this
  have h9 : |(k : ℚ) * s - rnd (rnd z / s) * s| ≤ s / 2 := by
    rw [← sub_mul, abs_mul, abs_of_pos hs]
    have := mul_le_mul_of_nonneg_right near hs.le
    linarith
  have e7 : 16665 / 10000 * R * (101 / 100) / 2 ^ 24 = 1683165 / 1000000 * (R / 2 ^ 24) := by ring
  rw [e7] at h7
  have hAu : 0 ≤ R / 2 ^ 24 := by positivity
  rw [abs_le] at h7 h8 h9 ⊢
  constructor <;> linarith [h7.1, h7.2, h8.1, h8.2, h9.1, h9.2]

theorem signBit_sub {a b : F32} (ha : a.isFinite = true) (hb : b.isFinite = true) :
    ((sub a b).signBit = true → toRat a ≤ toRat b) ∧ ((sub a b).signBit = false → toRat b ≤ toRat a) := by
  have hb' : (neg b).isFinite = true := by simpa using hb
  have hr : toRat b = - toRat (neg b) := by rw [toRat_neg, neg_neg]
  unfold sub
  rw [hr]
  generalize neg b = b at *
  obtain ⟨s, n, hn, rfl⟩ := exists_of_isFinite ha
  obtain ⟨t, m, hm, rfl⟩ := exists_of_isFinite hb'
  simp only [add]
  split
  · rename_i h0
    constructor <;> intro _ <;> linarith
  · rename_i h0
    have hsg : ∀ q : ℚ, (ofRat q).signBit = decide (q < 0) := by
      intro q
      have hp : ∀ (s : Bool) (n : Nat), (pack s n).signBit = s := by
        intro s n; unfold pack; split <;> rfl
      unfold ofRat packRound
      split <;> rw [hp] <;> simp_all
    rw [hsg]
    constructor
    · intro h; have := of_decide_eq_true h; linarith
    · intro h; have := of_decide_eq_false h; linarith

/-- A corrected component is within about one step of the original value, and is a number of steps from
the offset. -/
theorem step_err (ok : CodingOk c) (N : Near c A R) {v p : F32} (hv : v.isFinite = true)
    (hqf : (quantize c v).isFinite = true) (hqA : |toRat (quantize c v)| ≤ A)
    (hqR : |toRat (quantize c v) - toRat c.offset| ≤ R) (hS : Step c v p)
    (hpf : p.isFinite = true) (hpA : |toRat p| ≤ A) (hpR : |toRat p - toRat c.offset| ≤ R) :
    |toRat p - toRat v| ≤ toRat c.scale + A / 2 ^ 21 := by
  obtain ⟨k, P⟩ := parts ok hqf
  have h1 := quantize_err ok N P hqA hqR
  have hs := toRat_scale ok
  obtain ⟨u1, u2, u3⟩ := unpackErr_le N
  have hqA' := hqA
  have hqR' := hqR
  rw [P.q] at hqA' hqR'
  obtain ⟨h2, hks⟩ := unpack_err N hqA' hqR'
  rw [← P.q] at h2
  have hRu : R / 2 ^ 24 ≤ toRat c.scale / 16 := by
    rw [div_le_iff₀ (by positivity)]
    have := N.Rs
    linarith
  rcases hS with rfl | hS
  · have a1 := abs_le.1 h1
    have a2 := abs_le.1 h2
    have : 0 ≤ A / 2 ^ 21 := by have := N.pos; positivity
    rw [abs_le]
    constructor <;> linarith [a1.1, a1.2, a2.1, a2.2]
  · -- one step
    have one : toRat (mul (ofInt 1) c.scale) = toRat c.scale ∧ (mul (ofInt 1) c.scale).isFinite = true := by
      have t1 : toRat (ofInt 1) = 1 := by decide +kernel
      have o : |toRat (ofInt 1) * toRat c.scale| < ovf := by
        rw [t1, one_mul]; exact lt_of_le_of_lt (abs_toRat_le _) maxVal_lt_ovf
      exact ⟨by rw [toRat_mul (by decide +kernel) ok.scale o, t1, one_mul, rnd_toRat],
        isFinite_mul (by decide +kernel) ok.scale o⟩
    have main : ∀ (n : F32) (g : ℤ), n.isFinite = true → toRat n = g * toRat c.scale → (g = 1 ∨ g = -1) →
        p = quantize c (add (quantize c v) n) →
        |toRat p - (toRat c.offset + (k + g : ℤ) * toRat c.scale)| ≤ unpackErr A R := by
      intro n g hn hng hg hp
      have hgn : |toRat n| = toRat c.scale := by
        rw [hng, abs_mul, abs_of_pos hs]
        rcases hg with rfl | rfl <;> simp
      have hz : |toRat (quantize c v) + toRat n| ≤ (2 ^ 21 + 1) * toRat c.scale := by
        refine _root_.le_trans (abs_add_le _ _) ?_
        have := N.As
        linarith
      have ho : |toRat (quantize c v) + toRat n| < ovf := by
        have : (2 : ℚ) ^ 122 < ovf := by unfold ovf; norm_num
        have e : (2 : ℚ) ^ 122 = 2 ^ 22 * 2 ^ 100 := by norm_num
        have := N.s1
        linarith
      have fw := isFinite_add hqf hn ho
      have tw := toRat_add hqf hn ho
      have ew := rnd_bound (B := (2 ^ 21 + 1) * toRat c.scale) (by
        have : (1 : ℚ) / 2 ^ 126 ≤ 1 / 2 ^ 100 := by norm_num
        linarith [N.s0]) hz
      have e2 : (2 ^ 21 + 1) * toRat c.scale / 2 ^ 24 ≤ 1255 / 10000 * toRat c.scale := by
        rw [div_le_iff₀ (by positivity)]
        linarith
      rw [hng] at ew tw
      have a2 := abs_le.1 h2
      have a3 := abs_le.1 ew
      have gj : |(k + g : ℤ) * toRat c.scale| ≤ 115 / 100 * R + toRat c.scale := by
        have a1 := abs_le.1 hks
        rw [abs_le]
        push_cast
        rcases hg with rfl | rfl <;> push_cast <;> constructor <;> linarith [a1.1, a1.2]
      have gw : |toRat (add (quantize c v) n) - (toRat c.offset + (k + g : ℤ) * toRat c.scale)| ≤
          33 / 100 * toRat c.scale := by
        rw [tw, abs_le]
        push_cast
        constructor <;> linarith [a2.1, a2.2, a3.1, a3.2]
      obtain ⟨f, t⟩ := pack_near ok N fw gj gw
      rw [hp] at hpf hpA hpR
      obtain ⟨k', P'⟩ := parts ok hpf
      have hk : k' = k + g := by
        have := P'.int.symm.trans t
        exact_mod_cast this
      rw [P'.q] at hpA hpR
      have := (unpack_err N hpA hpR).1
      rw [← P'.q, ← hp, hk] at this
      exact this
    have sg := signBit_sub hv hqf
    have a1 := abs_le.1 h1
    have a2 := abs_le.1 h2
    by_cases hb : (sub v (quantize c v)).signBit = true
    · rw [if_pos hb] at hS
      have := main _ (-1) (by simpa using one.2) (by rw [toRat_neg, one.1]; push_cast; ring) (Or.inr rfl) hS
      have a3 := abs_le.1 this
      push_cast at a3
      have := sg.1 hb
      rw [abs_le]
      constructor <;> linarith [a1.1, a1.2, a2.1, a2.2, a3.1, a3.2]
    · rw [if_neg hb] at hS
      have := main _ 1 one.2 (by rw [one.1]; push_cast; ring) (Or.inl rfl) hS
      have a3 := abs_le.1 this
      push_cast at a3
      have := sg.2 (by simpa using hb)
      rw [abs_le]
      constructor <;> linarith [a1.1, a1.2, a2.1, a2.2, a3.1, a3.2]

/-! ## Parameters for a number of bits -/

theorem u32OfFloat_fround {a : F32} {k : Nat} (h : u32OfFloat (fround a) = some k) :
    (fround a).isFinite = true ∧ toRat (fround a) = k := by
  cases ha : fround a with
  | nan => rw [ha] at h; cases h
  | inf s => rw [ha] at h; cases h
  | fin s n hn =>
    refine ⟨rfl, ?_⟩
    have hf : a.isFinite = true := fround_parts (by rw [ha]; rfl)
    obtain ⟨z, hz, -⟩ := fround_int hf
    rw [ha] at h hz
    simp only [u32OfFloat] at h
    have hm : (mag n : ℚ) / 2 ^ 149 = |(z : ℚ)| := by rw [← hz, abs_toRat_fin]
    rw [hm] at h
    have e : ⌊|(z : ℚ)|⌋.toNat = z.natAbs := by
      have : |(z : ℚ)| = ((z.natAbs : ℤ) : ℚ) := by
        rw [Int.natCast_natAbs]; push_cast; rfl
      rw [this, Int.floor_intCast, Int.toNat_natCast]
    rw [e] at h
    split at h
    · cases h
    split at h
    · cases h
    rename_i h1 h2
    cases h
    cases s with
    | false =>
      rw [toRat_fin_false, hm]
      rw [Nat.cast_natAbs]; push_cast; rfl
    | true =>
      have hz0 : z.natAbs = 0 := by
        by_contra hne
        exact h1 (by simpa using hne)
      have hz00 : z = 0 := Int.natAbs_eq_zero.1 hz0
      rw [hz, hz00]
      simp

theorem readBack_eq {v : F32} (ok : CodingOk c) {k : Nat} (hk : k ≤ 2 ^ 24) (h : packSingleFloat c v = some k) :
    quantize c v = unpackSingleFloat c k := by
  obtain ⟨f, t⟩ := u32OfFloat_fround h
  exact unpack_congr f (isFinite_floatOfU32 hk) ok.scale ok.offset ok.offset_ne (by rw [t, toRat_floatOfU32 hk])

variable {b : Nat}

theorem Precise.max_eq (X : Precise c b A) : maxValueForBits b = 2 ^ b - 1 := maxValueForBits_eq X.b1

theorem Precise.pow (X : Precise c b A) : (4096 : ℚ) ≤ 2 ^ b ∧ (2 : ℚ) ^ b ≤ 2 ^ 20 ∧
    ((maxValueForBits b : Nat) : ℚ) = 2 ^ b - 1 ∧ maxValueForBits b < 2 ^ 20 := by
  have h1 : (2 : ℚ) ^ 12 ≤ 2 ^ b := pow_le_pow_right₀ (by norm_num) X.b0
  have h2 : (2 : ℚ) ^ b ≤ 2 ^ 20 := pow_le_pow_right₀ (by norm_num) X.b1
  have h3 : 2 ^ b ≤ 2 ^ 20 := Nat.pow_le_pow_right (by norm_num) X.b1
  have h4 : 1 ≤ 2 ^ b := Nat.one_le_two_pow
  refine ⟨by norm_num at h1 ⊢; exact h1, h2, ?_, ?_⟩
  · rw [Precise.max_eq X, Nat.cast_sub h4]; simp
  · rw [Precise.max_eq X]; omega

theorem unpack_val (X : Precise c b A) {k : Nat} (hk : k ≤ maxValueForBits b) :
    (unpackSingleFloat c k).isFinite = true ∧
    toRat (unpackSingleFloat c k) = rnd (rnd ((k : ℤ) * toRat c.scale) + toRat c.offset) ∧
    |rnd ((k : ℤ) * toRat c.scale) - (k : ℤ) * toRat c.scale| ≤ toRat c.scale / 16 := by
  have ok := X.coding
  have hs := toRat_scale ok
  obtain ⟨p1, p2, p3, p4⟩ := Precise.pow X
  have hk20 : k ≤ 2 ^ 24 := by omega
  have hkq : (k : ℚ) ≤ 2 ^ 20 := by
    have : k ≤ 2 ^ 20 := by omega
    exact_mod_cast this
  have hk0 : (0 : ℚ) ≤ k := by positivity
  have fk := isFinite_floatOfU32 hk20
  have tk := toRat_floatOfU32 hk20
  have ov : (2 : ℚ) ^ 126 < ovf := by unfold ovf; norm_num
  have hks : |(k : ℚ) * toRat c.scale| ≤ 2 ^ 20 * toRat c.scale := by
    rw [abs_of_nonneg (by positivity)]
    exact mul_le_mul_of_nonneg_right hkq hs.le
  have e2 : (2 : ℚ) ^ 126 = 2 ^ 26 * 2 ^ 100 := by norm_num
  have o1 : |toRat (floatOfU32 k) * toRat c.scale| < ovf := by
    rw [tk]
    have := X.s1
    linarith
  have f1 := isFinite_mul fk ok.scale o1
  have t1 := toRat_mul fk ok.scale o1
  rw [tk] at t1
  have er := rnd_bound (B := 2 ^ 20 * toRat c.scale) (by
    have : (1 : ℚ) / 2 ^ 126 ≤ 1 / 2 ^ 100 := by norm_num
    have := X.s0
    linarith) hks
  have er2 : 2 ^ 20 * toRat c.scale / 2 ^ 24 = toRat c.scale / 16 := by ring
  rw [er2] at er
  have hm : |rnd ((k : ℚ) * toRat c.scale)| ≤ (2 ^ 20 + 1) * toRat c.scale := by
    have := abs_sub_abs_le_abs_sub (rnd ((k : ℚ) * toRat c.scale)) ((k : ℚ) * toRat c.scale)
    linarith
  have o2 : |toRat (mul (floatOfU32 k) c.scale) + toRat c.offset| < ovf := by
    rw [t1]
    refine lt_of_le_of_lt (abs_add_le _ _) ?_
    have := X.s1
    have := X.off
    have := X.As
    linarith
  refine ⟨isFinite_add f1 ok.offset o2, ?_, by exact_mod_cast er⟩
  unfold unpackSingleFloat
  rw [toRat_add f1 ok.offset o2, t1]
  push_cast
  rfl

theorem near_of (X : Precise c b A) : Near c A (2 ^ b * toRat c.scale) ∧
    |toRat (unpackSingleFloat c (maxValueForBits b)) -
      (toRat c.offset + (maxValueForBits b : ℚ) * toRat c.scale)| ≤ 1 / 5 * toRat c.scale := by
  have hs := toRat_scale X.coding
  obtain ⟨p1, p2, p3, p4⟩ := Precise.pow X
  obtain ⟨-, t, e⟩ := unpack_val X (_root_.le_refl (maxValueForBits b))
  have top := X.top
  have hoff := X.off
  have hA0 : 0 ≤ A := _root_.le_trans (abs_nonneg _) hoff
  rw [t] at top
  rw [t]
  push_cast at e top ⊢
  rw [p3] at e top ⊢
  have hAs := X.As
  have s0 := X.s0
  have s1 := X.s1
  suffices H : toRat c.scale ≤ 2 ^ b * toRat c.scale ∧ 2 ^ b * toRat c.scale ≤ 5 / 2 * A ∧
      2 ^ b * toRat c.scale ≤ 2 ^ 20 * toRat c.scale ∧
      |rnd (rnd ((2 ^ b - 1) * toRat c.scale) + toRat c.offset) -
        (toRat c.offset + (2 ^ b - 1) * toRat c.scale)| ≤ 1 / 5 * toRat c.scale from
    ⟨⟨hoff, H.1, H.2.1, hAs, H.2.2.1, s0, s1⟩, H.2.2.2⟩
  generalize toRat c.scale = s at *
  generalize toRat c.offset = o at *
  have hbs1 : 4096 * s ≤ 2 ^ b * s := mul_le_mul_of_nonneg_right p1 hs.le
  have hbs2 : 2 ^ b * s ≤ 2 ^ 20 * s := mul_le_mul_of_nonneg_right p2 hs.le
  have ex : (2 ^ b - 1) * s = 2 ^ b * s - s := by ring
  rw [ex] at e top ⊢
  -- `A` is at least a few steps
  have hz : |rnd (2 ^ b * s - s) + o| ≤ (2 ^ 21 * s) * (101 / 100) ∧
      |rnd (rnd (2 ^ b * s - s) + o) - (rnd (2 ^ b * s - s) + o)| ≤ (2 ^ 21 * s) * (101 / 100) / 2 ^ 24 := by
    apply rnd_inv
    · have : (1 : ℚ) / 2 ^ 126 ≤ 1 / 2 ^ 100 := by norm_num
      linarith
    · linarith
  have hz2 := hz.2
  have e3 : 2 ^ 21 * s * (101 / 100) / 2 ^ 24 = 101 / 800 * s := by ring
  rw [e3] at hz2
  have a1 := abs_le.1 e
  have a2 := abs_le.1 hz2
  have a3 := abs_le.1 top
  have a4 := abs_le.1 hoff
  refine ⟨by linarith, by linarith [a1.1, a2.1, a3.2, a4.1], hbs2, ?_⟩
  rw [abs_le]
  constructor <;> linarith [a1.1, a1.2, a2.1, a2.2]

/-- The greatest value that can be represented, in the order of the operations of the bounds. -/
theorem top_eq (c : Coding) (k : Nat) : add c.offset (mul (floatOfU32 k) c.scale) = unpackSingleFloat c k :=
  Tip.add_comm' _ _

theorem offset_le_top (X : Precise c b A) :
    toRat c.offset < toRat (unpackSingleFloat c (maxValueForBits b)) ∧
    toRat (unpackSingleFloat c (maxValueForBits b)) - toRat c.offset ≤ 2 ^ b * toRat c.scale := by
  have h := abs_le.1 (near_of X).2
  have hs := toRat_scale X.coding
  obtain ⟨p1, p2, p3, p4⟩ := Precise.pow X
  rw [p3] at h
  have hbs1 : 4096 * toRat c.scale ≤ 2 ^ b * toRat c.scale := mul_le_mul_of_nonneg_right p1 hs.le
  constructor <;> linarith [h.1, h.2]

theorem minmax_eq (X : Precise c b A) :
    smin c.offset (unpackSingleFloat c (maxValueForBits b)) = c.offset ∧
    smax c.offset (unpackSingleFloat c (maxValueForBits b)) = unpackSingleFloat c (maxValueForBits b) := by
  have h := (offset_le_top X).1
  have f := (unpack_val X (_root_.le_refl (maxValueForBits b))).1
  have h1 : lt c.offset (unpackSingleFloat c (maxValueForBits b)) = true := (lt_iff X.coding.offset f).2 h
  have h2 : ¬ lt (unpackSingleFloat c (maxValueForBits b)) c.offset = true := by
    rw [lt_iff f X.coding.offset]; exact not_lt.2 h.le
  unfold smin smax
  rw [if_neg h2, if_pos h1]
  exact ⟨rfl, rfl⟩

/-- A value between the least and the greatest that can be represented. -/
theorem within (X : Precise c b A) {q : F32} (h1 : le c.offset q = true)
    (h2 : le q (unpackSingleFloat c (maxValueForBits b)) = true) :
    q.isFinite = true ∧ |toRat q| ≤ A ∧ |toRat q - toRat c.offset| ≤ 2 ^ b * toRat c.scale ∧
    toRat c.offset ≤ toRat q ∧ toRat q ≤ toRat (unpackSingleFloat c (maxValueForBits b)) := by
  have f := (unpack_val X (_root_.le_refl (maxValueForBits b))).1
  have hf := isFinite_of_between X.coding.offset f h1 h2
  rw [le_iff X.coding.offset hf] at h1
  rw [le_iff hf f] at h2
  have a := abs_le.1 X.off
  have b := abs_le.1 X.top
  have := (offset_le_top X).2
  refine ⟨hf, ?_, ?_, h1, h2⟩
  · rw [abs_le]; constructor <;> linarith [a.1, b.2]
  · rw [abs_le]; constructor <;> linarith

theorem stable_of_precise (X : Precise c b A) : Stable c c.offset (unpackSingleFloat c (maxValueForBits b)) := by
  intro x h1 h2
  obtain ⟨hf, hA, hR, -⟩ := within X h1 h2
  exact requantise X.coding (near_of X).1 hf hA hR

/-- Quantised values in the range are represented exactly. -/
theorem represented (X : Precise c b A) {x : F32} (h1 : le c.offset (quantize c x) = true)
    (h2 : le (quantize c x) (unpackSingleFloat c (maxValueForBits b)) = true) :
    ∃ k, packSingleFloat c (quantize c x) = some k ∧ k ≤ maxValueForBits b ∧
      unpackSingleFloat c k = quantize c x := by
  obtain ⟨hf, hA, hR, w1, w2⟩ := within X h1 h2
  have N := (near_of X).1
  have ok := X.coding
  have hs := toRat_scale ok
  obtain ⟨k, P⟩ := parts ok hf
  have hq := P.q
  have hA' := hA
  have hR' := hR
  rw [hq] at hA' hR'
  obtain ⟨e, hk⟩ := unpack_err N hA' hR'
  have hq4 := (unpackErr_le N).1
  have a1 := abs_le.1 e
  have a2 := abs_le.1 (near_of X).2
  rw [hq] at w1 w2
  obtain ⟨p1, p2, p3, p4⟩ := Precise.pow X
  have k0 : 0 ≤ k := by
    by_contra hc
    have : (k : ℚ) ≤ -1 := by
      have : k ≤ -1 := by omega
      exact_mod_cast this
    have := mul_le_mul_of_nonneg_right this hs.le
    linarith [a1.2]
  have kM : k ≤ maxValueForBits b := by
    by_contra hc
    have : (maxValueForBits b : ℚ) + 1 ≤ k := by
      have : (maxValueForBits b : ℤ) + 1 ≤ k := by omega
      exact_mod_cast this
    have := mul_le_mul_of_nonneg_right this hs.le
    linarith [a1.1, a2.2]
  obtain ⟨f, t⟩ := pack_near ok N hf (j := k) (by linarith) (by rw [hq]; linarith)
  have hp : packSingleFloat c (quantize c x) = some k.toNat := by
    apply u32OfFloat_of_toRat f _ (by omega)
    rw [t]
    have : ((k.toNat : ℤ) : ℚ) = k := by rw [Int.toNat_of_nonneg k0]
    exact_mod_cast this.symm
  refine ⟨k.toNat, hp, by omega, ?_⟩
  rw [← readBack_eq ok (by omega) hp]
  exact requantise ok N hf hA hR

/-- A value that is packed in `b` bits is quantised to a value in the range. -/
theorem inRange_bounds (X : Precise c b A) {v : F32} (h : InRange c b v) :
    le c.offset (quantize c v) = true ∧
    le (quantize c v) (unpackSingleFloat c (maxValueForBits b)) = true := by
  obtain ⟨k, hp, hk⟩ := h
  have ok := X.coding
  have hs := toRat_scale ok
  obtain ⟨p1, p2, p3, p4⟩ := Precise.pow X
  rw [readBack_eq ok (by omega) hp]
  obtain ⟨f, t, -⟩ := unpack_val X hk
  obtain ⟨f', t', -⟩ := unpack_val X (_root_.le_refl (maxValueForBits b))
  rw [le_iff ok.offset f, le_iff f f', t, t']
  constructor
  · have h0 : (0 : ℚ) ≤ rnd ((k : ℤ) * toRat c.scale) := rnd_nonneg (by push_cast; positivity)
    calc toRat c.offset = rnd (toRat c.offset) := (rnd_toRat _).symm
      _ ≤ _ := rnd_mono (by linarith)
  · apply rnd_mono
    have : rnd ((k : ℤ) * toRat c.scale) ≤ rnd ((maxValueForBits b : ℤ) * toRat c.scale) := by
      apply rnd_mono
      apply mul_le_mul_of_nonneg_right _ hs.le
      exact_mod_cast hk
    linarith

end Verif.Flip
