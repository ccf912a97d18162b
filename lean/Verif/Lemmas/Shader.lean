import Verif.Lemmas.ShaderBytes
import Verif.Spec.Shader
import Verif.Props.Mesh

/-!
# What the unpacking functions of the shader give for packed values
-/

set_option autoImplicit false

namespace Verif.Shader

open Verif Verif.F32 Verif.Mesh Verif.Mesh.Spec Verif.Shader.Spec

theorem mul_comm' (a b : F32) : mul a b = mul b a := by
  cases a <;> cases b <;> simp only [F32.mul]
  all_goals first
    | rfl
    | (rename_i s t; cases s <;> cases t <;> rfl)
    | (rename_i s n h t; cases s <;> cases t <;> rfl)
    | (rename_i s t n h; cases s <;> cases t <;> rfl)
    | (rename_i s n h t m h'; rw [_root_.mul_comm, Bool.xor_comm])

theorem ofInt_nat (n : ℕ) : ofInt (n : ℤ) = ofRat (n : ℚ) := by
  unfold ofInt
  push_cast
  rfl

theorem floatOfU32_eq (n : ℕ) : floatOfU32 n = ofRat (n : ℚ) := ofInt_nat n

/-! ## Parts of bytes -/

/-- A byte divided by a power of two: the high bits. -/
theorem floor_part {q e : ℕ} (hq : q < 2 ^ 24) (he : e ≤ 100) :
    ffloor (ofRat ((q : ℚ) / 2 ^ e)) = ofRat ((q / 2 ^ e : ℕ) : ℚ) := by
  rw [ffloor_ofRat (by positivity) (repr_div hq he)]
  congr 1
  have : ⌊(q : ℚ) / 2 ^ e⌋ = ((q / 2 ^ e : ℕ) : ℤ) := by
    have := Rat.floor_natCast_div_natCast q (2 ^ e)
    push_cast at this ⊢
    rw [this]
  rw [this]
  push_cast
  rfl

/-- A byte divided by a power of two: the low bits. -/
theorem fract_part {q e : ℕ} (hq : q < 2 ^ 24) (he : e ≤ 100) :
    fract (ofRat ((q : ℚ) / 2 ^ e)) = ofRat (((q % 2 ^ e : ℕ) : ℚ) / 2 ^ e) := by
  unfold fract
  have h1 : q / 2 ^ e ≤ q := Nat.div_le_self _ _
  rw [floor_part hq he, sub_ofRat (by positivity) (by positivity) (repr_div hq he) (repr_nat (by omega))]
  congr 1
  have h2 : ((q % 2 ^ e : ℕ) : ℚ) = q - 2 ^ e * (q / 2 ^ e : ℕ) := by
    have := Nat.div_add_mod q (2 ^ e)
    have h3 : (2 ^ e : ℚ) * ((q / 2 ^ e : ℕ) : ℚ) + ((q % 2 ^ e : ℕ) : ℚ) = q := by exact_mod_cast this
    linarith
  rw [h2, sub_div, mul_div_cancel_left₀ _ (by positivity)]

theorem mul_pow_part {q e k : ℕ} (hq : q < 2 ^ 24) (he : e ≤ 100) (hk : k ≤ 24) (hek : e ≤ k) :
    mul (ofRat (2 ^ k)) (ofRat ((q : ℚ) / 2 ^ e)) = ofRat ((2 ^ (k - e) * q : ℕ) : ℚ) := by
  have r : F32.Repr ((2 : ℚ) ^ k) := by
    have : (2 : ℕ) ^ k ≤ 2 ^ 24 := Nat.pow_le_pow_right (by norm_num) hk
    exact_mod_cast repr_nat this
  rw [mul_ofRat (by positivity) (by positivity) r (repr_div hq he)]
  congr 1
  push_cast
  have : (2 : ℚ) ^ k = 2 ^ (k - e) * 2 ^ e := by rw [← pow_add, Nat.sub_add_cancel hek]
  rw [this]
  field_simp

theorem add_nat {a b : ℕ} (h : a + b ≤ 2 ^ 24) :
    add (ofRat (a : ℚ)) (ofRat (b : ℚ)) = ofRat ((a + b : ℕ) : ℚ) := by
  rw [add_ofRat (by positivity) (by positivity) (repr_nat (by omega)) (repr_nat (by omega))]
  push_cast
  rfl

theorem ofInt_ofNat (n : ℕ) [n.AtLeastTwo] : ofInt (OfNat.ofNat n : ℤ) = ofRat (OfNat.ofNat n : ℚ) := by
  unfold ofInt
  congr 1

section

variable {b : ℕ} (h : b < 256)
include h

theorem m4080 : mul (ofInt 4080) (unorm32 b) = ofRat ((16 * b : ℕ) : ℚ) := by
  have := mul_unorm h 10 (by norm_num)
  norm_num at this
  rw [ofInt_ofNat, this]
  congr 1
  push_cast
  ring

theorem m255 : mul (ofInt 255) (unorm32 b) = ofRat ((b : ℕ) : ℚ) := by
  have := mul_unorm h 6 (by norm_num)
  norm_num at this
  rw [ofInt_ofNat, this]

theorem m65280 : mul (ofInt 65280) (unorm32 b) = ofRat ((256 * b : ℕ) : ℚ) := by
  have := mul_unorm h 14 (by norm_num)
  norm_num at this
  rw [ofInt_ofNat, this]
  congr 1
  push_cast
  ring

theorem m1020 : mul (ofInt 1020) (unorm32 b) = ofRat ((4 * b : ℕ) : ℚ) := by
  have := mul_unorm h 8 (by norm_num)
  norm_num at this
  rw [ofInt_ofNat, this]
  congr 1
  push_cast
  ring

theorem m255_4 : mul (ofRat (255 / 4)) (unorm32 b) = ofRat ((b : ℚ) / 2 ^ 2) := by
  have := mul_unorm h 4 (by norm_num)
  norm_num at this ⊢
  rw [this]
  congr 1
  ring

theorem m255_16 : mul (ofRat (255 / 16)) (unorm32 b) = ofRat ((b : ℚ) / 2 ^ 4) := by
  have := mul_unorm h 2 (by norm_num)
  norm_num at this ⊢
  rw [this]
  congr 1
  ring

theorem m255_64 : mul (ofRat (255 / 64)) (unorm32 b) = ofRat ((b : ℚ) / 2 ^ 6) := by
  have := mul_unorm h 0 (by norm_num)
  norm_num at this ⊢
  rw [this]

end

/-! ## Two components in three bytes -/

theorem fits_two {s t : ℕ} {T : AttrType} (hT : bits T = [s, t]) {ks : List ℕ} (h : Fits T ks) :
    ∃ a b, ks = [a, b] ∧ a < 2 ^ s ∧ b < 2 ^ t := by
  unfold Fits at h
  rw [hT] at h
  rcases h with _ | ⟨ha, _ | ⟨hb, hn⟩⟩
  cases hn
  exact ⟨_, _, rfl, ha, hb⟩

theorem pack3_bytes {a b : ℕ} (ha : a < 4096) (hb : b < 4096) :
    packIntegers .f2In3Bytes [a, b] = some [a / 16, a % 16 * 16 + b / 256, b % 256] := by
  simp only [packIntegers, toByte, shl, Nat.shiftRight_eq_div_pow, Nat.shiftLeft_eq]
  have e1 := low_eq a 4
  have e2 := low_eq b 8
  norm_num at e1 e2
  norm_num [e1, e2]
  omega

theorem unpack3 {a b : ℕ} (ha : a < 4096) (hb : b < 4096) (t : Transform) :
    unpackFloat2PackedIntoUByte3 t (unorm32 (a / 16)) (unorm32 (a % 16 * 16 + b / 256))
      (unorm32 (b % 256)) = applyTransform t (ofRat (a : ℚ)) (ofRat (b : ℚ)) := by
  have hq : a % 16 * 16 + b / 256 < 256 := by omega
  have h1 : (a % 16 * 16 + b / 256) / 2 ^ 4 = a % 16 := by omega
  have h2 : (a % 16 * 16 + b / 256) % 2 ^ 4 = b / 256 := by omega
  have e4096 : ofInt 4096 = ofRat (2 ^ 12) := by
    rw [ofInt_ofNat]
    norm_num
  simp only [unpackFloat2PackedIntoUByte3]
  rw [m4080 (by omega), m255_16 hq, m255 (by omega), floor_part (by omega) (by norm_num),
    fract_part (by omega) (by norm_num), h1, h2, e4096, mul_pow_part (by omega) (by norm_num) (by norm_num)
    (by norm_num), add_nat (by omega), add_nat (by norm_num; omega)]
  congr 3
  · omega
  · norm_num; omega

theorem applyTransform_eq {cx cy : Coding} (a b : ℕ) :
    applyTransform ⟨cx.offset, cx.scale, cy.offset, cy.scale⟩ (ofRat (a : ℚ)) (ofRat (b : ℚ)) =
      (unpackSingleFloat cx a, unpackSingleFloat cy b) := by
  unfold applyTransform unpackSingleFloat
  rw [floatOfU32_eq, floatOfU32_eq, mul_comm' cx.scale, mul_comm' cy.scale]

/-! ## Two components in one float -/

theorem packFloat_bytes {a b : ℕ} (ha : a < 4096) (hb : b < 4096) :
    packIntegers .f2In1Float [a, b] = some (bytesOfFloat (ofRat ((4096 * a + b : ℕ) : ℚ))) := by
  simp only [packIntegers]
  rw [shl_eq (by omega), or_eq_add (k := 12) ⟨a, by ring⟩ (by omega), floatOfU32_eq]
  congr 5
  ring

theorem unpackFloat {a b : ℕ} (ha : a < 4096) (hb : b < 4096) (t : Transform) :
    unpackFloat2PackedIntoFloat t (ofRat ((4096 * a + b : ℕ) : ℚ)) =
      applyTransform t (ofRat (a : ℚ)) (ofRat (b : ℚ)) := by
  have hn : 4096 * a + b < 2 ^ 24 := by omega
  have h1 : (4096 * a + b) / 2 ^ 12 = a := by omega
  have h2 : (4096 * a + b) % 2 ^ 12 = b := by omega
  have e4096 : ofInt 4096 = ofRat (2 ^ 12) := by
    rw [ofInt_ofNat]
    norm_num
  have r : F32.Repr ((2 : ℚ) ^ 12) := by exact_mod_cast repr_nat (n := 2 ^ 12) (by norm_num)
  simp only [unpackFloat2PackedIntoFloat, e4096]
  rw [div_ofRat (by positivity) (by positivity) (repr_nat (by omega)) r, floor_part hn (by norm_num),
    fract_part hn (by norm_num), h1, h2, mul_comm', mul_pow_part (by omega) (by norm_num) (by norm_num)
    (by norm_num)]
  norm_num

/-! ## Errors -/

theorem rnd_rel {q : ℚ} (h : q = 0 ∨ 1 / 2 ^ 126 ≤ |q|) : |rnd q - q| ≤ |q| / 2 ^ 24 := by
  rcases h with rfl | h
  · simp
  · exact rnd_err_normal h

theorem lt_ovf {q : ℚ} (h : |q| ≤ 2 ^ 30) : |q| < ovf := lt_of_le_of_lt h (by unfold ovf; norm_num)

/-- A quotient, computed as a division or as a product with the inverse. -/
theorem quotient {n N : ℕ} (hN : 0 < N) (hN2 : N ≤ 2 ^ 20) (hn : n ≤ 3 * N) :
    (div (ofRat (n : ℚ)) (ofRat (N : ℚ))).isFinite = true ∧
    |toRat (div (ofRat (n : ℚ)) (ofRat (N : ℚ))) - n / N| ≤ (n / N : ℚ) / 2 ^ 24 ∧
    (mul (ofRat (n : ℚ)) (ofRat (1 / (N : ℚ)))).isFinite = true ∧
    |toRat (mul (ofRat (n : ℚ)) (ofRat (1 / (N : ℚ)))) - n / N| ≤ (n / N : ℚ) * (201 / 100) / 2 ^ 24 := by
  have hN' : (0 : ℚ) < N := by exact_mod_cast hN
  have hN2' : (N : ℚ) ≤ 2 ^ 20 := by exact_mod_cast hN2
  have hnr := repr_nat (n := n) (by omega)
  have he : (n : ℚ) / N ≤ 3 := by
    rw [div_le_iff₀ hN']
    exact_mod_cast hn
  have he0 : (0 : ℚ) ≤ (n : ℚ) / N := by positivity
  have habs : |(n : ℚ) / N| ≤ 2 ^ 30 := by
    rw [abs_of_nonneg he0]
    exact he.trans (by norm_num)
  -- both are zero or not small
  have hz : (n : ℚ) / N = 0 ∨ 1 / 2 ^ 20 ≤ (n : ℚ) / N := by
    rcases Nat.eq_zero_or_pos n with rfl | h
    · left; simp
    · right
      have : (1 : ℚ) ≤ n := by exact_mod_cast h
      gcongr
  have e1 : div (ofRat (n : ℚ)) (ofRat (N : ℚ)) = ofRat (n / N) :=
    div_ofRat (by positivity) hN' hnr (repr_nat (by omega))
  have hs : |(1 : ℚ) / N| < ovf := by
    apply lt_ovf
    rw [abs_of_nonneg (by positivity), div_le_iff₀ hN']
    have : (1 : ℚ) ≤ N := by exact_mod_cast hN
    linarith
  have hs1 : |rnd (1 / (N : ℚ)) - 1 / N| ≤ 1 / N / 2 ^ 24 := by
    have := rnd_rel (q := 1 / (N : ℚ)) (Or.inr (by
      rw [abs_of_nonneg (by positivity)]
      calc (1 : ℚ) / 2 ^ 126 ≤ 1 / 2 ^ 20 := by norm_num
        _ ≤ _ := by gcongr))
    rwa [abs_of_nonneg (by positivity : (0 : ℚ) ≤ 1 / N)] at this
  have hs0 : 0 ≤ rnd (1 / (N : ℚ)) := rnd_nonneg (by positivity)
  have e2 : mul (ofRat (n : ℚ)) (ofRat (1 / (N : ℚ))) = ofRat (n * rnd (1 / N)) := by
    rw [← ofRat_rnd (q := 1 / (N : ℚ)) (by positivity)]
    exact mul_ofRat (by positivity) hs0 hnr (by rw [← toRat_ofRat hs]; exact Repr.toRat _)
  have hp1 : |(n : ℚ) * rnd (1 / N) - n / N| ≤ n / N / 2 ^ 24 := by
    have : (n : ℚ) * rnd (1 / N) - n / N = n * (rnd (1 / N) - 1 / N) := by ring
    rw [this, abs_mul, abs_of_nonneg (by positivity : (0 : ℚ) ≤ n)]
    calc (n : ℚ) * |rnd (1 / N) - 1 / N| ≤ n * (1 / N / 2 ^ 24) := by gcongr
      _ = n / N / 2 ^ 24 := by ring
  have hp2 := abs_le.1 hp1
  have hpn : 0 ≤ (n : ℚ) * rnd (1 / N) := by positivity
  have hpa : |(n : ℚ) * rnd (1 / N)| ≤ 2 ^ 30 := by
    rw [abs_of_nonneg hpn]
    linarith [hp2.2]
  have hp3 : |rnd (n * rnd (1 / N)) - n * rnd (1 / N)| ≤ (n * rnd (1 / N)) / 2 ^ 24 := by
    have := rnd_rel (q := (n : ℚ) * rnd (1 / N)) (by
      rcases hz with h | h
      · left
        have h6 : (n : ℚ) = 0 := by
          rcases div_eq_zero_iff.1 h with h | h
          · exact h
          · exact absurd h hN'.ne'
        rw [h6, zero_mul]
      · right
        rw [abs_of_nonneg hpn]
        have : (n : ℚ) / N / 2 ^ 24 ≤ n / N / 2 := by gcongr; norm_num
        have h7 : (1 : ℚ) / 2 ^ 126 ≤ 1 / 2 ^ 20 / 2 := by norm_num
        have h8 : (1 : ℚ) / 2 ^ 20 / 2 ≤ (n : ℚ) / N / 2 := by gcongr
        linarith [hp2.1])
    rwa [abs_of_nonneg hpn] at this
  have hp4 := abs_le.1 hp3
  rw [e1, e2]
  refine ⟨isFinite_ofRat_iff.2 (lt_ovf habs), ?_, isFinite_ofRat_iff.2 (lt_ovf hpa), ?_⟩
  · rw [toRat_ofRat (lt_ovf habs)]
    have := rnd_rel (q := (n : ℚ) / N) (by
      rcases hz with h | h
      · exact Or.inl h
      · right
        rw [abs_of_nonneg he0]
        exact le_trans (by norm_num) h)
    rwa [abs_of_nonneg he0] at this
  · rw [toRat_ofRat (lt_ovf hpa), abs_le]
    have : (n : ℚ) * rnd (1 / N) ≤ n / N * (1 + 1 / 2 ^ 24) := by linarith [hp2.2]
    have h5 : (n : ℚ) * rnd (1 / N) / 2 ^ 24 ≤ n / N * (1 + 1 / 2 ^ 24) / 2 ^ 24 := by gcongr
    constructor
    · linarith [hp4.1, hp2.1]
    · linarith [hp4.2, hp2.2]

theorem sub_eq_add (x : F32) (z : ℤ) (h0 : 0 < z) : sub x (ofInt z) = add x (ofInt (-z)) := by
  unfold sub
  congr 1
  unfold ofInt ofRat
  have h1 : ¬ (z : ℚ) < 0 := not_lt.2 (by exact_mod_cast h0.le)
  have h2 : ((-z : ℤ) : ℚ) < 0 := by
    push_cast
    rw [neg_lt_zero]
    exact_mod_cast h0
  rw [if_neg h1, if_pos h2]
  push_cast
  rw [neg_neg]
  unfold packRound pack
  split <;> rfl

/-- Two numbers near `e`, minus one. -/
theorem minus_one {x y : F32} (hx : x.isFinite = true) (hy : y.isFinite = true) {e α β : ℚ} (he : 0 ≤ e)
    (he2 : e ≤ 202 / 100) (h1 : |toRat x - e| ≤ α / 2 ^ 24) (h2 : |toRat y - e| ≤ β / 2 ^ 24)
    (hα : α ≤ 13) (hβ : β ≤ 13) (h : α + β ≤ 13) :
    Close (1 / 2 ^ 20) (sub x (ofInt 1)) (add y (ofInt (-1))) := by
  rw [sub_eq_add x 1 (by norm_num)]
  have hm := isFinite_ofInt (z := -1) (by norm_num)
  have hv : toRat (ofInt (-1)) = -1 := by
    rw [toRat_ofInt (by norm_num)]
    norm_num
  have key : ∀ {z : F32} {γ : ℚ}, z.isFinite = true → |toRat z - e| ≤ γ / 2 ^ 24 → γ ≤ 13 →
      (add z (ofInt (-1))).isFinite = true ∧
      |toRat (add z (ofInt (-1))) - (toRat z - 1)| ≤ (103 / 100) / 2 ^ 24 := by
    intro z γ hz h hγ
    have hh := abs_le.1 h
    have hg : γ / 2 ^ 24 ≤ 1 / 100 := by
      calc γ / 2 ^ 24 ≤ 13 / 2 ^ 24 := by gcongr
        _ ≤ _ := by norm_num
    have hb : |toRat z + -1| ≤ 103 / 100 := by
      rw [abs_le]
      constructor <;> linarith [hh.1, hh.2]
    have ho : |toRat z + toRat (ofInt (-1))| < ovf := by
      rw [hv]
      exact lt_ovf (hb.trans (by norm_num))
    refine ⟨isFinite_add hz hm ho, ?_⟩
    rw [toRat_add hz hm ho, hv, sub_eq_add_neg (toRat z) 1]
    refine (rnd_err _).trans (max_le (by norm_num) ?_)
    gcongr
  obtain ⟨f1, g1⟩ := key hx h1 hα
  obtain ⟨f2, g2⟩ := key hy h2 hβ
  refine Or.inr ⟨f1, f2, ?_⟩
  have a1 := abs_le.1 h1
  have a2 := abs_le.1 h2
  have a3 := abs_le.1 g1
  have a4 := abs_le.1 g2
  have a5 : (α + β + 2 * (103 / 100)) / 2 ^ 24 ≤ 1 / 2 ^ 20 := by
    rw [div_le_iff₀ (by positivity)]
    norm_num
    linarith
  rw [abs_le]
  constructor <;> linarith [a1.1, a1.2, a2.1, a2.2, a3.1, a3.2, a4.1, a4.2]

/-! ## The other values -/

theorem label_eq {b : ℕ} (h : b < 256) :
    sub (mul (ofInt 255) (unorm32 b)) (ofInt 128) = unpackSingleFloat (codingFor (-128, 1)) b := by
  have e1 : ofRat (1 / ((1 : ℕ) : ℚ)) = ofRat ((1 : ℕ) : ℚ) := by norm_num
  rw [m255 h, sub_eq_add _ 128 (by norm_num)]
  unfold unpackSingleFloat codingFor
  simp only
  rw [floatOfU32_eq, e1, mul_ofRat (by positivity) (by positivity) (repr_nat (by omega)) (repr_nat (by norm_num))]
  norm_num

theorem opacity_close {b : ℕ} (h : b < 256) :
    Close (1 / 2 ^ 20) (sub (mul (div (ofInt 255) (ofInt 127)) (unorm32 b)) (ofInt 1))
      (unpackSingleFloat (codingFor (-1, 127)) b) := by
  obtain ⟨q1, q2, q3, q4⟩ := quotient (n := b) (N := 127) (by norm_num) (by norm_num) (by omega)
  obtain ⟨u1, u2, -, -⟩ := quotient (n := b) (N := 255) (by norm_num) (by norm_num) (by omega)
  obtain ⟨c1, c2, -, -⟩ := quotient (n := 255) (N := 127) (by norm_num) (by norm_num) (by norm_num)
  have hb : (b : ℚ) ≤ 255 := by
    have : b ≤ 255 := by omega
    exact_mod_cast this
  have hb0 : (0 : ℚ) ≤ b := by positivity
  have eu : unorm32 b = div (ofRat (b : ℚ)) (ofRat ((255 : ℕ) : ℚ)) := by
    unfold unorm32
    rw [ofInt_nat, ofInt_ofNat]
    norm_num
  have ec : div (ofInt 255) (ofInt 127) = div (ofRat ((255 : ℕ) : ℚ)) (ofRat ((127 : ℕ) : ℚ)) := by
    rw [ofInt_ofNat, ofInt_ofNat]
    norm_num
  rw [eu, ec]
  unfold unpackSingleFloat codingFor
  simp only
  rw [floatOfU32_eq]
  generalize div (ofRat (b : ℚ)) (ofRat ((255 : ℕ) : ℚ)) = u at *
  generalize div (ofRat ((255 : ℕ) : ℚ)) (ofRat ((127 : ℕ) : ℚ)) = c at *
  push_cast at q4 u2 c2 ⊢
  have u3 := abs_le.1 u2
  have c3 := abs_le.1 c2
  have hu : toRat u ≤ 1 + 1 / 2 ^ 24 := by
    have : (b : ℚ) / 255 ≤ 1 := by rw [div_le_one (by norm_num)]; exact hb
    have : (b : ℚ) / 255 / 2 ^ 24 ≤ 1 / 2 ^ 24 := by gcongr
    linarith [u3.2]
  have hu0 : 0 ≤ toRat u := by
    have : (0 : ℚ) ≤ b / 255 := by positivity
    have : (b : ℚ) / 255 / 2 ^ 24 ≤ b / 255 := div_le_self this (by norm_num)
    linarith [u3.1]
  have hcu : |toRat c * toRat u - b / 127| ≤ 41 / 10 / 2 ^ 24 := by
    have : toRat c * toRat u - b / 127 = (toRat c - 255 / 127) * toRat u +
        255 / 127 * (toRat u - b / 255) := by ring
    rw [this]
    refine (abs_add_le _ _).trans ?_
    rw [abs_mul, abs_mul, abs_of_nonneg hu0, abs_of_nonneg (by norm_num : (0 : ℚ) ≤ 255 / 127)]
    have a1 : |toRat c - 255 / 127| * toRat u ≤ 255 / 127 / 2 ^ 24 * (1 + 1 / 2 ^ 24) := by gcongr
    have a2 : 255 / 127 * |toRat u - b / 255| ≤ 255 / 127 * (255 / 255 / 2 ^ 24) := by
      gcongr
      exact u2.trans (by gcongr)
    refine (_root_.add_le_add a1 a2).trans ?_
    norm_num
  have hcu2 := abs_le.1 hcu
  have hc0 : 0 ≤ toRat c := by
    have : (255 : ℚ) / 127 / 2 ^ 24 ≤ 1 := by norm_num
    linarith [c3.1]
  have he : (b : ℚ) / 127 ≤ 201 / 100 := by
    rw [div_le_iff₀ (by norm_num)]
    linarith
  have hp : |toRat c * toRat u| ≤ 202 / 100 := by
    rw [abs_of_nonneg (by positivity)]
    linarith [hcu2.2]
  have ho := lt_ovf (hp.trans (by norm_num))
  have hf := isFinite_mul c1 u1 ho
  have ht := toRat_mul c1 u1 ho
  have hr : |toRat (mul c u) - toRat c * toRat u| ≤ 202 / 100 / 2 ^ 24 := by
    rw [ht]
    refine (rnd_err _).trans (max_le (by norm_num) ?_)
    gcongr
  refine minus_one (α := 62 / 10) (β := 5) (e := b / 127) hf q3 (by positivity) (by linarith) ?_ ?_
    (by norm_num) (by norm_num) (by norm_num)
  · have := abs_le.1 hr
    rw [abs_le]
    constructor <;> linarith [hcu2.1, hcu2.2]
  · refine q4.trans ?_
    gcongr
    linarith

theorem div_close {n N : ℕ} (hN : 0 < N) (hN2 : N ≤ 2 ^ 20) (hn : n ≤ N) :
    Close (1 / 2 ^ 22) (div (ofRat (n : ℚ)) (ofRat (N : ℚ))) (unpackSingleFloat (codingFor (0, N)) n) := by
  obtain ⟨q1, q2, q3, q4⟩ := quotient hN hN2 (n := n) (by omega)
  have hN' : (0 : ℚ) < N := by exact_mod_cast hN
  have he : (n : ℚ) / N ≤ 1 := by
    rw [div_le_one hN']
    exact_mod_cast hn
  have z : ofInt 0 = zero := by decide +kernel
  unfold unpackSingleFloat codingFor
  simp only
  rw [floatOfU32_eq, z, Flip.add_zero']
  · refine Or.inr ⟨q1, q3, ?_⟩
    have a1 := abs_le.1 q2
    have a2 := abs_le.1 q4
    have h1 : (n : ℚ) / N / 2 ^ 24 ≤ 1 / 2 ^ 24 := by gcongr
    have h2 : (n : ℚ) / N * (201 / 100) / 2 ^ 24 ≤ 1 * (201 / 100) / 2 ^ 24 := by gcongr
    rw [abs_le]
    constructor <;> linarith [a1.1, a1.2, a2.1, a2.2]
  · intro hz
    have hs : |(1 : ℚ) / N| < ovf := by
      apply lt_ovf
      rw [abs_of_nonneg (by positivity), div_le_iff₀ hN']
      have : (1 : ℚ) ≤ N := by exact_mod_cast hN
      linarith
    rw [← ofRat_rnd (q := 1 / (N : ℚ)) (by positivity), mul_ofRat (by positivity) (rnd_nonneg (by positivity))
      (repr_nat (by omega)) (by rw [← toRat_ofRat hs]; exact Repr.toRat _), ofRat_nonneg
      (mul_nonneg (by positivity) (rnd_nonneg (by positivity)))] at hz
    unfold packRound pack at hz
    split at hz <;> cases hz

theorem pack4_bytes {a b : ℕ} (ha : a < 4096) (hb : b < 1048576) :
    packIntegers .f2In4Bytes [a, b] =
      some [a / 16, a % 16 * 16 + b / 65536, b / 256 % 256, b % 256] := by
  simp only [packIntegers, toByte, shl, Nat.shiftRight_eq_div_pow, Nat.shiftLeft_eq]
  have e1 := low_eq a 4
  have e2 := low_eq b 8
  have e3 : (b &&& 0xFF00) / 2 ^ 8 = b / 256 % 256 := by
    have := field_eq b 8 8
    norm_num [Nat.shiftRight_eq_div_pow, Nat.shiftLeft_eq] at this ⊢
    exact this
  norm_num at e1 e2 e3
  norm_num [e1, e2, e3]
  omega

theorem unpackUv {a b : ℕ} (ha : a < 4096) (hb : b < 1048576) :
    ∃ x y, unpackSurfaceUv (.unorms (unorm32 (a / 16)) (unorm32 (a % 16 * 16 + b / 65536))
      (unorm32 (b / 256 % 256)) (unorm32 (b % 256))) = some (x, y) ∧
      Close (1 / 2 ^ 22) x (unpackSingleFloat (codingFor (0, 4095)) a) ∧
      Close (1 / 2 ^ 22) y (unpackSingleFloat (codingFor (0, 1048575)) b) := by
  have hq : a % 16 * 16 + b / 65536 < 256 := by omega
  have h1 : (a % 16 * 16 + b / 65536) / 2 ^ 4 = a % 16 := by omega
  have h2 : (a % 16 * 16 + b / 65536) % 2 ^ 4 = b / 65536 := by omega
  have e20 : ofInt 1048576 = ofRat (2 ^ 20) := by
    rw [ofInt_ofNat]
    norm_num
  refine ⟨_, _, rfl, ?_, ?_⟩
  · rw [m4080 (by omega), m255_16 hq, floor_part (by omega) (by norm_num), h1, add_nat (by omega)]
    have : 16 * (a / 16) + a % 16 = a := by omega
    rw [this]
    have := div_close (n := a) (N := 4095) (by norm_num) (by norm_num) (by omega)
    rw [ofInt_ofNat]
    push_cast at this
    exact this
  · rw [m255_16 hq, fract_part (by omega) (by norm_num), h2, e20, mul_pow_part (by omega) (by norm_num)
      (by norm_num) (by norm_num), m65280 (by omega), m255 (by omega), add_nat (by norm_num; omega),
      add_nat (by norm_num; omega)]
    have : 2 ^ (20 - 4) * (b / 65536) + 256 * (b / 256 % 256) + b % 256 = b := by norm_num; omega
    rw [this]
    have := div_close (n := b) (N := 1048575) (by norm_num) (by norm_num) (by omega)
    rw [ofInt_ofNat]
    push_cast at this
    exact this

theorem packHsl_bytes {a b c : ℕ} (ha : a < 1024) (hb : b < 1024) (hc : c < 1024) :
    packIntegers .f3In4Bytes [a, b, c] =
      some [a / 4, a % 4 * 64 + b / 16, b % 16 * 16 + c / 64, c % 64 * 4] := by
  simp only [packIntegers, toByte, shl, Nat.shiftRight_eq_div_pow, Nat.shiftLeft_eq]
  have e1 := low_eq a 2
  have e2 := low_eq b 4
  have e3 := low_eq c 6
  norm_num at e1 e2 e3
  norm_num [e1, e2, e3]
  omega

theorem hsl_close {n : ℕ} (h : n < 1024) :
    Close (1 / 2 ^ 20) (sub (div (ofRat (n : ℚ)) (ofInt 511)) (ofInt 1))
      (unpackSingleFloat (codingFor (-1, 511)) n) := by
  obtain ⟨q1, q2, q3, q4⟩ := quotient (n := n) (N := 511) (by norm_num) (by norm_num) (by omega)
  have hn : (n : ℚ) ≤ 1023 := by
    have : n ≤ 1023 := by omega
    exact_mod_cast this
  have he : (n : ℚ) / 511 ≤ 201 / 100 := by
    rw [div_le_iff₀ (by norm_num)]
    linarith
  unfold unpackSingleFloat codingFor
  simp only
  rw [floatOfU32_eq, ofInt_ofNat]
  push_cast at *
  refine minus_one (α := 3) (β := 5) (e := n / 511) q1 q3 (by positivity) (by linarith) ?_ ?_
    (by norm_num) (by norm_num) (by norm_num)
  · refine q2.trans ?_
    gcongr
    linarith
  · refine q4.trans ?_
    gcongr
    linarith

theorem unpackHsl {a b c : ℕ} (ha : a < 1024) (hb : b < 1024) (hc : c < 1024) :
    ∃ x y z, unpackHSLColorShift (.unorms (unorm32 (a / 4)) (unorm32 (a % 4 * 64 + b / 16))
      (unorm32 (b % 16 * 16 + c / 64)) (unorm32 (c % 64 * 4))) = some (x, y, z) ∧
      Close (1 / 2 ^ 20) x (unpackSingleFloat (codingFor (-1, 511)) a) ∧
      Close (1 / 2 ^ 20) y (unpackSingleFloat (codingFor (-1, 511)) b) ∧
      Close (1 / 2 ^ 20) z (unpackSingleFloat (codingFor (-1, 511)) c) := by
  have hq : a % 4 * 64 + b / 16 < 256 := by omega
  have hr : b % 16 * 16 + c / 64 < 256 := by omega
  have h1 : (a % 4 * 64 + b / 16) / 2 ^ 6 = a % 4 := by omega
  have h2 : (a % 4 * 64 + b / 16) % 2 ^ 6 = b / 16 := by omega
  have h3 : (b % 16 * 16 + c / 64) / 2 ^ 4 = b % 16 := by omega
  have h4 : (b % 16 * 16 + c / 64) % 2 ^ 4 = c / 64 := by omega
  have e10 : ofInt 1024 = ofRat (2 ^ 10) := by
    rw [ofInt_ofNat]
    norm_num
  have h5 : ((c % 64 * 4 : ℕ) : ℚ) / 2 ^ 2 = ((c % 64 : ℕ) : ℚ) := by
    push_cast
    ring
  refine ⟨_, _, _, rfl, ?_, ?_, ?_⟩
  · rw [m1020 (by omega), m255_64 hq, floor_part (by omega) (by norm_num), h1, add_nat (by omega)]
    have : 4 * (a / 4) + a % 4 = a := by omega
    rw [this]
    exact hsl_close ha
  · rw [m255_64 hq, fract_part (by omega) (by norm_num), h2, e10, mul_pow_part (by omega) (by norm_num)
      (by norm_num) (by norm_num), m255_16 hr, floor_part (by omega) (by norm_num), h3,
      add_nat (by norm_num; omega)]
    have : 2 ^ (10 - 6) * (b / 16) + b % 16 = b := by norm_num; omega
    rw [this]
    exact hsl_close hb
  · rw [m255_16 hr, fract_part (by omega) (by norm_num), h4, e10, mul_pow_part (by omega) (by norm_num)
      (by norm_num) (by norm_num), m255_4 (by omega), h5, add_nat (by norm_num; omega)]
    have : 2 ^ (10 - 4) * (c / 64) + c % 64 = c := by norm_num; omega
    rw [this]
    exact hsl_close hc

end Verif.Shader
