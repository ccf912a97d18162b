import Verif.F32.Fmod

/-!
# Arithmetic never inverts an order, infinities and NaN included

`NLt a b` says that `b < a` is false: `a` is at most `b`, or one of them is NaN.
-/

set_option autoImplicit false
set_option exponentiation.threshold 400

namespace Verif
namespace F32

/-- Not inverted: `b < a` is false. -/
def NLt (a b : F32) : Prop := lt b a = false

theorem nlt_iff {a b : F32} : NLt a b ↔ (a.isNaN = false → b.isNaN = false → key a ≤ key b) := by
  unfold NLt lt
  cases a.isNaN <;> cases b.isNaN <;> simp

theorem NLt.refl (a : F32) : NLt a a := nlt_iff.2 fun _ _ => _root_.le_refl _

theorem NLt.of_le {a b : F32} (h : le a b = true) : NLt a b := nlt_iff.2 fun _ _ => (le_key h).2.2

theorem NLt.le {a b : F32} (h : NLt a b) (ha : a.isNaN = false) (hb : b.isNaN = false) : le a b = true :=
  le_of_key ha hb (nlt_iff.1 h ha hb)

theorem NLt.neg {a b : F32} (h : NLt a b) : NLt (neg b) (neg a) := by
  rw [nlt_iff] at *
  intro hb ha
  rw [isNaN_neg] at ha hb
  rw [key_neg, key_neg]
  have := h ha hb
  omega

theorem eq_inf_of_key_le {a : F32} (ha : a.isNaN = false) (h : (infPat : Int) ≤ key a) : a = inf false := by
  rcases isFinite_or_inf ha with hf | ⟨s, rfl⟩
  · have := (isFinite_iff_key a).1 hf
    omega
  · cases s
    · rfl
    · rw [key_inf_true] at h
      have : (0 : Int) < infPat := by decide
      omega

theorem eq_inf_of_le_key {a : F32} (ha : a.isNaN = false) (h : key a ≤ -(infPat : Int)) : a = inf true := by
  rcases isFinite_or_inf ha with hf | ⟨s, rfl⟩
  · have := (isFinite_iff_key a).1 hf
    omega
  · cases s
    · rw [key_inf_false] at h
      have : (0 : Int) < infPat := by decide
      omega
    · rfl

theorem isNaN_of_add {a b : F32} (h : (add a b).isNaN = false) : a.isNaN = false ∧ b.isNaN = false := by
  cases a <;> cases b <;> simp_all [add, isNaN]

theorem add_inf_of {a : F32} {s : Bool} (h : (add a (inf s)).isNaN = false) : add a (inf s) = inf s := by
  cases a with
  | nan => cases h
  | inf t =>
    simp only [add] at *
    split at h
    · next h2 => rw [if_pos h2, h2]
    · cases h
  | fin t n hn => rfl

theorem inf_add_of {a : F32} {s : Bool} (h : (add (inf s) a).isNaN = false) : add (inf s) a = inf s := by
  cases a with
  | nan => cases h
  | inf t =>
    simp only [add] at *
    split at h
    · next h2 => rw [if_pos h2]
    · cases h
  | fin t n hn => rfl

theorem NLt.add {a b c d : F32} (h1 : NLt a b) (h2 : NLt c d) : NLt (add a c) (add b d) := by
  rw [nlt_iff] at *
  intro hac hbd
  obtain ⟨na, nc⟩ := isNaN_of_add hac
  obtain ⟨nb, nd⟩ := isNaN_of_add hbd
  have k1 := h1 na nb
  have k2 := h2 nc nd
  have bac := key_bounds (F32.add a c)
  have bbd := key_bounds (F32.add b d)
  rcases isFinite_or_inf na with fa | ⟨s, rfl⟩
  swap
  · cases s
    · rw [key_inf_false] at k1
      obtain rfl := eq_inf_of_key_le nb k1
      rw [inf_add_of hbd, key_inf_false]; omega
    · rw [inf_add_of hac, key_inf_true]; omega
  rcases isFinite_or_inf nc with fc | ⟨s, rfl⟩
  swap
  · cases s
    · rw [key_inf_false] at k2
      obtain rfl := eq_inf_of_key_le nd k2
      rw [add_inf_of hbd, key_inf_false]; omega
    · rw [add_inf_of hac, key_inf_true]; omega
  rcases isFinite_or_inf nb with fb | ⟨s, rfl⟩
  swap
  · cases s
    · rw [inf_add_of hbd, key_inf_false]; omega
    · rw [key_inf_true] at k1
      have := (isFinite_iff_key a).1 fa
      omega
  rcases isFinite_or_inf nd with fd | ⟨s, rfl⟩
  swap
  · cases s
    · rw [add_inf_of hbd, key_inf_false]; omega
    · rw [key_inf_true] at k2
      have := (isFinite_iff_key c).1 fc
      omega
  rw [(key_add fa fc).2, (key_add fb fd).2]
  apply keyR_mono
  have := (key_le_iff fa fb).1 k1
  have := (key_le_iff fc fd).1 k2
  linarith

theorem NLt.sub {a b c d : F32} (h1 : NLt a b) (h2 : NLt c d) : NLt (sub a d) (sub b c) :=
  h1.add h2.neg

theorem nlt_neg_self {w : F32} (h : le zero w = true) : NLt (neg w) w := by
  obtain ⟨-, hw, hk⟩ := le_key h
  rw [nlt_iff]
  intro _ _
  rw [key_neg]
  have : key zero = 0 := rfl
  omega

theorem nlt_sub_add (c : F32) {w : F32} (h : NLt (neg w) w) : NLt (sub c w) (add c w) :=
  (NLt.refl c).add h

/-- Multiplying by a positive finite number keeps the order. -/
theorem NLt.mul_pos {a b c : F32} (hc : c.isFinite = true) (h0 : 0 < toRat c) (h : NLt a b) :
    NLt (mul c a) (mul c b) := by
  obtain ⟨s, n, hn, rfl⟩ := exists_of_isFinite hc
  have hs : s = false := by
    cases s
    · rfl
    · rw [toRat_fin_true] at h0
      have : (0 : ℚ) ≤ (mag n : ℚ) / 2 ^ 149 := by positivity
      linarith
  subst hs
  have hn0 : n ≠ 0 := by
    rintro rfl
    simp [toRat] at h0
  have minf : ∀ t, mul (fin false n hn) (inf t) = inf t := by
    intro t; simp [mul, hn0]
  have mnan : ∀ x : F32, (mul (fin false n hn) x).isNaN = false → x.isNaN = false := by
    intro x hx; cases x <;> simp_all [mul, isNaN]
  rw [nlt_iff] at *
  intro na nb
  have na' := mnan _ na
  have nb' := mnan _ nb
  have k := h na' nb'
  have ba := key_bounds (mul (fin false n hn) a)
  have bb := key_bounds (mul (fin false n hn) b)
  rcases isFinite_or_inf na' with fa | ⟨s, rfl⟩
  swap
  · cases s
    · rw [key_inf_false] at k
      obtain rfl := eq_inf_of_key_le nb' k
      exact _root_.le_refl _
    · rw [minf, key_inf_true]; omega
  rcases isFinite_or_inf nb' with fb | ⟨s, rfl⟩
  swap
  · cases s
    · rw [minf, key_inf_false]; omega
    · rw [key_inf_true] at k
      have := (isFinite_iff_key a).1 fa
      omega
  rw [(key_mul hc fa).2, (key_mul hc fb).2]
  apply keyR_mono
  have := (key_le_iff fa fb).1 k
  exact mul_le_mul_of_nonneg_left this h0.le

theorem NLt.div_pos {a b c : F32} (hc : c.isFinite = true) (h0 : 0 < toRat c) (h : NLt a b) :
    NLt (div a c) (div b c) := by
  by_cases ha : a.isNaN = true
  · have : a = nan := by cases a <;> simp_all [isNaN]
    subst this
    exact nlt_iff.2 fun h _ => by cases h
  by_cases hb : b.isNaN = true
  · have : b = nan := by cases b <;> simp_all [isNaN]
    subst this
    exact nlt_iff.2 fun _ h => by cases h
  exact NLt.of_le (div_le_div_right hc h0 (h.le (by simpa using ha) (by simpa using hb)))

theorem nlt_sub_self {a b : F32} (h : NLt a b) : NLt (neg (sub b a)) (sub b a) := by
  rw [nlt_iff]
  intro _ n
  rw [key_neg]
  unfold F32.sub at *
  obtain ⟨nb, na⟩ := isNaN_of_add n
  rw [isNaN_neg] at na
  have k := nlt_iff.1 h na nb
  rcases isFinite_or_inf na with fa | ⟨s, rfl⟩
  swap
  · cases s
    · rw [key_inf_false] at k
      obtain rfl := eq_inf_of_key_le nb k
      cases n
    · have : F32.add b (neg (inf true)) = inf false := add_inf_of n
      rw [this, key_inf_false]
      have : (0 : Int) < infPat := by decide
      omega
  rcases isFinite_or_inf nb with fb | ⟨s, rfl⟩
  swap
  · cases s
    · rw [inf_add_of n, key_inf_false]
      have : (0 : Int) < infPat := by decide
      omega
    · rw [key_inf_true] at k
      have := (isFinite_iff_key a).1 fa
      omega
  have := key_sub fb fa
  unfold F32.sub at this
  rw [this.2]
  have h2 := (key_le_iff fa fb).1 k
  have := keyR_nonneg (q := toRat b - toRat a) (by linarith)
  omega

/-- `std::min` and `std::max` widen an interval. -/
theorem NLt.join {a b : F32} (h : NLt a b) {c d : F32} (h2 : NLt c d) : NLt (smin a c) (smax b d) := by
  rw [nlt_iff] at *
  have l : ∀ x y : F32, lt x y = true ↔ x.isNaN = false ∧ y.isNaN = false ∧ key x < key y := by
    intro x y; simp [lt, and_assoc]
  unfold smin smax
  by_cases h3 : lt c a = true
  · rw [if_pos h3]
    by_cases h4 : lt b d = true
    · rw [if_pos h4]; exact h2
    · rw [if_neg h4]
      rw [l] at h3 h4
      intro nc nb
      have := h h3.2.1 nb
      omega
  · rw [if_neg h3]
    by_cases h4 : lt b d = true
    · rw [if_pos h4]
      rw [l] at h4
      intro na nd
      have := h na h4.1
      omega
    · rw [if_neg h4]; exact h

theorem nlt_smin_smax (a b : F32) : NLt (smin a b) (smax a b) := (NLt.refl a).join (NLt.refl b)

end F32
end Verif
