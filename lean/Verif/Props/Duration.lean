import Verif.Model.Duration
import Verif.F32.Fmod

/-!
# C18: `Duration32`
-/

set_option autoImplicit false
set_option exponentiation.threshold 400

namespace Verif

open F32 Duration32

/-- `milli` is the float nearest to 0.001. -/
example : milli = ofRat (1 / 1000) := by decide +kernel

/-! ## Where NaN comes from -/

theorem isNaN_add {a b : F32} (ha : a.isFinite = true) (hb : b.isNaN = false) :
    (F32.add a b).isNaN = false := by
  obtain ⟨s, n, hn, rfl⟩ := exists_of_isFinite ha
  cases b with
  | nan => cases hb
  | inf t => rfl
  | fin t m hm =>
    simp only [F32.add]
    split
    · rfl
    · exact isNaN_ofRat _

theorem isNaN_mul {a b : F32} (ha : a.isNaN = false) (hb : b.isNaN = false) :
    (F32.mul a b).isNaN = true ↔
      (a.isFinite = true ∧ toRat a = 0 ∧ b.isInf = true) ∨ (b.isFinite = true ∧ toRat b = 0 ∧ a.isInf = true) := by
  have z : ∀ (s : Bool) (n : Nat) (h : n < infPat), toRat (fin s n h) = 0 ↔ n = 0 := by
    intro s n h
    constructor
    · intro h0
      have := abs_toRat_fin s n h
      rw [h0, abs_zero] at this
      have h2 : (mag n : ℚ) = 0 := by
        have := this.symm
        rw [div_eq_zero_iff] at this
        rcases this with h | h
        · exact h
        · norm_num at h
      exact mag_eq_zero.1 (by exact_mod_cast h2)
    · rintro rfl; simp [toRat]
  cases a with
  | nan => cases ha
  | inf s =>
    cases b with
    | nan => cases hb
    | inf t => simp [F32.mul, F32.isNaN, F32.isFinite]
    | fin t m hm =>
      simp only [F32.mul, z, F32.isFinite, F32.isInf]
      split <;> simp_all [F32.isNaN]
  | fin s n hn =>
    cases b with
    | nan => cases hb
    | inf t =>
      simp only [F32.mul, z, F32.isFinite, F32.isInf]
      split <;> simp_all [F32.isNaN]
    | fin t m hm => simp [F32.mul, isNaN_packRound, F32.isInf]

theorem isNaN_div {a b : F32} (ha : a.isFinite = true) (hb : b.isNaN = false) :
    (F32.div a b).isNaN = true ↔ toRat a = 0 ∧ b.isFinite = true ∧ toRat b = 0 := by
  have z : ∀ (s : Bool) (n : Nat) (h : n < infPat), toRat (fin s n h) = 0 ↔ n = 0 := by
    intro s n h
    constructor
    · intro h0
      have := abs_toRat_fin s n h
      rw [h0, abs_zero] at this
      have h2 : (mag n : ℚ) = 0 := by
        have := this.symm
        rw [div_eq_zero_iff] at this
        rcases this with h | h
        · exact h
        · norm_num at h
      exact mag_eq_zero.1 (by exact_mod_cast h2)
    · rintro rfl; simp [toRat]
  obtain ⟨s, n, hn, rfl⟩ := exists_of_isFinite ha
  cases b with
  | nan => cases hb
  | inf t => simp [F32.div, F32.isFinite, szero]
  | fin t m hm =>
    simp only [F32.div, z, F32.isFinite]
    by_cases hm0 : m = 0
    · rw [if_pos hm0]
      by_cases hn0 : n = 0
      · rw [if_pos hn0]; simp [hm0, hn0, F32.isNaN]
      · rw [if_neg hn0]; simp [hn0]
    · rw [if_neg hm0]; simp [hm0, isNaN_packRound]

/-- The two operations that give NaN: zero times infinity and zero divided by zero. -/
def DurationExpr.Avoids : DurationExpr → Prop
  | .neg d => d.Avoids
  | .add a b => a.Avoids ∧ b.Avoids
  | .sub a b => a.Avoids ∧ b.Avoids
  | .mul d s => d.Avoids ∧ ¬ (d.eval.eq Duration32.zero = true ∧ s.isInf = true)
  | .div d s => d.Avoids ∧ ¬ (d.eval.eq Duration32.zero = true ∧ F32.feq s F32.zero = true)
  | _ => True

theorem feq_zero_iff {a : F32} (h : a.isNaN = false) :
    feq a F32.zero = true ↔ a.isFinite = true ∧ toRat a = 0 := by
  rw [← key_eq_zero_iff h]
  unfold feq
  rw [h]
  have : F32.zero.isNaN = false := rfl
  rw [this]
  simp only [Bool.not_false, Bool.true_and, decide_eq_true_eq]
  rfl

/-- C18: a duration obtained by any history of factories and operators is never NaN, in seconds or in
milliseconds, and neither is the ratio of two such durations, as long as no zero duration is multiplied by
an infinity or divided by zero. Missing from the documented claim: these two cases. -/
theorem C18_never_nan_partial (e : DurationExpr) (he : e.Avoids) :
    e.eval.toSeconds.isNaN = false ∧ e.eval.toMillis.isNaN = false ∧
    ∀ e' : DurationExpr, e'.Avoids → (e.eval.ratio e'.eval).isNaN = false := by
  have main : ∀ e : DurationExpr, e.Avoids → e.eval.seconds.isNaN = false := by
    intro e
    induction e with
    | zero => intro _; rfl
    | infinite => intro _; rfl
    | seconds s =>
      intro _
      simp only [DurationExpr.eval, ofSeconds]
      split
      · rfl
      · next h => simpa using h
    | millis ms =>
      intro _
      simp only [DurationExpr.eval, ofMillis]
      split
      · rfl
      · next h =>
        rw [Bool.not_eq_true] at h
        rw [← Bool.not_eq_true]
        intro hc
        rcases (isNaN_mul (by rfl) h).1 hc with ⟨-, h2, -⟩ | ⟨-, -, h3⟩
        · unfold milli at h2
          rw [toRat_fin_false, div_eq_zero_iff] at h2
          have : mag 0x3A83126F ≠ 0 := by decide +kernel
          rcases h2 with h2 | h2
          · exact this (by exact_mod_cast h2)
          · norm_num at h2
        · cases h3
    | neg d ih => intro h; simpa [DurationExpr.eval, Duration32.neg] using ih h
    | add a b iha ihb =>
      intro h
      simp only [DurationExpr.eval, Duration32.add]
      by_cases hf : a.eval.isFinite = true
      · rw [if_neg (by simpa using hf)]
        exact isNaN_add hf (ihb h.2)
      · rw [if_pos (by simpa using hf)]
        exact iha h.1
    | sub a b iha ihb =>
      intro h
      simp only [DurationExpr.eval, Duration32.sub]
      by_cases hf : a.eval.isFinite = true
      · rw [if_neg (by simpa using hf)]
        exact isNaN_add hf (by rw [isNaN_neg]; exact ihb h.2)
      · rw [if_pos (by simpa using hf)]
        exact iha h.1
    | mul d s ih =>
      intro h
      have hd := ih h.1
      simp only [DurationExpr.eval, Duration32.mul]
      by_cases hs : s.isNaN = true
      · rw [if_pos hs]; split <;> rfl
      · rw [if_neg hs]
        rw [Bool.not_eq_true] at hs
        by_cases hf : d.eval.isFinite = true
        · have h2 := h.2
          unfold Duration32.eq Duration32.zero at h2
          rw [feq_zero_iff hd] at h2
          rw [if_neg (by simpa using hf), ← Bool.not_eq_true]
          intro hc
          rcases (isNaN_mul hd hs).1 hc with ⟨a1, a2, a3⟩ | ⟨-, -, a3⟩
          · exact h2 ⟨⟨a1, a2⟩, a3⟩
          · unfold Duration32.isFinite at hf
            cases hx : d.eval.seconds <;> rw [hx] at hf a3 <;> simp_all [F32.isFinite, F32.isInf]
        · rw [if_pos (by simpa using hf)]
          split <;> rfl
    | div d s ih =>
      intro h
      have hd := ih h.1
      simp only [DurationExpr.eval, Duration32.div]
      by_cases hs : s.isNaN = true
      · rw [if_pos hs]; split <;> rfl
      · rw [if_neg hs]
        rw [Bool.not_eq_true] at hs
        by_cases hf : d.eval.isFinite = true
        · have h2 := h.2
          unfold Duration32.eq Duration32.zero at h2
          rw [feq_zero_iff hd, feq_zero_iff hs] at h2
          rw [if_neg (by simpa using hf), ← Bool.not_eq_true]
          intro hc
          obtain ⟨a1, a2, a3⟩ := (isNaN_div hf hs).1 hc
          exact h2 ⟨⟨hf, a1⟩, a2, a3⟩
        · rw [if_pos (by simpa using hf)]
          split <;> rfl
  have h1 := main e he
  refine ⟨h1, ?_, ?_⟩
  · unfold toMillis
    rw [← Bool.not_eq_true]
    intro hc
    have hk : (ofInt 1000).isFinite = true := isFinite_ofInt (by norm_num)
    rcases (isNaN_mul (isNaN_of_isFinite hk) h1).1 hc with ⟨-, h2, -⟩ | ⟨-, -, h3⟩
    · rw [toRat_ofInt (by norm_num)] at h2
      norm_num at h2
    · generalize ofInt 1000 = x at *
      cases x <;> simp_all [F32.isFinite, F32.isInf]
  · intro e' he'
    have h2 := main e' he'
    unfold ratio
    split
    · split <;> rfl
    · next hz =>
      split
      · split <;> rfl
      · next hf =>
        rw [← Bool.not_eq_true]
        intro hc
        have hf' : e.eval.seconds.isFinite = true := by simpa [Duration32.isFinite] using hf
        obtain ⟨a1, a2, a3⟩ := (isNaN_div hf' h2).1 hc
        exact hz ((feq_zero_iff h2).2 ⟨a2, a3⟩)

/-- C18, what is missing: the documentation says NaN is avoided, but a zero duration times an infinite
factor, and a zero duration divided by zero, are NaN. -/
theorem C18_nan_counterexample :
    ((DurationExpr.zero.mul (inf false)).eval.toSeconds.isNaN = true) ∧
    ((DurationExpr.zero.div F32.zero).eval.toSeconds.isNaN = true) := by decide +kernel

/-- The hypothesis of `C18_never_nan_partial` for a long expression with infinities, NaN arguments and
zeros. -/
example : (((((DurationExpr.seconds nan).sub .infinite).mul nan).add (.millis (inf true))).div
    F32.zero).Avoids := by
  refine ⟨⟨⟨⟨True.intro, True.intro⟩, ?_⟩, True.intro⟩, ?_⟩ <;> decide +kernel

/-! ## The documented table -/

/-- C18: the documented results for infinite and NaN arguments (duration.h:52-71), for every duration `d`
and every number `s`. -/
theorem C18_documented_results (d : Duration32) :
    infinite.add d = infinite ∧ infinite.neg.add d = infinite.neg ∧
    infinite.sub d = infinite ∧ infinite.neg.sub d = infinite.neg ∧
    infinite.ratio infinite = .inf false ∧ infinite.neg.ratio infinite = .inf true ∧
    infinite.ratio infinite.neg = .inf true ∧ infinite.neg.ratio infinite.neg = .inf false ∧
    infinite.div (.inf false) = infinite ∧ infinite.neg.div (.inf false) = infinite.neg ∧
    infinite.div (.inf true) = infinite.neg ∧ infinite.neg.div (.inf true) = infinite ∧
    Duration32.zero.ratio Duration32.zero = .inf false ∧
    (d.mul nan = if Duration32.zero.le d then infinite else infinite.neg) ∧
    (d.div nan = if Duration32.zero.le d then infinite else infinite.neg) ∧
    (∀ s, (ofSeconds s).seconds = if s.isNaN then .inf false else s) := by
  refine ⟨rfl, rfl, rfl, rfl, rfl, rfl, rfl, rfl, rfl, rfl, rfl, rfl, rfl, rfl, rfl, ?_⟩
  intro s
  unfold ofSeconds
  split <;> rfl

/-! ## Order and arithmetic -/

theorem finite_or {d : Duration32} (h : d.seconds.isNaN = false) :
    d.seconds.isFinite = true ∨ d = infinite ∨ d = infinite.neg := by
  obtain ⟨x⟩ := d
  cases x with
  | nan => cases h
  | inf s => cases s <;> simp [infinite, Duration32.neg, F32.neg]
  | fin s n hn => left; rfl

/-- C18: the order. For durations that are not NaN exactly one of `<`, `==`, `>` holds, `<=` is their
union, finite durations compare as their seconds, infinities are the ends, and negation reverses. -/
theorem C18_order (a b : Duration32) (ha : a.seconds.isNaN = false) (hb : b.seconds.isNaN = false) :
    (a.lt b = true ∧ a.eq b = false ∧ b.lt a = false ∨
      a.lt b = false ∧ a.eq b = true ∧ b.lt a = false ∨
      a.lt b = false ∧ a.eq b = false ∧ b.lt a = true) ∧
    (a.le b = (a.lt b || a.eq b)) ∧ (a.ge b = b.le a) ∧
    (a.isFinite = true → b.isFinite = true →
      (a.lt b = true ↔ toRat a.toSeconds < toRat b.toSeconds) ∧
      (a.eq b = true ↔ toRat a.toSeconds = toRat b.toSeconds)) ∧
    a.le infinite = true ∧ infinite.neg.le a = true ∧
    (a.le b = b.neg.le a.neg) := by
  unfold Duration32.lt Duration32.eq Duration32.le Duration32.ge Duration32.neg F32.lt F32.feq F32.le
  simp only [isNaN_neg, key_neg, ha, hb, Bool.not_false, Bool.true_and, decide_eq_true_eq,
    decide_eq_false_iff_not]
  refine ⟨by omega, ?_, by simp [F32.ge, F32.le, ha, hb], ?_, ?_, ?_, ?_⟩
  · rw [← Bool.decide_or, decide_eq_decide]; omega
  · intro fa fb
    exact ⟨key_lt_iff fa fb, key_eq_iff fa fb⟩
  · have := key_bounds a.seconds
    rw [show key infinite.seconds = (infPat : Int) from rfl,
      show infinite.seconds.isNaN = false from rfl]
    simp only [Bool.not_false, Bool.true_and, decide_eq_true_eq]
    omega
  · have := key_bounds a.seconds
    rw [show key infinite.seconds = (infPat : Int) from rfl,
      show infinite.seconds.isNaN = false from rfl]
    simp only [Bool.not_false, Bool.true_and, decide_eq_true_eq]
    omega
  · rw [decide_eq_decide]; omega

/-- C18: arithmetic of finite durations is the correctly rounded arithmetic of their seconds, addition
commutes on finite durations, zero is neutral, and addition is monotone for all durations. -/
theorem C18_arithmetic (a b c : Duration32) (ha : a.seconds.isNaN = false) (hb : b.seconds.isNaN = false)
    (hc : c.seconds.isNaN = false) :
    (a.isFinite = true → b.isFinite = true → |toRat a.seconds + toRat b.seconds| < ovf →
      toRat (a.add b).seconds = rnd (toRat a.seconds + toRat b.seconds)) ∧
    (a.isFinite = true → b.isFinite = true → (a.add b).eq (b.add a) = true) ∧
    (a.isFinite = true → (a.sub a).eq Duration32.zero = true) ∧
    (a.add Duration32.zero).eq a = true ∧
    (a.le b = true → (a.add c).le (b.add c) = true) := by
  have fadd : ∀ {x y : Duration32}, x.isFinite = true → (x.add y).seconds = F32.add x.seconds y.seconds := by
    intro x y hx
    unfold Duration32.add
    rw [hx]; rfl
  have keyA : ∀ {x y : Duration32}, x.isFinite = true → y.isFinite = true →
      (x.add y).seconds.isNaN = false ∧
      key (x.add y).seconds = keyR (toRat x.seconds + toRat y.seconds) := by
    intro x y hx hy
    rw [fadd hx]
    exact key_add hx hy
  refine ⟨?_, ?_, ?_, ?_, ?_⟩
  · intro fa fb hov
    rw [fadd fa]
    exact toRat_add fa fb hov
  · intro fa fb
    obtain ⟨n1, k1⟩ := keyA fa fb
    obtain ⟨n2, k2⟩ := keyA fb fa
    unfold Duration32.eq feq
    rw [n1, n2, k1, k2, add_comm]
    simp
  · intro fa
    unfold Duration32.eq Duration32.sub
    rw [fa]
    obtain ⟨n1, k1⟩ := key_sub fa fa
    simp only [Bool.not_true, Bool.false_eq_true, if_false]
    unfold feq
    rw [n1, k1, sub_self, keyR_zero]
    rfl
  · by_cases fa : a.isFinite = true
    · obtain ⟨n1, k1⟩ := keyA fa (y := Duration32.zero) rfl
      unfold Duration32.eq feq
      rw [n1, k1, ha]
      have : toRat Duration32.zero.seconds = 0 := toRat_zero
      rw [this, add_zero, keyR_toRat fa]
      simp
    · unfold Duration32.add
      rw [if_pos (by simpa using fa)]
      unfold Duration32.eq feq
      rw [ha]; simp
  · intro hab
    have n0 : ∀ {x y : Duration32}, x.seconds.isNaN = false → y.seconds.isNaN = false →
        (x.add y).seconds.isNaN = false := by
      intro x y hx hy
      unfold Duration32.add Duration32.isFinite
      split
      · exact hx
      · next h => exact isNaN_add (by simpa using h) hy
    rcases finite_or ha with fa | rfl | rfl
    · rcases finite_or hb with fb | rfl | rfl
      · rcases finite_or hc with fc | rfl | rfl
        · obtain ⟨n1, k1⟩ := keyA (x := a) (y := c) fa fc
          obtain ⟨n2, k2⟩ := keyA (x := b) (y := c) fb fc
          apply le_of_key n1 n2
          rw [k1, k2]
          apply keyR_mono
          have := (le_iff fa fb).1 hab
          linarith
        · unfold Duration32.le
          rw [fadd (x := a) fa, fadd (x := b) fb]
          obtain ⟨s, n, hn, h1⟩ := exists_of_isFinite fa
          obtain ⟨t, m, hm, h2⟩ := exists_of_isFinite fb
          rw [h1, h2]; rfl
        · unfold Duration32.le
          rw [fadd (x := a) fa, fadd (x := b) fb]
          obtain ⟨s, n, hn, h1⟩ := exists_of_isFinite fa
          obtain ⟨t, m, hm, h2⟩ := exists_of_isFinite fb
          rw [h1, h2]; rfl
      · exact le_pos_inf (n0 ha hc)
      · have := le_key hab
        have h2 := this.2.2
        rw [show key infinite.neg.seconds = -(infPat : Int) from rfl] at h2
        have h3 := (isFinite_iff_key a.seconds).1 fa
        omega
    · rcases finite_or hb with fb | rfl | rfl
      · have := le_key hab
        have h2 := this.2.2
        rw [show key infinite.seconds = (infPat : Int) from rfl] at h2
        have h3 := (isFinite_iff_key b.seconds).1 fb
        omega
      · rfl
      · exact absurd hab (by decide +kernel)
    · exact neg_inf_le (n0 hb hc)

/-- Two finite durations, one negative, and an infinite one. -/
example : (ofSeconds (ofInt 3)).add (ofSeconds (ofInt (-5))) = ofSeconds (ofInt (-2)) ∧
    (ofSeconds (ofInt 3)).add infinite.neg = infinite.neg ∧
    (ofMillis (ofInt 1000)).eq (ofSeconds (ofInt 1)) = true := by decide +kernel

/-- C18: the documented precision (duration.h:32-35): adding a tenth of a millisecond to any duration of up
to 28 minutes, in either direction, gives a distinct, longer duration. -/
theorem C18_precision (d : Duration32) (hf : d.isFinite = true) (hd : |toRat d.seconds| ≤ 28 * 60) :
    d.lt (d.add (ofMillis (ofRat (1 / 10)))) = true := by
  have hδ : ofMillis (ofRat (1 / 10)) = ⟨fin false 0x38D1B718 (by decide)⟩ := by decide +kernel
  have hδv : toRat (fin false 0x38D1B718 (by decide)) = 13743896 / 2 ^ 37 := by
    rw [toRat_fin_false, show mag 0x38D1B718 = 13743896 * 2 ^ 112 by decide +kernel]
    norm_num
  rw [hδ]
  unfold Duration32.add Duration32.lt
  unfold Duration32.isFinite at hf ⊢
  rw [if_neg (by simpa using hf)]
  set x := toRat d.seconds with hx
  have hov : |toRat d.seconds + toRat (fin false 0x38D1B718 (by decide))| < ovf := by
    rw [← hx, hδv]
    calc |x + 13743896 / 2 ^ 37| ≤ |x| + |(13743896 / 2 ^ 37 : ℚ)| := abs_add_le _ _
      _ < ovf := by
        rw [abs_of_pos (by norm_num : (0 : ℚ) < 13743896 / 2 ^ 37)]
        unfold ovf
        norm_num at *
        linarith
  have hfa : (F32.add d.seconds (fin false 0x38D1B718 (by decide))).isFinite = true :=
    isFinite_add hf rfl hov
  rw [lt_iff hf hfa, toRat_add hf rfl hov, ← hx, hδv]
  have step : ∀ y : ℚ, |rnd (x + 13743896 / 2 ^ 37) - (x + 13743896 / 2 ^ 37)| ≤ y → y < 13743896 / 2 ^ 37 →
      x < rnd (x + 13743896 / 2 ^ 37) := by
    intro y h1 h2
    have := neg_le_of_abs_le h1
    linarith
  by_cases hbig : 1024 ≤ |x|
  · obtain ⟨z, hz⟩ := toRat_dvd (a := d.seconds) (j := 136) (by
      rw [← hx]; refine _root_.le_trans (le_of_eq ?_) hbig; norm_num)
    have hzx : x * 2 ^ 13 = z := by rw [hx, hz]; ring
    have hzb : |z| ≤ 28 * 60 * 2 ^ 13 := by
      have : |(z : ℚ)| ≤ 28 * 60 * 2 ^ 13 := by
        rw [← hzx, abs_mul, abs_of_pos (by norm_num : (0 : ℚ) < 2 ^ 13)]
        exact mul_le_mul_of_nonneg_right hd (by norm_num)
      exact_mod_cast this
    have hr : F32.Repr (x + 1 / 2 ^ 13) := by
      apply Repr.of_mul_pow (M := z + 1) (e := 136)
      · have := abs_add_le z 1
        rw [abs_one] at this
        omega
      · push_cast; rw [← hzx]; ring
      · calc |x + 1 / 2 ^ 13| ≤ |x| + |(1 / 2 ^ 13 : ℚ)| := abs_add_le _ _
          _ < 2 ^ 128 := by
            rw [abs_of_pos (by norm_num : (0 : ℚ) < 1 / 2 ^ 13)]
            norm_num at *
            linarith
    refine step _ (rnd_nearest hr) ?_
    rw [show x + 1 / 2 ^ 13 - (x + 13743896 / 2 ^ 37) = (1 / 2 ^ 13 - 13743896 / 2 ^ 37 : ℚ) by ring]
    norm_num [abs_of_pos]
  · refine step _ (rnd_err _) ?_
    rw [max_lt_iff]
    constructor
    · norm_num
    · have : |x + 13743896 / 2 ^ 37| ≤ |x| + |(13743896 / 2 ^ 37 : ℚ)| := abs_add_le _ _
      rw [abs_of_pos (by norm_num : (0 : ℚ) < 13743896 / 2 ^ 37)] at this
      rw [div_lt_iff₀ (by norm_num)]
      norm_num at *
      linarith

/-- A duration just under 28 minutes meets the hypothesis. -/
example : (ofSeconds (ofInt 1679)).isFinite = true ∧ toRat (ofSeconds (ofInt 1679)).seconds = 1679 := by
  constructor
  · decide +kernel
  · rw [show (ofSeconds (ofInt 1679)).seconds = ofInt 1679 by decide +kernel, toRat_ofInt (by norm_num)]
    norm_num

/-- C18: scaling. Finite durations are multiplied, divided, compared as a ratio and converted to and from
milliseconds with one correct rounding, and an infinite duration stays infinite, with the sign that the signs
of the operands give. -/
theorem C18_scaling (d e : Duration32) (s : F32) (hd : d.isFinite = true) (he : e.isFinite = true)
    (hs : s.isFinite = true) :
    (|toRat d.seconds * toRat s| < ovf → toRat (d.mul s).seconds = rnd (toRat d.seconds * toRat s)) ∧
    (toRat s ≠ 0 → |toRat d.seconds / toRat s| < ovf → toRat (d.div s).seconds = rnd (toRat d.seconds / toRat s)) ∧
    (toRat e.seconds ≠ 0 → |toRat d.seconds / toRat e.seconds| < ovf →
      toRat (d.ratio e) = rnd (toRat d.seconds / toRat e.seconds)) ∧
    (toRat e.seconds = 0 → d.ratio e = .inf (decide (toRat d.seconds < 0))) ∧
    (|1000 * toRat d.seconds| < ovf → toRat d.toMillis = rnd (1000 * toRat d.seconds)) ∧
    (toRat (ofMillis s).seconds = rnd (toRat milli * toRat s) ∧ |toRat milli - 1 / 1000| ≤ 1 / 2 ^ 34) ∧
    infinite.mul s = ⟨.inf (decide (toRat s < 0))⟩ ∧ infinite.neg.mul s = ⟨.inf (decide (0 ≤ toRat s))⟩ ∧
    infinite.div s = ⟨.inf (decide (toRat s < 0))⟩ ∧ infinite.neg.div s = ⟨.inf (decide (0 ≤ toRat s))⟩ ∧
    infinite.ratio e = .inf (decide (toRat e.seconds < 0)) ∧
    (toRat e.seconds ≠ 0 → infinite.neg.ratio e = .inf (decide (0 ≤ toRat e.seconds))) := by
  have ns := isNaN_of_isFinite hs
  have ge0 : ∀ {x : F32}, x.isFinite = true → F32.ge x F32.zero = decide (0 ≤ toRat x) := by
    intro x hx
    rw [Bool.eq_iff_iff, decide_eq_true_eq]
    have := le_iff (a := F32.zero) rfl hx
    rwa [toRat_zero] at this
  have sign : ∀ {x : F32}, x.isFinite = true → (if (infinite.ge Duration32.zero) == (F32.ge x F32.zero) then infinite
      else infinite.neg) = ⟨.inf (decide (toRat x < 0))⟩ ∧
      (if (infinite.neg.ge Duration32.zero) == (F32.ge x F32.zero) then infinite
      else infinite.neg) = ⟨.inf (decide (0 ≤ toRat x))⟩ := by
    intro x hx
    have i1 : infinite.ge Duration32.zero = true := by decide +kernel
    have i2 : infinite.neg.ge Duration32.zero = false := by decide +kernel
    rw [ge0 hx, i1, i2]
    by_cases h : 0 ≤ toRat x
    · simp [h, not_lt.2 h, infinite, Duration32.neg, F32.neg]
    · simp [h, not_le.1 h, infinite, Duration32.neg, F32.neg]
  have milliV : toRat milli = 8589935 / 2 ^ 33 := by
    unfold milli
    rw [toRat_fin_false, show mag 0x3A83126F = 8589935 * 2 ^ 116 by decide +kernel]
    norm_num
  have zz : ∀ {x : Duration32}, x.isFinite = true → (x.eq Duration32.zero = true ↔ toRat x.seconds = 0) := by
    intro x hx
    have := feq_zero_iff (isNaN_of_isFinite hx)
    unfold Duration32.eq Duration32.zero
    rw [this]
    exact ⟨fun h => h.2, fun h => ⟨hx, h⟩⟩
  refine ⟨?_, ?_, ?_, ?_, ?_, ⟨?_, ?_⟩, ?_, ?_, ?_, ?_, ?_, ?_⟩
  · intro h
    unfold Duration32.mul
    rw [ns, hd]
    exact toRat_mul hd hs h
  · intro h0 h
    unfold Duration32.div
    rw [ns, hd]
    exact toRat_div hd hs h0 h
  · intro h0 h
    unfold Duration32.ratio
    rw [if_neg (by rw [zz he]; exact h0), hd]
    exact toRat_div hd he h0 h
  · intro h0
    unfold Duration32.ratio
    rw [if_pos ((zz he).2 h0)]
    have : d.ge Duration32.zero = decide (0 ≤ toRat d.seconds) := ge0 hd
    rw [this]
    by_cases h : 0 ≤ toRat d.seconds
    · simp [h, not_lt.2 h]
    · simp [h, not_le.1 h]
  · intro h
    unfold toMillis
    have hk : toRat (ofInt 1000) = 1000 := by rw [toRat_ofInt (by norm_num)]; norm_num
    rw [toRat_mul (isFinite_ofInt (by norm_num)) hd (by rw [hk]; exact h), hk]
  · unfold ofMillis
    rw [ns]
    have hov : |toRat milli * toRat s| < ovf := by
      rw [abs_mul]
      have h1 : |toRat milli| ≤ 1 := by rw [milliV, abs_of_pos] <;> norm_num
      calc |toRat milli| * |toRat s| ≤ 1 * |toRat s| := mul_le_mul_of_nonneg_right h1 (abs_nonneg _)
        _ = |toRat s| := one_mul _
        _ < ovf := lt_of_le_of_lt (abs_toRat_le s) maxVal_lt_ovf
    exact toRat_mul rfl hs hov
  · rw [milliV, abs_of_pos] <;> norm_num
  · unfold Duration32.mul
    rw [ns]
    exact (sign hs).1
  · unfold Duration32.mul
    rw [ns]
    exact (sign hs).2
  · unfold Duration32.div
    rw [ns]
    exact (sign hs).1
  · unfold Duration32.div
    rw [ns]
    exact (sign hs).2
  · unfold Duration32.ratio
    by_cases hz : toRat e.seconds = 0
    · rw [if_pos ((zz he).2 hz)]
      simp [hz]
      decide +kernel
    · rw [if_neg (by rw [zz he]; exact hz)]
      have i1 : infinite.ge Duration32.zero = true := by decide +kernel
      have i3 : infinite.isFinite = false := rfl
      have : e.ge Duration32.zero = decide (0 ≤ toRat e.seconds) := ge0 he
      rw [i3, i1, this]
      by_cases h : 0 ≤ toRat e.seconds
      · simp [h, not_lt.2 h]
      · simp [h, not_le.1 h]
  · intro hz
    unfold Duration32.ratio
    rw [if_neg (by rw [zz he]; exact hz)]
    have i1 : infinite.neg.ge Duration32.zero = false := by decide +kernel
    have i3 : infinite.neg.isFinite = false := rfl
    have : e.ge Duration32.zero = decide (0 ≤ toRat e.seconds) := ge0 he
    rw [i3, i1, this]
    by_cases h : 0 ≤ toRat e.seconds
    · simp [h]
    · simp [h]

end Verif
