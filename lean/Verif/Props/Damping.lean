import Verif.Props.TipState
import Verif.Model.BrushTipModeler

/-!
# C32: damping, and behaviors without effect
-/

set_option autoImplicit false

namespace Verif.Tip

open F32

/-- The largest number for which the bounds below are shown, `2^126`. -/
def big : ℚ := 2 ^ 126

theorem ovf_eq : ovf = 4 * big - 2 ^ 103 := by unfold ovf big; norm_num

theorem err_sum (q : ℚ) : |rnd q - q| ≤ 1 / 2 ^ 150 + |q| / 2 ^ 24 := by
  have h := rnd_err q
  rcases max_choice ((1 : ℚ) / 2 ^ 150) (|q| / 2 ^ 24) with h' | h' <;> rw [h'] at h
  · have := div_nonneg (abs_nonneg q) (by norm_num : (0 : ℚ) ≤ 2 ^ 24); linarith
  · have : (0 : ℚ) ≤ 1 / 2 ^ 150 := by norm_num
    linarith

/-- The error of an interpolation. -/
theorem lerpF_err {a b t : F32} (ha : a.isFinite = true) (hb : b.isFinite = true)
    (ht : t.isFinite = true) (h0 : 0 ≤ toRat t) (h1 : toRat t ≤ 1) (ba : |toRat a| ≤ big)
    (bb : |toRat b| ≤ big) :
    (lerpF a b t).isFinite = true ∧
    |toRat (lerpF a b t) - (toRat a + (toRat b - toRat a) * toRat t)| ≤
      (|toRat a| + |toRat b|) / 2 ^ 22 + 1 / 2 ^ 148 := by
  set x := toRat a with hx
  set y := toRat b with hy
  set u := toRat t with hu
  set S := |x| + |y| with hS
  have hS0 : 0 ≤ S := by positivity
  have hSb : S ≤ 2 * big := by linarith
  have hbig : (2 : ℚ) ^ 110 ≤ big := by unfold big; norm_num
  have hov := ovf_eq
  have hη : (1 : ℚ) / 2 ^ 150 ≤ 2 ^ 103 := by norm_num
  have hη0 : (0 : ℚ) ≤ 1 / 2 ^ 150 := by norm_num
  have h103 : (2 : ℚ) ^ 103 ≤ 2 ^ 110 / 100 := by norm_num
  have hp : (0 : ℚ) < 2 ^ 103 := by norm_num
  generalize hηdef : (1 : ℚ) / 2 ^ 150 = η at *
  generalize (2 : ℚ) ^ 103 = c at *
  have hsub : |y - x| ≤ S := by
    have := abs_sub y x; rw [hS]; linarith
  have hsubo : |y - x| < ovf := by rw [hov]; linarith
  have fd := isFinite_sub hb ha hsubo
  have ed := toRat_sub hb ha hsubo
  rw [← hx, ← hy] at ed
  have e1 := err_sum (y - x)
  rw [hηdef] at e1
  set d := toRat (F32.sub b a) with hd
  rw [← ed] at e1
  have e1' : |d - (y - x)| ≤ η + S / 2 ^ 24 := by
    have : |y - x| / 2 ^ 24 ≤ S / 2 ^ 24 := by gcongr
    linarith
  have hdabs : |d| ≤ S + (η + S / 2 ^ 24) := by
    have := abs_add_le (d - (y - x)) (y - x)
    rw [sub_add_cancel] at this; linarith
  have hdu : |d * u| ≤ |d| := by
    rw [abs_mul, abs_of_nonneg h0]
    exact mul_le_of_le_one_right (abs_nonneg d) h1
  have h24 : S / 2 ^ 24 ≤ big / 1000 := by
    rw [div_le_iff₀ (by norm_num)]; linarith
  have h24' : 0 ≤ S / 2 ^ 24 := by positivity
  have hmo : |toRat (F32.sub b a) * toRat t| < ovf := by
    rw [← hd, ← hu, hov]; linarith
  have fm := isFinite_mul fd ht hmo
  have em := toRat_mul fd ht hmo
  rw [← hd, ← hu] at em
  have e2 := err_sum (d * u)
  rw [hηdef] at e2
  set m := toRat (F32.mul (F32.sub b a) t) with hm
  rw [← em] at e2
  have e2' : |m - d * u| ≤ η + (S + (η + S / 2 ^ 24)) / 2 ^ 24 := by
    have : |d * u| / 2 ^ 24 ≤ (S + (η + S / 2 ^ 24)) / 2 ^ 24 := by gcongr; linarith
    linarith
  have e12 : |d * u - (y - x) * u| ≤ η + S / 2 ^ 24 := by
    rw [← sub_mul, abs_mul, abs_of_nonneg h0]
    exact (mul_le_of_le_one_right (abs_nonneg _) h1).trans e1'
  have hconv : |x + (y - x) * u| ≤ S := by
    have : x + (y - x) * u = x * (1 - u) + y * u := by ring
    rw [this]
    refine (abs_add_le _ _).trans ?_
    rw [abs_mul, abs_mul, abs_of_nonneg h0, abs_of_nonneg (by linarith : 0 ≤ 1 - u)]
    have i1 := mul_le_of_le_one_right (abs_nonneg x) (by linarith : 1 - u ≤ 1)
    have i2 := mul_le_of_le_one_right (abs_nonneg y) h1
    linarith
  have e3 : |x + m - (x + (y - x) * u)| ≤
      (η + (S + (η + S / 2 ^ 24)) / 2 ^ 24) + (η + S / 2 ^ 24) := by
    have : x + m - (x + (y - x) * u) = (m - d * u) + (d * u - (y - x) * u) := by ring
    rw [this]
    exact (abs_add_le _ _).trans (by linarith)
  have hxm : |x + m| ≤ S + ((η + (S + (η + S / 2 ^ 24)) / 2 ^ 24) + (η + S / 2 ^ 24)) := by
    have := abs_add_le (x + m - (x + (y - x) * u)) (x + (y - x) * u)
    rw [sub_add_cancel] at this; linarith
  have hadd : |toRat a + toRat (F32.mul (F32.sub b a) t)| < ovf := by
    rw [← hx, ← hm, hov]
    have : (S + (η + S / 2 ^ 24)) / 2 ^ 24 ≤ big / 100 := by
      rw [div_le_iff₀ (by norm_num)]; linarith
    linarith
  refine ⟨isFinite_add ha fm hadd, ?_⟩
  have er := toRat_add ha fm hadd
  rw [← hx, ← hm] at er
  have e4 := err_sum (x + m)
  rw [hηdef] at e4
  unfold lerpF
  rw [er]
  have tot : |rnd (x + m) - (x + (y - x) * u)| ≤ |rnd (x + m) - (x + m)| +
      |x + m - (x + (y - x) * u)| := by
    have := abs_add_le (rnd (x + m) - (x + m)) (x + m - (x + (y - x) * u))
    rwa [sub_add_sub_cancel] at this
  have e148 : (1 : ℚ) / 2 ^ 148 = 4 * η := by rw [← hηdef]; norm_num
  rw [e148]
  have : |x + m| / 2 ^ 24 ≤
      (S + ((η + (S + (η + S / 2 ^ 24)) / 2 ^ 24) + (η + S / 2 ^ 24))) / 2 ^ 24 := by gcongr
  norm_num at this e3 e4 tot ⊢
  linarith

/-- C32. The output of a damping node, when there is a previous one: it stays while there is no progress.
Otherwise it is what `exp(-progress / gap)` leaves of the way from the input back to the previous
output, up to rounding. Here `exp` is any function whose result is in `[0, 1]`. -/
theorem C32_damping (M : Libm) {target previous delta gap : F32} :
    (le delta zero = true → dampOffset M target previous delta gap = previous) ∧
    (∀ e, e = M.exp (div (neg delta) gap) → le delta zero = false → e.isFinite = true → 0 ≤ toRat e →
      toRat e ≤ 1 → target.isFinite = true → previous.isFinite = true → |toRat target| ≤ 2 ^ 126 →
      |toRat previous| ≤ 2 ^ 126 →
      (dampOffset M target previous delta gap).isFinite = true ∧
      |toRat (dampOffset M target previous delta gap) -
        (toRat target * (1 - toRat e) + toRat previous * toRat e)| ≤
        (|toRat target| + |toRat previous|) / 2 ^ 22 + 1 / 2 ^ 148) := by
  constructor
  · intro h; unfold dampOffset; rw [if_pos h]
  · rintro e rfl h fe h0 h1 ft fp bt bp
    unfold dampOffset
    rw [if_neg (by rw [h]; simp)]
    have := lerpF_err ft fp fe h0 h1 bt bp
    refine ⟨this.1, ?_⟩
    have e : toRat target * (1 - toRat (M.exp (div (neg delta) gap))) +
        toRat previous * toRat (M.exp (div (neg delta) gap)) = toRat target +
          (toRat previous - toRat target) * toRat (M.exp (div (neg delta) gap)) := by ring
    rw [e]; exact this.2

/-- A halfway step: from 8 towards 4 with `exp` one half. -/
example (M : Libm) (h : M.exp (div (neg one) one) = half) :
    dampOffset M (ofInt 4) (ofInt 8) one one = ofInt 6 := by
  unfold dampOffset
  rw [if_neg (by decide +kernel), h]
  decide +kernel

/-- All modifiers but the position are neutral. -/
def Neutral (m : Modifiers F32) : Prop :=
  m.width = one ∧ m.height = one ∧ m.slant = zero ∧ m.corner = zero ∧ m.rotation = zero ∧
  m.pinch = zero ∧ m.hue = zero ∧ m.saturation = one ∧ m.luminosity = zero ∧ m.opacity = one

theorem neutral_step (size : F32) (fwd lat : Option (F32 × F32)) {m : Modifiers F32} (h : Neutral m)
    (t : Target) : Neutral (applyModifier size fwd lat m t (initialModifier t)) := by
  obtain ⟨h1, h2, h3, h4, h5, h6, h7, h8, h9, h10⟩ := h
  have a0 : F32.add zero zero = zero := by decide +kernel
  have m1 : F32.mul one one = one := by decide +kernel
  have a0' : (zero : F32) + zero = zero := a0
  have m1' : (one : F32) * one = one := m1
  unfold Neutral
  cases t <;> simp only [applyModifier, initialModifier, h1, h2, h3, h4, h5, h6, h7, h8, h9, h10, a0', m1',
    and_self]
  all_goals (first | (cases fwd <;> simp [h1, h2, h3, h4, h5, h6, h7, h8, h9, h10]) | (cases lat <;>
    simp [h1, h2, h3, h4, h5, h6, h7, h8, h9, h10]))

/-- C32. Behaviors whose value has been null since the start of the stroke have no effect: whatever their
targets are, the tip has the shape and colour of the brush tip. -/
theorem C32_null_no_effect (M : Libm) (position : PointF) (dir : Option F32) (tip : BrushTip) (size : F32)
    (ts : List Target) :
    ∃ p, createTipState M position dir tip size (ts.map fun t => (t, initialModifier t)) =
      { position := p, width := F32.mul size tip.scaleX, height := F32.mul size tip.scaleY,
        percentRadius := tip.cornerRounding, rotation := tip.rotation, slant := tip.slant,
        pinch := tip.pinch, hueOffset := zero, saturation := one, luminosity := zero,
        opacity := tip.opacityMultiplier } := by
  have main : ∀ (l : List Target) (fwd lat : Option (F32 × F32)) (m : Modifiers F32), Neutral m →
      Neutral ((l.map fun t => (t, initialModifier t)).foldl
        (fun m tv => applyModifier size fwd lat m tv.1 tv.2) m) := by
    intro l fwd lat
    induction l with
    | nil => intro m h; exact h
    | cons t l ih => intro m h; exact ih _ (neutral_step size fwd lat h t)
  have hn := main ts (dir.map (unitVec M)) (dir.map fun d => unitVec M (F32.add d quarterTurn))
    Modifiers.init ⟨rfl, rfl, rfl, rfl, rfl, rfl, rfl, rfl, rfl, rfl⟩
  unfold createTipState accumulate
  generalize (ts.map fun t => (t, initialModifier t)).foldl _ _ = m at hn ⊢
  obtain ⟨h1, h2, h3, h4, h5, h6, h7, h8, h9, h10⟩ := hn
  have f0 : feq zero zero = true := by decide +kernel
  have f1 : feq one one = true := by decide +kernel
  refine ⟨⟨F32.add position.x m.posX, F32.add position.y m.posY⟩, ?_⟩
  unfold applyModifiers baseTipState
  simp only [h1, h2, h3, h4, h5, h6, h7, h8, h9, h10, f0, f1, Bool.not_true, Bool.false_eq_true, if_false]

end Verif.Tip
