import Verif.Lemmas.EasingTable
import Verif.Props.Easing
import Mathlib.Topology.Order.IntermediateValue
import Mathlib.Topology.Instances.Real.Lemmas

/-!
# C29: cubic Bezier easing functions
-/

set_option autoImplicit false

namespace Verif.Easing

open F32 EasingSpec

/-! ## Values between the entries -/

theorem convex_diff {a b c d r s B : ℚ} (r0 : 0 ≤ r) (r1 : r ≤ 1) (s0 : 0 ≤ s) (s1 : s ≤ 1) (h1 : |a - c| ≤ B) (h2 : |a - d| ≤ B)
    (h3 : |b - c| ≤ B) (h4 : |b - d| ≤ B) : |(a + (b - a) * r) - (c + (d - c) * s)| ≤ B := by
  have e : (a + (b - a) * r) - (c + (d - c) * s) = (1 - r) * (1 - s) * (a - c) + (1 - r) * s * (a - d) + r * (1 - s) * (b - c) +
      r * s * (b - d) := by ring
  have w1 : 0 ≤ (1 - r) * (1 - s) := mul_nonneg (by linarith) (by linarith)
  have w2 : 0 ≤ (1 - r) * s := mul_nonneg (by linarith) s0
  have w3 : 0 ≤ r * (1 - s) := mul_nonneg r0 (by linarith)
  have w4 : 0 ≤ r * s := mul_nonneg r0 s0
  rw [abs_le] at *
  constructor
  · rw [e]
    nlinarith [mul_le_mul_of_nonneg_left h1.1 w1, mul_le_mul_of_nonneg_left h2.1 w2, mul_le_mul_of_nonneg_left h3.1 w3,
      mul_le_mul_of_nonneg_left h4.1 w4]
  · rw [e]
    nlinarith [mul_le_mul_of_nonneg_left h1.2 w1, mul_le_mul_of_nonneg_left h2.2 w2, mul_le_mul_of_nonneg_left h3.2 w3,
      mul_le_mul_of_nonneg_left h4.2 w4]

theorem convex_abs {a b r B : ℚ} (r0 : 0 ≤ r) (r1 : r ≤ 1) (h1 : |a| ≤ B) (h2 : |b| ≤ B) : |a + (b - a) * r| ≤ B := by
  have := convex_diff (c := 0) (d := 0) (s := 0) r0 r1 le_rfl zero_le_one (by simpa using h1) (by simpa using h1)
    (by simpa using h2) (by simpa using h2)
  simpa using this

theorem one_le_scale (c : CubicBezier) : 1 ≤ scale c := by
  unfold scale; linarith [abs_nonneg (toRat c.y1), abs_nonneg (toRat c.y2)]

theorem entry_abs {c : CubicBezier} (h : Valid c) {i : Nat} (hi : i ≤ 13) {y : F32} (hb : Between c i y) :
    y.isFinite = true ∧ |toRat y| ≤ 91 / 100 * maxVal ∧ |toRat y| ≤ 3 * scale c := by
  obtain ⟨f, j, r, j1, j2, -, -, r0, r1, -, e⟩ := entry_ok h hi hb
  have ya := sample_abs h (k := j - 1) (by omega)
  have yb := sample_abs h (k := j) j2
  have t1 := convex_abs r0 r1 ya.1 yb.1
  have t2 := convex_abs r0 r1 ya.2 yb.2
  have s := scale_le c
  have s1 := one_le_scale c
  have big := maxVal_big
  have hp : (1000000 : ℚ) < 2 ^ 120 := by norm_num
  have tri := abs_add_le (toRat y - (toRat (V c (j - 1)).y + (toRat (V c j).y - toRat (V c (j - 1)).y) * r))
    (toRat (V c (j - 1)).y + (toRat (V c j).y - toRat (V c (j - 1)).y) * r)
  rw [sub_add_cancel] at tri
  generalize (2 : ℚ) ^ 120 = Z at *
  refine ⟨f, ?_, ?_⟩ <;> norm_num at e <;> linarith

theorem entry_diff {c : CubicBezier} (h : Valid c) {i k : Nat} (hi : i ≤ 13) (hk : k ≤ 13) {y z : F32} (hy : Between c i y)
    (hz : Between c k z) : |toRat y - toRat z| ≤ 95 / 100 * maxVal := by
  obtain ⟨-, j, r, j1, j2, -, -, r0, r1, -, e⟩ := entry_ok h hi hy
  obtain ⟨-, l, s, l1, l2, -, -, s0, s1, -, e'⟩ := entry_ok h hk hz
  have t := convex_diff r0 r1 s0 s1 (sample_diff h (k := j - 1) (k' := l - 1) (by omega) (by omega))
    (sample_diff h (k := j - 1) (k' := l) (by omega) (by omega)) (sample_diff h (k := j) (k' := l - 1) (by omega) (by omega))
    (sample_diff h (k := j) (k' := l) (by omega) (by omega))
  have sc := scale_le c
  have big := maxVal_big
  have hp : (1000000 : ℚ) < 2 ^ 120 := by norm_num
  generalize toRat (V c (j - 1)).y + (toRat (V c j).y - toRat (V c (j - 1)).y) * r = p at *
  generalize toRat (V c (l - 1)).y + (toRat (V c l).y - toRat (V c (l - 1)).y) * s = q at *
  generalize (2 : ℚ) ^ 120 = Z at *
  have eq : toRat y - toRat z = (toRat y - p) - (toRat z - q) + (p - q) := by ring
  rw [eq]
  have t1 := abs_add_le ((toRat y - p) - (toRat z - q)) (p - q)
  have t2 := abs_sub (toRat y - p) (toRat z - q)
  norm_num at e e'
  linarith

/-- The value between two entries. -/
theorem eval_mid {c : CubicBezier} (h : Valid c) {tab : List F32}
    (he : ∀ i, i < tableSize → ∃ y, tab[i]? = some y ∧ Between c i y) {x : F32} (hx : x.isFinite = true) (h0 : lt zero x = true)
    (h1 : lt x one = true) :
    ∃ y, bezierY tab x = some y ∧ y.isFinite = true ∧ ∀ i : Nat, i < 13 → (i : ℚ) / 13 ≤ toRat x → toRat x ≤ (i + 1) / 13 →
      ∀ a b, tab[i]? = some a → tab[i + 1]? = some b →
        |toRat y - (toRat a + (toRat b - toRat a) * (13 * toRat x - i))| ≤ scale c / 2 ^ 16 := by
  have q0 : 0 < toRat x := by have := (lt_iff isFinite_zero hx).1 h0; rwa [toRat_zero] at this
  have q1 : toRat x < 1 := by have := (lt_iff hx (b := one) rfl).1 h1; rwa [toRat_one] at this
  obtain ⟨fm, k, hk, hfl, -, -⟩ := floor_mul (n := 13) (by norm_num) (by norm_num) hx q0.le q1
  have hcomm : mul x (ofInt (tableSize - 1)) = mul (ofInt (13 : ℕ)) x := mul_comm' _ _
  have f13 : (ofInt (13 : ℕ)).isFinite = true := isFinite_ofInt (by norm_num)
  have e13 : toRat (ofInt (13 : ℕ)) = 13 := by rw [toRat_ofInt (by norm_num)]; norm_num
  have fk : (ofInt (k : ℕ)).isFinite = true := isFinite_ofInt (by rw [abs_of_nonneg (by omega)]; omega)
  have ek : toRat (ofInt (k : ℕ)) = k := by rw [toRat_ofInt (by rw [abs_of_nonneg (by omega)]; omega)]; norm_num
  have om : |toRat (ofInt (13 : ℕ)) * toRat x| < ovf := by
    have : |toRat (ofInt (13 : ℕ)) * toRat x| ≤ 13 := by rw [e13, abs_of_nonneg (by linarith)]; linarith
    have : (13 : ℚ) < ovf := by unfold ovf; norm_num
    linarith
  have em := toRat_mul f13 hx om
  rw [e13] at em
  have er := Tip.err_sum (13 * toRat x)
  rw [← em, abs_of_nonneg (by linarith : 0 ≤ 13 * toRat x)] at er
  obtain ⟨k1, k2⟩ := Int.floor_eq_iff.mp hfl
  rw [Int.cast_natCast] at k1 k2
  have hix : (toRat (mul (ofInt (13 : ℕ)) x)).floor.toNat = k := by
    show (⌊toRat (mul (ofInt (13 : ℕ)) x)⌋).toNat = k
    rw [hfl]; rfl
  obtain ⟨a, a1, a2⟩ := he k (by unfold tableSize; omega)
  obtain ⟨b, b1, b2⟩ := he (k + 1) (by unfold tableSize; omega)
  have hmono : ∀ n : ℕ, n ≤ 13 → (13 * toRat x ≤ n → toRat (mul (ofInt (13 : ℕ)) x) ≤ n) ∧
      ((n : ℚ) ≤ 13 * toRat x → (n : ℚ) ≤ toRat (mul (ofInt (13 : ℕ)) x)) := by
    intro n hn
    have R : F32.Repr (n : ℚ) := by
      exact_mod_cast F32.Repr.ofInt (z := (n : ℤ)) (by rw [abs_of_nonneg (by omega)]; omega)
    rw [em]
    exact ⟨fun h => rnd_le_of_le R h, fun h => le_rnd_of_le R h⟩
  -- the ratio
  have os : |toRat (mul (ofInt (13 : ℕ)) x) - toRat (ofInt (k : ℕ))| < ovf :=
    small (by rw [ek, abs_of_nonneg (by linarith)]; linarith)
  have fs := isFinite_sub fm fk os
  have es := toRat_sub fm fk os
  rw [ek] at es
  have one' : F32.Repr (1 : ℚ) := by exact_mod_cast F32.Repr.ofInt (z := 1) (by norm_num)
  have s0 : 0 ≤ toRat (sub (mul (ofInt (13 : ℕ)) x) (ofInt (k : ℕ))) := by rw [es]; exact rnd_nonneg (by linarith)
  have s1 : toRat (sub (mul (ofInt (13 : ℕ)) x) (ofInt (k : ℕ))) ≤ 1 := by rw [es]; exact rnd_le_of_le one' (by linarith)
  have ers := Tip.err_sum (toRat (mul (ofInt (13 : ℕ)) x) - k)
  rw [← es, abs_of_nonneg (by linarith : 0 ≤ toRat (mul (ofInt (13 : ℕ)) x) - k)] at ers
  have A := entry_abs h (i := k) (by omega) a2
  have B := entry_abs h (i := k + 1) (by omega) b2
  have D := entry_diff h (i := k + 1) (k := k) (by omega) (by omega) b2 a2
  have L := lerp_ok A.1 B.1 fs s0 s1 A.2.1 B.2.1 D
  refine ⟨lerpF a b (sub (mul (ofInt (13 : ℕ)) x) (ofInt (k : ℕ))), ?_, L.1, ?_⟩
  · unfold bezierY
    rw [if_neg (by rw [isNaN_of_isFinite hx]; simp)]
    rw [if_neg (by rw [le_iff hx isFinite_zero, toRat_zero]; exact not_le.mpr q0)]
    rw [if_neg (by show ¬ le one x = true; rw [le_iff rfl hx, toRat_one]; exact not_le.mpr q1)]
    simp only [hcomm, hix, a1, b1]
  · intro i hi x1 x2 a' b' ha' hb'
    rw [div_le_iff₀ (by norm_num)] at x1
    rw [le_div_iff₀ (by norm_num)] at x2
    have m1 := (hmono i (by omega)).2 (by linarith)
    have m2 := (hmono (i + 1) (by omega)).1 (by push_cast; linarith)
    push_cast at m2
    have ki : k = i ∨ k = i + 1 := by
      have h1 : (i : ℚ) < k + 1 := lt_of_le_of_lt m1 k2
      have h2 : (k : ℚ) ≤ i + 1 := k1.trans m2
      have h1' : i < k + 1 := by exact_mod_cast h1
      have h2' : k ≤ i + 1 := by exact_mod_cast h2
      omega
    have sc := one_le_scale c
    have L2 := L.2
    have hA := A.2.2
    have hB := B.2.2
    generalize toRat (lerpF a b (sub (mul (ofInt (13 : ℕ)) x) (ofInt (k : ℕ)))) = y at *
    generalize toRat (sub (mul (ofInt (13 : ℕ)) x) (ofInt (k : ℕ))) = s at *
    generalize toRat (mul (ofInt (13 : ℕ)) x) = m at *
    have lerr : |y - (toRat a + (toRat b - toRat a) * s)| ≤ scale c / 2 ^ 19 := by
      refine L2.trans ?_
      have : (1 : ℚ) / 2 ^ 148 ≤ 1 / 2 ^ 22 := by norm_num
      norm_num at this ⊢
      linarith
    have err13 : |m - 13 * toRat x| ≤ 1 / 2 ^ 20 := by
      have : (1 : ℚ) / 2 ^ 150 ≤ 1 / 2 ^ 24 := by norm_num
      norm_num at this er ⊢
      linarith
    have errs : |s - (m - k)| ≤ 1 / 2 ^ 22 := by
      have : (1 : ℚ) / 2 ^ 150 ≤ 1 / 2 ^ 24 := by norm_num
      norm_num at this ers ⊢
      linarith
    rcases ki with rfl | rfl
    · rw [a1] at ha'; rw [b1] at hb'
      obtain rfl := Option.some.inj ha'
      obtain rfl := Option.some.inj hb'
      have e : y - (toRat a + (toRat b - toRat a) * (13 * toRat x - k)) = (y - (toRat a + (toRat b - toRat a) * s)) +
          (toRat b - toRat a) * ((s - (m - k)) + (m - 13 * toRat x)) := by ring
      rw [e]
      refine (abs_add_le _ _).trans ?_
      have g1 : |toRat b - toRat a| ≤ 6 * scale c := by have := abs_sub (toRat b) (toRat a); linarith
      have g2 : |(s - (m - k)) + (m - 13 * toRat x)| ≤ 1 / 2 ^ 22 + 1 / 2 ^ 20 := by
        have := abs_add_le (s - (m - k)) (m - 13 * toRat x); linarith
      have g3 : |(toRat b - toRat a) * ((s - (m - k)) + (m - 13 * toRat x))| ≤ 6 * scale c * (1 / 2 ^ 22 + 1 / 2 ^ 20) := by
        rw [abs_mul]; exact mul_le_mul g1 g2 (abs_nonneg _) (by linarith)
      norm_num at g3 lerr ⊢
      linarith
    · rw [a1] at hb'
      obtain rfl := Option.some.inj hb'
      obtain ⟨w, w1, w2⟩ := he i (by unfold tableSize; omega)
      rw [w1] at ha'
      obtain rfl := Option.some.inj ha'
      have hW := (entry_abs h (i := i) (by omega) w2).2.2
      push_cast at k1 errs
      have mk : m = i + 1 := le_antisymm m2 k1
      have s0' : s = 0 := by
        rw [es]; push_cast; rw [mk, sub_self, rnd_zero]
      have e : y - (toRat w + (toRat a - toRat w) * (13 * toRat x - i)) = (y - (toRat a + (toRat b - toRat a) * s)) +
          (toRat a - toRat w) * (m - 13 * toRat x) := by rw [s0', mk]; ring
      rw [e]
      refine (abs_add_le _ _).trans ?_
      have g1 : |toRat a - toRat w| ≤ 6 * scale c := by have := abs_sub (toRat a) (toRat w); linarith
      have g3 : |(toRat a - toRat w) * (m - 13 * toRat x)| ≤ 6 * scale c * (1 / 2 ^ 20) := by
        rw [abs_mul]; exact mul_le_mul g1 err13 (abs_nonneg _) (by linarith)
      norm_num at g3 lerr ⊢
      linarith

/-! ## The properties -/

theorem tableFrom_length {v1 v2 : PointF} {fuel : Nat} : ∀ {n i : Nat} {t : F32} {v : PointF} {l : List F32},
    tableFrom v1 v2 fuel n i t v = some l → l.length = n
  | 0, _, _, _, l, h => by
    simp only [tableFrom, Option.some.injEq] at h
    rw [← h]; rfl
  | n + 1, i, t, v, l, h => by
    simp only [tableFrom, Option.bind_eq_some_iff, Option.map_eq_some_iff] at h
    obtain ⟨r, -, l', hl, rfl⟩ := h
    simp [tableFrom_length hl]

/-- The table has 14 entries. -/
theorem tabulate_length (c : CubicBezier) : (tabulate c).length = 14 := by
  unfold tabulate
  cases h : table 78 c with
  | none => simp [tableSize]
  | some l => exact tableFrom_length h

/-- C29. The curve of a valid cubic Bezier is a function of x on the unit interval, from (0, 0) to (1, 1). -/
theorem C29_bezier_curve {c : CubicBezier} (h : (Fn.cubicBezier c).valid = true) :
    OnCurve c 0 0 ∧ OnCurve c 1 1 ∧ ∀ x : ℝ, 0 ≤ x → x ≤ 1 → ∃! y, OnCurve c x y := by
  have v := valid_of h
  have X1a : (0 : ℝ) ≤ (toRat c.x1 : ℝ) := by exact_mod_cast v.x1_nonneg
  have X1b : (toRat c.x1 : ℝ) ≤ 1 := by exact_mod_cast v.x1_le
  have X2a : (0 : ℝ) ≤ (toRat c.x2 : ℝ) := by exact_mod_cast v.x2_nonneg
  have X2b : (toRat c.x2 : ℝ) ≤ 1 := by exact_mod_cast v.x2_le
  have b0 : ∀ a b : ℝ, bez 0 a b = 0 := by intro a b; unfold bez; ring
  have b1 : ∀ a b : ℝ, bez 1 a b = 1 := by intro a b; unfold bez; ring
  refine ⟨⟨0, le_rfl, zero_le_one, (b0 _ _).symm, (b0 _ _).symm⟩, ⟨1, zero_le_one, le_rfl, (b1 _ _).symm, (b1 _ _).symm⟩, ?_⟩
  intro x h0 h1
  have cont : ContinuousOn (fun t : ℝ => bez t (toRat c.x1 : ℝ) (toRat c.x2 : ℝ)) (Set.Icc 0 1) := by
    unfold bez; fun_prop
  obtain ⟨t, ht, e⟩ := intermediate_value_Icc zero_le_one cont (show x ∈ Set.Icc _ _ by simp only [b0, b1]; exact ⟨h0, h1⟩)
  refine ⟨_, ⟨t, ht.1, ht.2, e.symm, rfl⟩, ?_⟩
  rintro y ⟨s, s0, s1, hs, rfl⟩
  have le : ∀ p q : ℝ, 0 ≤ p → q ≤ 1 → bez p (toRat c.x1 : ℝ) (toRat c.x2 : ℝ) = bez q (toRat c.x1 : ℝ) (toRat c.x2 : ℝ) → ¬ p < q := by
    intro p q hp hq hpq hlt
    have := bez_incr hp hlt.le hq X1a X1b X2a X2b
    rw [hpq, sub_self] at this
    exact absurd this (not_le.mpr (pow_pos (sub_pos.mpr hlt) 3))
  have st : s = t := by
    have e' : bez s (toRat c.x1 : ℝ) (toRat c.x2 : ℝ) = bez t (toRat c.x1 : ℝ) (toRat c.x2 : ℝ) := by rw [← hs]; exact e.symm
    exact le_antisymm (not_lt.mp (le t s ht.1 s1 e'.symm)) (not_lt.mp (le s t s0 ht.2 e'))
  rw [st]

theorem within {c : CubicBezier} {y v : ℝ} (h : |y - v| ≤ rise c / 13 + scale c / 2 ^ 16) : |y - v| ≤ (tolerance c : ℝ) := by
  have tol : (tolerance c : ℝ) = rise c / 13 + scale c / 2 ^ 15 := by unfold tolerance scale; push_cast; ring
  have s : (1 : ℝ) ≤ scale c := by exact_mod_cast one_le_scale c
  rw [tol]
  norm_num at h ⊢
  linarith

/-- C29. Setting up a valid cubic Bezier ends, with 78 evaluations of the curve at most for each entry. It gives 14 finite values, at
the multiples of 1/13, of which the first is 0, and all are near the curve. -/
theorem C29_bezier_table {c : CubicBezier} (h : (Fn.cubicBezier c).valid = true) :
    (∀ fuel, 78 ≤ fuel → table fuel c = some (tabulate c)) ∧ (tabulate c).length = 14 ∧
    (∀ y ∈ tabulate c, y.isFinite = true) ∧ (∃ y, (tabulate c)[0]? = some y ∧ toRat y = 0) ∧
    ∀ i : Nat, i ≤ 13 → ∀ v : ℝ, OnCurve c ((i : ℝ) / 13) v →
      ∃ y, (tabulate c)[i]? = some y ∧ |(toRat y : ℝ) - v| ≤ (tolerance c : ℝ) := by
  have v := valid_of h
  obtain ⟨l, l1, l2, l3⟩ := table_spec v
  have e : tabulate c = l := by unfold tabulate; rw [l1 78 le_rfl]; rfl
  rw [e]
  refine ⟨l1, l2, ?_, ?_, ?_⟩
  · intro y hy
    obtain ⟨i, hi⟩ := List.mem_iff_getElem?.mp hy
    have hlt : i < l.length := by
      by_contra hc; rw [List.getElem?_eq_none (by omega)] at hi; cases hi
    obtain ⟨y', h1, h2⟩ := l3 i (by omega)
    rw [h1] at hi
    obtain rfl := Option.some.inj hi
    exact (entry_ok v (by rw [l2] at hlt; unfold tableSize at hlt; omega) h2).1
  · obtain ⟨y, h1, h2⟩ := l3 0 (by unfold tableSize; omega)
    exact ⟨y, h1, (entry_zero v h2).2⟩
  · intro i hi u hu
    obtain ⟨y, h1, h2⟩ := l3 i (by unfold tableSize; omega)
    exact ⟨y, h1, within (entry_near v hi h2 hu)⟩

/-- The hypotheses are met, with an overshoot. -/
example : (Fn.cubicBezier ⟨RectF.half, ofInt (-1), quarter, ofInt 3⟩).valid = true := by decide +kernel

/-- C29. A valid cubic Bezier has a finite value at every x. It is 0 up to 0, it is near 1 from 1 on, and in between it is near
the piecewise linear function through the 14 points of the curve at the multiples of 1/13. -/
theorem C29_bezier {c : CubicBezier} (h : (Fn.cubicBezier c).valid = true) {x : F32} (hx : x.isNaN = false) :
    ∃ y, (setUp tabulate (.cubicBezier c)).getY x = some y ∧ y.isFinite = true ∧ (le x zero = true → toRat y = 0) ∧
      (le one x = true → |(toRat y : ℝ) - 1| ≤ (tolerance c : ℝ)) ∧
      (x.isFinite = true → ∀ i : Nat, i < 13 → (i : ℚ) / 13 ≤ toRat x → toRat x ≤ (i + 1) / 13 →
        ∀ u v : ℝ, OnCurve c ((i : ℝ) / 13) u → OnCurve c (((i : ℝ) + 1) / 13) v →
          |(toRat y : ℝ) - (u + (v - u) * (13 * toRat x - i))| ≤ (tolerance c : ℝ)) := by
  have v := valid_of h
  obtain ⟨l, l1, l2, l3⟩ := table_spec v
  have e : tabulate c = l := by unfold tabulate; rw [l1 78 le_rfl]; rfl
  show ∃ y, bezierY (tabulate c) x = some y ∧ _
  rw [e]
  obtain ⟨a, a1, a2⟩ := l3 0 (by unfold tableSize; omega)
  obtain ⟨b, b1, b2⟩ := l3 13 (by unfold tableSize; omega)
  have fa := (entry_ok v (by omega) a2).1
  have fb := (entry_ok v (by omega) b2).1
  have curve1 := (C29_bezier_curve h).2.1
  by_cases h0 : le x zero = true
  · refine ⟨a, ?_, fa, fun _ => (entry_zero v a2).2, ?_, ?_⟩
    · unfold bezierY; rw [if_neg (by rw [hx]; simp), if_pos h0]; exact a1
    · intro h1
      exfalso
      have k1 := (le_key h0).2.2
      have k2 := (le_key h1).2.2
      have kone : key one = 0x3F800000 := by decide +kernel
      rw [key_zero] at k1
      omega
    · intro hf i hi x1 x2 u w hu hw
      have hx0 : toRat x ≤ 0 := by have := (le_iff hf isFinite_zero).1 h0; rwa [toRat_zero] at this
      have i0 : (i : ℚ) ≤ 0 := by
        rw [div_le_iff₀ (by norm_num)] at x1; linarith
      have i0' : i = 0 := by exact_mod_cast le_antisymm i0 (by positivity)
      subst i0'
      have hxe : toRat x = 0 := le_antisymm hx0 (by simpa using x1)
      have n := within (entry_near v (by omega) a2 hu)
      rw [hxe]
      simpa using n
  by_cases h1 : le one x = true
  · refine ⟨b, ?_, fb, fun h => absurd h h0, ?_, ?_⟩
    · unfold bezierY; rw [if_neg (by rw [hx]; simp), if_neg h0, if_pos (show ge x one = true from h1)]; exact b1
    · intro _
      refine within (entry_near v (by omega) b2 ?_)
      simpa using curve1
    · intro hf i hi x1 x2 u w hu hw
      have hx1 : 1 ≤ toRat x := by have := (le_iff (a := one) rfl hf).1 h1; rwa [toRat_one] at this
      have i12 : (12 : ℚ) ≤ i := by
        rw [le_div_iff₀ (by norm_num)] at x2; linarith
      have i12' : i = 12 := by have : 12 ≤ i := by exact_mod_cast i12
                               omega
      subst i12'
      have hxe : toRat x = 1 := le_antisymm (by norm_num at x2; exact x2) hx1
      have n := within (entry_near v (by omega) b2 (v := w) (by norm_num at hw ⊢; exact hw))
      rw [hxe]
      norm_num
      exact n
  · have hlt0 : lt zero x = true := by
      rw [lt_key rfl hx]
      by_contra hc; exact h0 (le_of_key hx rfl (by omega))
    have hlt1 : lt x one = true := by
      rw [lt_key hx rfl]
      by_contra hc; exact h1 (le_of_key (a := one) rfl hx (by omega))
    have hf : x.isFinite = true := isFinite_of_between (a := zero) (c := one) rfl rfl
      (le_of_key rfl hx ((lt_key rfl hx).1 hlt0).le) (le_of_key hx rfl ((lt_key hx rfl).1 hlt1).le)
    obtain ⟨y, y1, y2, y3⟩ := eval_mid v l3 hf hlt0 hlt1
    refine ⟨y, y1, y2, fun h => absurd h h0, fun h => absurd h h1, ?_⟩
    intro _ i hi x1 x2 u w hu hw
    obtain ⟨p, p1, p2⟩ := l3 i (by unfold tableSize; omega)
    obtain ⟨q, q1, q2⟩ := l3 (i + 1) (by unfold tableSize; omega)
    have m := rcast (y3 i hi x1 x2 p q p1 q1)
    push_cast at m
    have np := entry_near v (by omega) p2 hu
    have nq := entry_near v (by omega) q2 (v := w) (by push_cast; exact hw)
    have tol : (tolerance c : ℝ) = rise c / 13 + scale c / 2 ^ 15 := by unfold tolerance scale; push_cast; ring
    have s0 : (0 : ℝ) ≤ 13 * toRat x - i := by
      rw [div_le_iff₀ (by norm_num)] at x1
      have : 0 ≤ 13 * toRat x - i := by linarith
      exact_mod_cast this
    have s1 : (13 : ℝ) * toRat x - i ≤ 1 := by
      rw [le_div_iff₀ (by norm_num)] at x2
      have : 13 * toRat x - i ≤ 1 := by linarith
      exact_mod_cast this
    rw [tol]
    generalize (13 : ℝ) * toRat x - i = s at *
    generalize (toRat y : ℝ) = Y at *
    generalize (toRat p : ℝ) = P at *
    generalize (toRat q : ℝ) = Q at *
    have e : Y - (u + (w - u) * s) = (Y - (P + (Q - P) * s)) + ((P - u) * (1 - s) + (Q - w) * s) := by ring
    rw [e]
    refine (abs_add_le _ _).trans ?_
    have i1 := mul_le_mul_of_nonneg_right np (by linarith : 0 ≤ 1 - s)
    have i2 := mul_le_mul_of_nonneg_right nq s0
    have c1 : |(P - u) * (1 - s) + (Q - w) * s| ≤ rise c / 13 + scale c / 2 ^ 16 := by
      refine (abs_add_le _ _).trans ?_
      rw [abs_mul, abs_mul, abs_of_nonneg s0, abs_of_nonneg (by linarith : 0 ≤ 1 - s)]
      nlinarith
    have e15 : (scale c : ℝ) / 2 ^ 15 = scale c / 2 ^ 16 + scale c / 2 ^ 16 := by ring
    rw [e15]
    linarith

/-- The hypotheses are met at 3/10, which is between 3/13 and 4/13. -/
example : (Fn.cubicBezier ⟨RectF.half, ofInt (-1), quarter, ofInt 3⟩).valid = true ∧
    ∃ x : F32, x.isFinite = true ∧ ((3 : ℕ) : ℚ) / 13 ≤ toRat x ∧ toRat x ≤ ((3 : ℕ) + 1) / 13 :=
  ⟨by decide +kernel, ofRat (3 / 10), by decide +kernel, by decide +kernel, by decide +kernel⟩

/-- C29. The predefined Beziers are valid cubic Beziers, with control points as in the CSS specification: (0.25, 0.1) and (0.25, 1)
for `ease`, (0.42, 0) and (1, 1) for `easeIn`, (0, 0) and (0.58, 1) for `easeOut`, (0.42, 0) and (0.58, 1) for `easeInOut`, rounded to
the nearest number. -/
theorem C29_predefined_bezier : ∀ q ∈ [(Predefined.ease, (1 : ℚ) / 4, (1 : ℚ) / 10, (1 : ℚ) / 4, (1 : ℚ)),
      (.easeIn, 42 / 100, 0, 1, 1), (.easeOut, 0, 0, 58 / 100, 1), (.easeInOut, 42 / 100, 0, 58 / 100, 1)],
    let c : CubicBezier := ⟨ofRat q.2.1, ofRat q.2.2.1, ofRat q.2.2.2.1, ofRat q.2.2.2.2⟩
    (Fn.cubicBezier c).valid = true ∧ setUp tabulate (.predefined q.1) = setUp tabulate (.cubicBezier c) := by
  have k : ∀ p : Predefined, p ≠ .linear → p ≠ .stepEnd → p ≠ .stepStart →
      setUp tabulate (.predefined p) = setUp tabulate (.cubicBezier (bezierOf p)) := by
    intro p h1 h2 h3; cases p <;> first | rfl | contradiction
  intro q hq
  fin_cases hq
  · exact ⟨by decide +kernel, (k .ease (by decide) (by decide) (by decide)).trans
      (congrArg (fun c => setUp tabulate (.cubicBezier c)) (by decide +kernel))⟩
  · exact ⟨by decide +kernel, (k .easeIn (by decide) (by decide) (by decide)).trans
      (congrArg (fun c => setUp tabulate (.cubicBezier c)) (by decide +kernel))⟩
  · exact ⟨by decide +kernel, (k .easeOut (by decide) (by decide) (by decide)).trans
      (congrArg (fun c => setUp tabulate (.cubicBezier c)) (by decide +kernel))⟩
  · exact ⟨by decide +kernel, (k .easeInOut (by decide) (by decide) (by decide)).trans
      (congrArg (fun c => setUp tabulate (.cubicBezier c)) (by decide +kernel))⟩

/-- C29, what does not hold: an easing function is documented always to pass through (1, 1), but with the control points (1, -1) and
(1, -1000) its value at 1 is more than 1.003. -/
theorem C29_bezier_end_counterexample :
    let c : CubicBezier := ⟨one, ofInt (-1), one, ofInt (-1000)⟩
    (Fn.cubicBezier c).valid = true ∧ ∃ y, (setUp tabulate (.cubicBezier c)).getY one = some y ∧ 1003 / 1000 < toRat y := by
  refine ⟨by decide +kernel, ((tabulate ⟨one, ofInt (-1), one, ofInt (-1000)⟩)[13]?).getD zero, ?_, ?_⟩
  · show bezierY _ _ = _
    have e : bezierY (tabulate ⟨one, ofInt (-1), one, ofInt (-1000)⟩) one = (tabulate ⟨one, ofInt (-1), one, ofInt (-1000)⟩)[13]? := by
      unfold bezierY
      rw [if_neg (by decide), if_neg (by decide +kernel), if_pos (by decide +kernel)]
      rfl
    rw [e, List.getElem?_eq_getElem (by rw [tabulate_length]; omega)]
    rfl
  · decide +kernel

end Verif.Easing
