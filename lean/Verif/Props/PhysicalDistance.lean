import Verif.Spec.PhysicalDistance
import Verif.F32.Mono
import Mathlib.Tactic.FieldSimp
import Mathlib.Tactic.Positivity

/-!
# C77: distances; C78: small arrays
-/

set_option autoImplicit false
set_option exponentiation.threshold 400

namespace Verif

namespace PhysicalDistance

open F32 PhysicalDistance.Spec

/-- The constant is the float nearest to 2.54. -/
example : perInch = ofRat (254 / 100) := by decide +kernel

theorem toRat_perMeter : toRat perMeter = 100 := by decide +kernel

theorem finite_perMeter : perMeter.isFinite = true := by decide +kernel

theorem finite_perInch : perInch.isFinite = true := rfl

theorem pos_perInch : 2 < toRat perInch ∧ toRat perInch < 3 := by
  have : toRat perInch = 10653532 / 4194304 := by decide +kernel
  rw [this]; norm_num

/-- The distance of a micrometre -/
def micrometer : PhysicalDistance := ofMeters millionth

theorem micrometer_value : toRat micrometer.cm = 13743895 / 2 ^ 37 ∧ micrometer.cm.isFinite = true := by decide +kernel

/-- If a float lies strictly between `x` and twice as far as `q` then `x` is not nearest to `q`. -/
theorem rnd_ne {x q y : ℚ} (hy : Repr y) (h : |y - q| < |x - q|) : rnd q ≠ x := fun e => by
  have := rnd_nearest (q := q) hy
  rw [e] at this
  linarith

theorem grid (x : ℚ) (hx : |x| ≤ 2000) : ∃ y, Repr y ∧ x < y ∧ y ≤ x + 1 / 2 ^ 13 := by
  refine ⟨((⌊x * 2 ^ 13⌋ + 1 : ℤ) : ℚ) / 2 ^ 13, ?_, ?_, ?_⟩
  · have h1 := Int.floor_le (x * 2 ^ 13)
    have h2 := Int.lt_floor_add_one (x * 2 ^ 13)
    rw [abs_le] at hx
    have b1 : ⌊x * 2 ^ 13⌋ + 1 ≤ 16384001 := by
      have : (⌊x * 2 ^ 13⌋ : ℚ) ≤ 16384000 := by linarith [hx.2]
      have : ⌊x * 2 ^ 13⌋ ≤ 16384000 := by exact_mod_cast this
      omega
    have b2 : -16384000 ≤ ⌊x * 2 ^ 13⌋ + 1 := by
      have : (-16384000 : ℚ) ≤ ⌊x * 2 ^ 13⌋ + 1 := by linarith [hx.1]
      exact_mod_cast this
    refine Repr.of_mul_pow (M := ⌊x * 2 ^ 13⌋ + 1) (e := 136) ?_ ?_ ?_
    · rw [abs_lt]; constructor <;> omega
    · push_cast
      ring
    · rw [abs_lt]
      have c1 : ((⌊x * 2 ^ 13⌋ + 1 : ℤ) : ℚ) ≤ 16384001 := by exact_mod_cast b1
      have c2 : (-16384000 : ℚ) ≤ ((⌊x * 2 ^ 13⌋ + 1 : ℤ) : ℚ) := by exact_mod_cast b2
      constructor
      · rw [lt_div_iff₀ (by norm_num)]; refine lt_of_lt_of_le ?_ c2; norm_num
      · rw [div_lt_iff₀ (by norm_num)]; refine lt_of_le_of_lt c1 ?_; norm_num
  · rw [lt_div_iff₀ (by norm_num)]
    push_cast
    exact Int.lt_floor_add_one _
  · rw [div_le_iff₀ (by norm_num)]
    have := Int.floor_le (x * 2 ^ 13)
    have e : (x + 1 / 2 ^ 13) * 2 ^ 13 = x * 2 ^ 13 + 1 := by ring
    rw [e]
    push_cast
    linarith

/-- **C77.** Adding a micrometre to a distance of up to 20 m in either direction gives a greater distance, and subtracting it a smaller one. -/
theorem C77_micrometer (d : PhysicalDistance) (hd : d.isFinite = true) (h : |toRat d.cm| ≤ 2000) :
    lt d (add d micrometer) = true ∧ lt (sub d micrometer) d = true ∧ ne (add d micrometer) d = true ∧ ne (sub d micrometer) d = true := by
  obtain ⟨mv, mf⟩ := micrometer_value
  have mb : (1 : ℚ) / 2 ^ 14 < toRat micrometer.cm ∧ toRat micrometer.cm < 1 := by rw [mv]; norm_num
  have hf : d.cm.isFinite = true := hd
  have hov : (3000 : ℚ) < ovf := by unfold ovf; norm_num
  have b1 : |toRat d.cm + toRat micrometer.cm| < ovf := by
    refine lt_trans ?_ hov
    rw [abs_le] at h
    rw [abs_lt]; constructor <;> linarith [h.1, h.2, mb.1, mb.2]
  have b2 : |toRat d.cm - toRat micrometer.cm| < ovf := by
    refine lt_trans ?_ hov
    rw [abs_le] at h
    rw [abs_lt]; constructor <;> linarith [h.1, h.2, mb.1, mb.2]
  have r1 : toRat d.cm < toRat (F32.add d.cm micrometer.cm) := by
    rw [toRat_add hf mf b1]
    obtain ⟨y, hy, y1, y2⟩ := grid (toRat d.cm) h
    refine lt_of_le_of_ne (le_rnd_of_le (Repr.toRat _) (by linarith [mb.1])) (Ne.symm ?_)
    refine rnd_ne hy ?_
    rw [abs_of_neg (show toRat d.cm - (toRat d.cm + toRat micrometer.cm) < 0 by linarith [mb.1]), abs_lt]
    constructor <;> linarith [mb.1]
  have r2 : toRat (F32.sub d.cm micrometer.cm) < toRat d.cm := by
    rw [toRat_sub hf mf b2]
    obtain ⟨y, hy, y1, y2⟩ := grid (-toRat d.cm) (by rw [abs_neg]; exact h)
    refine lt_of_le_of_ne (rnd_le_of_le (Repr.toRat _) (by linarith [mb.1])) ?_
    refine rnd_ne hy.neg ?_
    rw [abs_of_pos (show 0 < toRat d.cm - (toRat d.cm - toRat micrometer.cm) by linarith [mb.1]), abs_lt]
    constructor <;> linarith [mb.1]
  have f1 := isFinite_add hf mf b1
  have f2 := isFinite_sub hf mf b2
  have n : ∀ {a b : F32}, F32.lt a b = true → F32.feq a b = false ∧ F32.feq b a = false := fun {a b} q => by
    unfold F32.lt at q
    unfold F32.feq
    simp only [Bool.and_eq_true, decide_eq_true_eq] at q
    simp only [Bool.and_eq_false_iff, decide_eq_false_iff_not]
    omega
  have l1 : F32.lt d.cm (F32.add d.cm micrometer.cm) = true := (lt_iff hf f1).2 r1
  have l2 : F32.lt (F32.sub d.cm micrometer.cm) d.cm = true := (lt_iff f2 hf).2 r2
  refine ⟨l1, l2, ?_, ?_⟩
  · show (!F32.feq (F32.add d.cm micrometer.cm) d.cm) = true
    rw [(n l1).2]; rfl
  · show (!F32.feq (F32.sub d.cm micrometer.cm) d.cm) = true
    rw [(n l2).1]; rfl

/-- The hypotheses hold for 20 m and for its opposite. -/
example : (ofMeters (F32.ofInt 20)).isFinite = true ∧ |toRat (ofMeters (F32.ofInt 20)).cm| ≤ 2000 ∧ |toRat (neg (ofMeters (F32.ofInt 20))).cm| ≤ 2000 := by
  decide +kernel

/-- **C77.** Beyond that it need not, as for 21 m. -/
theorem C77_limit : eq (add (ofMeters (F32.ofInt 21)) micrometer) (ofMeters (F32.ofInt 21)) = true := by decide +kernel

/-- Two roundings -/
theorem round_trip {c x : F32} (hc : c.isFinite = true) (c1 : 2 ≤ toRat c) (c2 : toRat c ≤ 128) (hx : x.isFinite = true) (h1 : 1 / 2 ^ 118 ≤ |toRat x|)
    (h2 : |toRat x| ≤ 2 ^ 120) :
    (F32.div (F32.mul x c) c).isFinite = true ∧ |toRat (F32.div (F32.mul x c) c) - toRat x| ≤ |toRat x| / 2 ^ 22 := by
  have c0 : (0 : ℚ) < toRat c := by linarith
  generalize hX : toRat x = X at h1 h2 ⊢
  generalize hC : toRat c = C at c1 c2 c0
  have p1 : |X * C| = |X| * C := by rw [abs_mul, abs_of_pos c0]
  have hov : (2 : ℚ) ^ 127 + 2 ^ 110 < ovf := by unfold ovf; norm_num
  have u : |X| * C ≤ 2 ^ 127 := by
    calc |X| * C ≤ 2 ^ 120 * 128 := mul_le_mul h2 c2 c0.le (by positivity)
      _ = 2 ^ 127 := by norm_num
  have o1 : |toRat x * toRat c| < ovf := by
    rw [hX, hC, p1]
    have : (0 : ℚ) < 2 ^ 110 := by positivity
    linarith
  have e1 := toRat_mul hx hc o1
  have f1 := isFinite_mul hx hc o1
  rw [hX, hC] at e1
  have X0 : 0 ≤ |X| := abs_nonneg X
  have low : 1 / 2 ^ 126 ≤ |X * C| := by
    rw [p1]
    calc (1 : ℚ) / 2 ^ 126 ≤ 1 / 2 ^ 118 * 1 := by norm_num
      _ ≤ |X| * C := mul_le_mul h1 (by linarith) (by norm_num) X0
  have r1 := rnd_err_normal low
  rw [← e1, p1] at r1
  generalize hY : toRat (F32.mul x c) = Y at e1 r1
  have r1' : |Y / C - X| ≤ |X| / 2 ^ 24 := by
    have : Y / C - X = (Y - X * C) / C := by field_simp
    rw [this, abs_div, abs_of_pos c0, div_le_iff₀ c0]
    calc |Y - X * C| ≤ |X| * C / 2 ^ 24 := r1
      _ = |X| / 2 ^ 24 * C := by ring
  have bq : |Y / C| ≤ |X| * (1 + 1 / 2 ^ 24) ∧ |X| * (1 - 1 / 2 ^ 24) ≤ |Y / C| := by
    constructor
    · have := abs_sub_abs_le_abs_sub (Y / C) X
      have e : |X| * (1 + 1 / 2 ^ 24) = |X| + |X| / 2 ^ 24 := by ring
      linarith
    · have := abs_sub_abs_le_abs_sub X (Y / C)
      rw [abs_sub_comm] at this
      have e : |X| * (1 - 1 / 2 ^ 24) = |X| - |X| / 2 ^ 24 := by ring
      linarith
  have o2 : |toRat (F32.mul x c) / toRat c| < ovf := by
    rw [hY, hC]
    refine lt_of_le_of_lt bq.1 ?_
    have : |X| * (1 + 1 / 2 ^ 24) ≤ 2 ^ 120 * (1 + 1 / 2 ^ 24) := mul_le_mul_of_nonneg_right h2 (by norm_num)
    refine lt_of_le_of_lt this (lt_trans ?_ hov)
    norm_num
  have ne : toRat c ≠ 0 := by rw [hC]; exact c0.ne'
  refine ⟨isFinite_div f1 hc ne o2, ?_⟩
  rw [toRat_div f1 hc ne o2, hY, hC]
  have low2 : 1 / 2 ^ 126 ≤ |Y / C| := by
    refine le_trans ?_ bq.2
    have : 1 / 2 ^ 118 * (1 - 1 / 2 ^ 24) ≤ |X| * (1 - 1 / 2 ^ 24) := mul_le_mul_of_nonneg_right h1 (by norm_num)
    refine le_trans ?_ this
    norm_num
  have r2 := rnd_err_normal low2
  calc |rnd (Y / C) - X| = |(rnd (Y / C) - Y / C) + (Y / C - X)| := by ring_nf
    _ ≤ |rnd (Y / C) - Y / C| + |Y / C - X| := abs_add_le _ _
    _ ≤ |X| * (1 + 1 / 2 ^ 24) / 2 ^ 24 + |X| / 2 ^ 24 := by
      have : |Y / C| / 2 ^ 24 ≤ |X| * (1 + 1 / 2 ^ 24) / 2 ^ 24 := by gcongr; exact bq.1
      linarith
    _ = |X| * ((1 + 1 / 2 ^ 24) / 2 ^ 24 + 1 / 2 ^ 24) := by ring
    _ ≤ |X| * (1 / 2 ^ 22) := mul_le_mul_of_nonneg_left (by norm_num) X0
    _ = |X| / 2 ^ 22 := by ring

/-- **C77.** Converting to a distance and back changes a number of metres or inches by at most one part in four million, unless it is extremely
great or small; it stays finite. Centimetres are not changed. (Partial: for zero and tiny numbers and near the greatest one nothing is said.) -/
theorem C77_round_trip_partial (x : F32) (hx : x.isFinite = true) (h1 : 1 / 2 ^ 118 ≤ |toRat x|) (h2 : |toRat x| ≤ 2 ^ 120) :
    (ofCentimeters x).toCentimeters = x ∧ (ofMeters x).toMeters.isFinite = true ∧ (ofInches x).toInches.isFinite = true ∧
      |toRat (ofMeters x).toMeters - toRat x| ≤ |toRat x| / 2 ^ 22 ∧ |toRat (ofInches x).toInches - toRat x| ≤ |toRat x| / 2 ^ 22 := by
  obtain ⟨a, b⟩ := round_trip finite_perMeter (by rw [toRat_perMeter]; norm_num) (by rw [toRat_perMeter]; norm_num) hx h1 h2
  obtain ⟨a', b'⟩ := round_trip finite_perInch pos_perInch.1.le (by linarith [pos_perInch.2]) hx h1 h2
  exact ⟨rfl, a, a', b, b'⟩

example : (F32.ofInt 3).isFinite = true ∧ (1 : ℚ) / 2 ^ 118 ≤ |toRat (F32.ofInt 3)| ∧ |toRat (F32.ofInt 3)| ≤ 2 ^ 120 := by decide +kernel

/-- **C77.** They do not always come back the same: 0.48727545 m and 0.875 in do not. -/
theorem C77_round_trip_counterexample : F32.feq (ofMeters (.fin false 0x3ef97c2b (by decide))).toMeters (.fin false 0x3ef97c2b (by decide)) = false ∧
    F32.feq (ofInches (ofRat (7 / 8))).toInches (ofRat (7 / 8)) = false := by decide +kernel

theorem mul_le_mul_right {a b c : F32} (hc : c.isFinite) (h0 : 0 < toRat c) (h : F32.le a b = true) : F32.le (F32.mul a c) (F32.mul b c) = true := by
  obtain ⟨na, nb, hk⟩ := le_key h
  have inf_mul : ∀ s, F32.mul (inf s) c = inf s := by
    intro s
    obtain ⟨t, m, hm, rfl⟩ := exists_of_isFinite hc
    have : t = false := by
      cases t
      · rfl
      · rw [toRat_fin_true] at h0
        have : (0 : ℚ) ≤ (mag m : ℚ) / 2 ^ 149 := by positivity
        linarith
    subst this
    have m0 : m ≠ 0 := by rintro rfl; simp [toRat] at h0
    simp [F32.mul, m0]
  have nan_mul : ∀ x : F32, x.isNaN = false → (F32.mul x c).isNaN = false := by
    intro x hx
    rcases isFinite_or_inf hx with hf | ⟨s, rfl⟩
    · exact (key_mul hf hc).1
    · rw [inf_mul]; rfl
  rcases isFinite_or_inf na with fa | ⟨s, rfl⟩
  · rcases isFinite_or_inf nb with fb | ⟨t, rfl⟩
    · have h1 := key_mul fa hc
      have h2 := key_mul fb hc
      apply le_of_key h1.1 h2.1
      rw [h1.2, h2.2]
      apply keyR_mono
      have := (le_iff fa fb).1 h
      gcongr
    · cases t
      · rw [inf_mul]; exact le_pos_inf (nan_mul _ na)
      · exfalso
        have := (isFinite_iff_key a).1 fa
        rw [key_inf_true] at hk; omega
  · cases s
    · rcases isFinite_or_inf nb with fb | ⟨t, rfl⟩
      · exfalso
        have := (isFinite_iff_key b).1 fb
        rw [key_inf_false] at hk; omega
      · cases t
        · rw [inf_mul]; rfl
        · simp [key] at hk
    · rw [inf_mul]; exact neg_inf_le (nan_mul _ nb)

/-- **C77.** Greater numbers give no smaller distances, and greater distances no smaller numbers, in every unit. -/
theorem C77_monotone (x y : F32) (a b : PhysicalDistance) (hx : F32.le x y = true) (ha : le a b = true) :
    le (ofCentimeters x) (ofCentimeters y) = true ∧ le (ofMeters x) (ofMeters y) = true ∧ le (ofInches x) (ofInches y) = true ∧
      F32.le a.toCentimeters b.toCentimeters = true ∧ F32.le a.toMeters b.toMeters = true ∧ F32.le a.toInches b.toInches = true := by
  have m0 : 0 < toRat perMeter := by rw [toRat_perMeter]; norm_num
  have i0 : 0 < toRat perInch := by linarith [pos_perInch.1]
  exact ⟨hx, mul_le_mul_right finite_perMeter m0 hx, mul_le_mul_right finite_perInch i0 hx, ha, div_le_div_right finite_perMeter m0 ha,
    div_le_div_right finite_perInch i0 ha⟩

example : F32.le (F32.ofInt 1) (F32.inf false) = true := by decide +kernel

/-- **C77.** Distances that are numbers are ordered: exactly one of less, equal and greater holds, the other comparisons follow from these, and
both less and equal are transitive. -/
theorem C77_order (a b c : PhysicalDistance) (ha : a.cm.isNaN = false) (hb : b.cm.isNaN = false) (hc : c.cm.isNaN = false) :
    ((lt a b = true ∧ eq a b = false ∧ gt a b = false) ∨ (lt a b = false ∧ eq a b = true ∧ gt a b = false) ∨
      (lt a b = false ∧ eq a b = false ∧ gt a b = true)) ∧
      le a b = (lt a b || eq a b) ∧ ge a b = (gt a b || eq a b) ∧ ne a b = !eq a b ∧ (lt a b = true → lt b c = true → lt a c = true) ∧
      (eq a b = true → eq b c = true → eq a c = true) := by
  simp only [lt, eq, gt, le, ge, ne, F32.lt, F32.le, F32.feq, ha, hb, hc, Bool.not_false, Bool.true_and, decide_eq_true_eq, decide_eq_false_iff_not]
  refine ⟨by omega, ?_, ?_, trivial, fun h1 h2 => by omega, fun h1 h2 => by omega⟩
  · rw [Bool.eq_iff_iff]; simp only [Bool.or_eq_true, decide_eq_true_eq]; omega
  · rw [Bool.eq_iff_iff]; simp only [Bool.or_eq_true, decide_eq_true_eq]; omega

/-- A distance that is no number is not equal to itself. -/
example : eq ⟨F32.nan⟩ ⟨F32.nan⟩ = false := by decide

end PhysicalDistance

namespace SmallArray

open SmallArray.Spec

variable {T : Type}

/-- The elements that count fit in. -/
def Ok (a : SmallArray T) : Prop := a.size ≤ a.data.length

theorem length_values {a : SmallArray T} (h : Ok a) : a.values.length = a.size := by
  unfold values
  rw [List.length_take, Nat.min_eq_left h]

theorem length_fill (l : List T) (i j : ℕ) (v : T) (hi : i ≤ j) (hj : j ≤ l.length) : (fill l i j v).length = l.length := by
  unfold fill
  simp only [List.length_append, List.length_take, List.length_replicate, List.length_drop]
  omega

/-- One change -/
theorem step_spec (dflt : T) (a : SmallArray T) (h : Ok a) (o : Op T) :
    (step dflt a o).map values = apply a.data.length a.values o ∧ ∀ a', step dflt a o = some a' → Ok a' ∧ a'.data.length = a.data.length := by
  have lv := length_values h
  cases o with
  | resize n v =>
    simp only [step, SmallArray.resize, apply]
    by_cases hn : n ≤ a.data.length
    · rw [if_pos hn, if_pos hn]
      by_cases e : n = a.size
      · rw [if_pos e]
        subst e
        refine ⟨?_, fun a' q => by rw [Option.some.injEq] at q; subst q; exact ⟨h, rfl⟩⟩
        rw [Option.map_some, lv, Nat.sub_self, List.replicate_zero, List.append_nil, List.take_of_length_le lv.le]
      · rw [if_neg e]
        by_cases l : a.size < n
        · rw [if_pos l]
          have lf := length_fill a.data a.size n v l.le hn
          refine ⟨?_, fun a' q => by rw [Option.some.injEq] at q; subst q; exact ⟨by unfold Ok; dsimp only; rw [lf]; exact hn, lf⟩⟩
          rw [Option.map_some, lv]
          congr 1
          rw [List.take_of_length_le (by rw [lv]; exact l.le)]
          unfold values fill
          dsimp only
          rw [List.take_append_of_le_length (by simp only [List.length_append, List.length_take, List.length_replicate]; unfold Ok at h; omega)]
          rw [List.take_of_length_le (by simp only [List.length_append, List.length_take, List.length_replicate]; omega)]
        · rw [if_neg l]
          have l : n ≤ a.size := by omega
          have lf := length_fill a.data n a.size dflt l h
          refine ⟨?_, fun a' q => by rw [Option.some.injEq] at q; subst q; exact ⟨by unfold Ok; dsimp only; rw [lf]; exact hn, lf⟩⟩
          rw [Option.map_some, lv, Nat.sub_eq_zero_of_le l, List.replicate_zero, List.append_nil]
          congr 1
          unfold values fill
          dsimp only
          rw [List.append_assoc, List.take_append_of_le_length (by rw [List.length_take]; omega), List.take_take, List.take_take]
          congr 1
          omega
    · rw [if_neg hn, if_neg hn]
      exact ⟨rfl, fun a' q => by simp at q⟩
  | set i v =>
    simp only [step, SmallArray.set, apply, lv]
    by_cases hi : i < a.size
    · rw [if_pos hi, if_pos hi]
      refine ⟨?_, fun a' q => by rw [Option.some.injEq] at q; subst q; exact ⟨by unfold Ok; dsimp only; rw [List.length_set]; exact h, by simp⟩⟩
      rw [Option.map_some]
      congr 1
      unfold values
      rw [List.take_set]
    · rw [if_neg hi, if_neg hi]
      exact ⟨rfl, fun a' q => by simp at q⟩

/-- **C78.** Whatever is in memory, an array made from nothing, from a count or from values and then changed has exactly the elements of a list that
is changed in the same way; calls are defined in the same cases. -/
theorem C78_refines (dflt : T) (junk : List T) (os : List (Op T)) :
    ((run dflt (empty junk) os).map values = applyAll junk.length [] os) ∧
      (∀ count v, ((ofCount junk count v).bind fun a => (run dflt a os).map values) =
        if count ≤ junk.length then applyAll junk.length (List.replicate count v) os else none) ∧
      (∀ vs : List T, ((ofValues junk vs).bind fun a => (run dflt a os).map values) = if vs.length ≤ junk.length then applyAll junk.length vs os else none) := by
  have all : ∀ (os : List (Op T)) (a : SmallArray T), Ok a → a.data.length = junk.length → (run dflt a os).map values = applyAll junk.length a.values os := by
    intro os
    induction os with
    | nil => intro a _ _; rfl
    | cons o os ih =>
      intro a h hl
      obtain ⟨s1, s2⟩ := step_spec dflt a h o
      rw [hl] at s1
      rw [run, applyAll, ← s1]
      cases e : step dflt a o with
      | none => rfl
      | some a' =>
        obtain ⟨o1, o2⟩ := s2 a' e
        simp only [Option.bind_some, Option.map_some]
        exact ih a' o1 (o2.trans hl)
  refine ⟨?_, fun count v => ?_, fun vs => ?_⟩
  · have := all os (empty junk) (Nat.zero_le _) rfl
    exact this
  · unfold ofCount
    by_cases h : count ≤ junk.length
    · rw [if_pos h, if_pos h, Option.bind_some]
      have lf := length_fill junk 0 count v (Nat.zero_le _) h
      rw [all os _ (by unfold Ok; dsimp only; rw [lf]; exact h) lf]
      congr 1
      unfold values fill
      simp
    · rw [if_neg h, if_neg h]; rfl
  · unfold ofValues
    by_cases h : vs.length ≤ junk.length
    · rw [if_pos h, if_pos h, Option.bind_some]
      have lf : (vs ++ junk.drop vs.length).length = junk.length := by rw [List.length_append, List.length_drop]; omega
      rw [all os _ (by unfold Ok; dsimp only; rw [lf]; exact h) lf]
      congr 1
      unfold values
      simp
    · rw [if_neg h, if_neg h]; rfl

/-- **C78.** Elements are read where they are, and nowhere else; equality is that of the elements. -/
theorem C78_read [DecidableEq T] (a b : SmallArray T) (i : ℕ) :
    a.get i = a.values[i]? ∧ (eq a b = true ↔ a.values = b.values) := by
  refine ⟨?_, by unfold eq; rw [decide_eq_true_eq]⟩
  unfold get values
  by_cases h : i < a.size
  · rw [if_pos h, List.getElem?_take_of_lt h]
  · rw [if_neg h, List.getElem?_eq_none (by rw [List.length_take]; omega)]

/-- **C78.** Elements that are given up are set to the default value. -/
theorem C78_excess (dflt : T) (a a' : SmallArray T) (n : ℕ) (v : T) (h : a.resize dflt n v = some a') (i : ℕ) (h1 : n ≤ i)
    (h2 : i < a.size) : a'.data[i]? = some dflt := by
  unfold SmallArray.resize at h
  by_cases hn : n ≤ a.data.length
  · rw [if_pos hn, if_neg (by omega), if_neg (by omega), Option.some.injEq] at h
    subst h
    unfold fill
    dsimp only
    have l1 : (a.data.take n).length = n := by rw [List.length_take]; omega
    rw [List.append_assoc, List.getElem?_append_right (by omega), l1, List.getElem?_append_left (by rw [List.length_replicate]; omega),
      List.getElem?_replicate, if_pos (by omega)]
  · rw [if_neg hn] at h
    simp at h

/-- A history in which the array grows, is written to and shrinks -/
example : (run 0 (empty [7, 8, 9]) [.resize 3 1, .set 1 5, .resize 2 0]).map values = some [1, 5] ∧
    ((run 0 (empty [7, 8, 9]) [.resize 3 1, .set 1 5, .resize 2 0]).map fun a => a.data) = some [1, 5, 0] := by decide

example : ((run 0 (empty [7, 8, 9]) [.resize 4 1]).map values) = none := by decide

end SmallArray

end Verif
