import Verif.Model.Angle
import Verif.F32.Fmod

/-!
# C19: normalised angles; C25: the stored width and rotation of a `Quad`
-/

set_option autoImplicit false
set_option exponentiation.threshold 400

namespace Verif

open F32 Angle

/-- The constants are the floats nearest to the literals 3.1415926536 and 6.2831853072, and the floats
nearest to π and 2π. -/
example : pi = ofRat (31415926536 / 10 ^ 10) ∧ twoPi = ofRat (62831853072 / 10 ^ 10) ∧
    pi = ofRat (3141592653589793 / 10 ^ 15) ∧ twoPi = ofRat (6283185307179586 / 10 ^ 15) ∧
    negPi = neg pi := by decide +kernel

theorem toRat_pi : toRat pi = 13176795 / 2 ^ 22 := by
  have : mag 0x40490FDB = 13176795 * 2 ^ 127 := by decide +kernel
  unfold pi
  rw [toRat_fin_false, this]
  norm_num

theorem toRat_negPi : toRat negPi = -(13176795 / 2 ^ 22) := by
  have : negPi = neg pi := rfl
  rw [this, toRat_neg, toRat_pi]

theorem toRat_twoPi : toRat twoPi = 13176795 / 2 ^ 21 := by
  have : mag 0x40C90FDB = 13176795 * 2 ^ 128 := by decide +kernel
  unfold twoPi
  rw [toRat_fin_false, this]
  norm_num

theorem finite_consts : pi.isFinite = true ∧ negPi.isFinite = true ∧ twoPi.isFinite = true :=
  ⟨rfl, rfl, rfl⟩

theorem fmod_twoPi {a : F32} (ha : a.isFinite = true) :
    (fmod a twoPi).isFinite = true ∧ |toRat (fmod a twoPi)| < 13176795 / 2 ^ 21 ∧
    ∃ k : ℤ, toRat (fmod a twoPi) = toRat a - k * (13176795 / 2 ^ 21) := by
  have h0 : toRat twoPi ≠ 0 := by rw [toRat_twoPi]; norm_num
  obtain ⟨h1, h2, -, -, h3⟩ := toRat_fmod ha finite_consts.2.2 h0
  rw [toRat_twoPi] at h2 h3
  refine ⟨h1, ?_, h3⟩
  rwa [abs_of_pos (by norm_num : (0 : ℚ) < 13176795 / 2 ^ 21)] at h2

theorem ovf_big : (2 : ℚ) ^ 127 < ovf := by unfold ovf; norm_num

/-- C19: `Normalized` of every finite angle is in [0, 2π), and differs from the angle by a multiple of
2π up to a unit in the last place of 2π (2^-21). A non-negative angle is reduced exactly. Here 2π is
the binary32 constant. -/
theorem C19_normalized (a : F32) (ha : a.isFinite = true) :
    (normalized a).isFinite = true ∧ le zero (normalized a) = true ∧
    lt (normalized a) twoPi = true ∧
    (∃ k : ℤ, |toRat (normalized a) - (toRat a - k * toRat twoPi)| ≤ 1 / 2 ^ 21) ∧
    (0 ≤ toRat a → ∃ k : ℤ, toRat (normalized a) = toRat a - k * toRat twoPi) := by
  obtain ⟨hf, hlt, k, hk⟩ := fmod_twoPi ha
  have hsign := (toRat_fmod ha finite_consts.2.2 (by rw [toRat_twoPi]; norm_num)).2.2.1
  obtain ⟨hlo, hhi⟩ := abs_lt.1 hlt
  rw [toRat_twoPi]
  unfold normalized
  simp only
  by_cases hneg : lt (fmod a twoPi) zero = true
  · rw [if_pos hneg]
    rw [lt_iff hf isFinite_zero, toRat_zero] at hneg
    have hna : ¬ 0 ≤ toRat a := fun h => absurd (hsign h) (not_le.mpr hneg)
    have hb : |toRat (fmod a twoPi) + toRat twoPi| < ovf := by
      rw [toRat_twoPi, abs_lt]
      have := ovf_big
      constructor <;> linarith
    have hs1 : (add (fmod a twoPi) twoPi).isFinite = true := by
      exact isFinite_add hf finite_consts.2.2 hb
    have hs2 := toRat_add hf finite_consts.2.2 hb
    rw [toRat_twoPi] at hs2
    have r0 : (0 : ℚ) ≤ rnd (toRat (fmod a twoPi) + 13176795 / 2 ^ 21) := rnd_nonneg (by linarith)
    have r1 : rnd (toRat (fmod a twoPi) + 13176795 / 2 ^ 21) ≤ 13176795 / 2 ^ 21 := by
      apply rnd_le_of_le _ (by linarith)
      exact ⟨twoPi, rfl, toRat_twoPi⟩
    have herr : |rnd (toRat (fmod a twoPi) + 13176795 / 2 ^ 21)
        - (toRat (fmod a twoPi) + 13176795 / 2 ^ 21)| ≤ 1 / 2 ^ 21 := by
      have := rnd_err (toRat (fmod a twoPi) + 13176795 / 2 ^ 21)
      refine _root_.le_trans this (max_le (by norm_num) ?_)
      rw [abs_of_nonneg (by linarith), div_le_iff₀ (by positivity)]
      norm_num
      linarith
    by_cases heq : feq (add (fmod a twoPi) twoPi) twoPi = true
    · rw [if_pos heq]
      rw [feq_iff hs1 finite_consts.2.2, hs2, toRat_twoPi] at heq
      refine ⟨rfl, rfl, rfl, ⟨k, ?_⟩, fun h => absurd h hna⟩
      rw [← hk, toRat_zero]
      rw [heq] at herr
      rwa [show (13176795 / 2 ^ 21 - (toRat (fmod a twoPi) + 13176795 / 2 ^ 21) : ℚ) =
        0 - toRat (fmod a twoPi) by ring] at herr
    · rw [if_neg heq]
      refine ⟨hs1, ?_, ?_, ⟨k - 1, ?_⟩, fun h => absurd h hna⟩
      · rw [le_iff isFinite_zero hs1, toRat_zero, hs2]; exact r0
      · rw [lt_iff hs1 finite_consts.2.2, hs2, toRat_twoPi]
        rw [feq_iff hs1 finite_consts.2.2, hs2, toRat_twoPi] at heq
        exact lt_of_le_of_ne r1 heq
      · rw [hs2]
        rw [hk] at herr ⊢
        push_cast
        rwa [show (toRat a - (k - 1) * (13176795 / 2 ^ 21) : ℚ) =
          toRat a - k * (13176795 / 2 ^ 21) + 13176795 / 2 ^ 21 by ring]
  · rw [if_neg hneg]
    rw [lt_iff hf isFinite_zero, toRat_zero] at hneg
    refine ⟨hf, ?_, ?_, ⟨k, ?_⟩, fun _ => ⟨k, hk⟩⟩
    · rw [le_iff isFinite_zero hf, toRat_zero]; exact not_lt.1 hneg
    · rw [lt_iff hf finite_consts.2.2, toRat_twoPi]; exact hhi
    · rw [hk]; simp

/-- C19: `NormalizedAboutZero` of every finite angle is in (-π, π] and differs from the angle by an exact
multiple of 2π. -/
theorem C19_normalized_about_zero (a : F32) (ha : a.isFinite = true) :
    (normalizedAboutZero a).isFinite = true ∧ lt (neg pi) (normalizedAboutZero a) = true ∧
    le (normalizedAboutZero a) pi = true ∧
    ∃ k : ℤ, toRat (normalizedAboutZero a) = toRat a - k * toRat twoPi := by
  obtain ⟨hf, hlt, k, hk⟩ := fmod_twoPi ha
  obtain ⟨hlo, hhi⟩ := abs_lt.1 hlt
  have hnp : neg pi = negPi := rfl
  rw [hnp, toRat_twoPi]
  -- a remainder of at least π is a multiple of 2^-22
  have mult : 13176795 / 2 ^ 22 ≤ |toRat (fmod a twoPi)| → ∃ z : ℤ, toRat (fmod a twoPi) = z / 2 ^ 22 := by
    intro h
    obtain ⟨z, hz⟩ := toRat_dvd (a := fmod a twoPi) (j := 127) (_root_.le_trans (by norm_num) h)
    exact ⟨z, by rw [hz]; norm_num; ring⟩
  have rep : ∀ z : ℤ, |z| ≤ 13176795 → F32.Repr ((z : ℚ) / 2 ^ 22) := by
    intro z hz
    apply Repr.of_mul_pow (M := z) (e := 127)
    · omega
    · norm_num; ring
    · rw [abs_div, abs_of_pos (show (0 : ℚ) < 2 ^ 22 by norm_num), div_lt_iff₀ (by norm_num)]
      have : |(z : ℚ)| ≤ 13176795 := by exact_mod_cast hz
      refine lt_of_le_of_lt this (by norm_num)
  unfold normalizedAboutZero
  simp only
  by_cases hgt : gt (fmod a twoPi) pi = true
  · rw [if_pos hgt]
    rw [lt_iff finite_consts.1 hf, toRat_pi] at hgt
    obtain ⟨z, hz⟩ := mult (by rw [abs_of_pos (by linarith)]; linarith)
    have hz1 : 13176795 < z := by
      rw [hz, div_lt_div_iff_of_pos_right (by positivity)] at hgt; exact_mod_cast hgt
    have hz2 : z < 26353590 := by
      rw [hz, div_lt_div_iff₀ (by positivity) (by positivity)] at hhi
      have : (z : ℚ) < 26353590 := by linarith
      exact_mod_cast this
    have e : toRat (fmod a twoPi) - toRat twoPi = ((z - 26353590 : ℤ) : ℚ) / 2 ^ 22 := by
      rw [hz, toRat_twoPi]; push_cast; ring
    have hr : F32.Repr (toRat (fmod a twoPi) - toRat twoPi) := by
      rw [e]; exact rep _ (by rw [abs_le]; constructor <;> omega)
    have hs1 := isFinite_sub hf finite_consts.2.2 hr.lt_ovf
    have hs2 := toRat_sub hf finite_consts.2.2 hr.lt_ovf
    rw [hr.rnd_eq, e] at hs2
    refine ⟨hs1, ?_, ?_, ⟨k + 1, ?_⟩⟩
    · rw [lt_iff finite_consts.2.1 hs1, hs2, toRat_negPi, ← neg_div,
        div_lt_div_iff_of_pos_right (by positivity)]
      have : (-13176795 : ℤ) < z - 26353590 := by omega
      exact_mod_cast this
    · rw [le_iff hs1 finite_consts.1, hs2, toRat_pi, div_le_div_iff_of_pos_right (by positivity)]
      have : z - 26353590 ≤ (13176795 : ℤ) := by omega
      exact_mod_cast this
    · rw [hs2, ← e, hk, toRat_twoPi]; push_cast; ring
  · rw [if_neg hgt]
    by_cases hle : le (fmod a twoPi) negPi = true
    · rw [if_pos hle]
      rw [le_iff hf finite_consts.2.1, toRat_negPi] at hle
      obtain ⟨z, hz⟩ := mult (by rw [abs_of_neg (by linarith)]; linarith)
      have hz1 : z ≤ -13176795 := by
        rw [hz, ← neg_div, div_le_div_iff_of_pos_right (by positivity)] at hle; exact_mod_cast hle
      have hz2 : -26353590 < z := by
        rw [hz, ← neg_div, div_lt_div_iff₀ (by positivity) (by positivity)] at hlo
        have : (-26353590 : ℚ) < z := by linarith
        exact_mod_cast this
      have e : toRat (fmod a twoPi) + toRat twoPi = ((z + 26353590 : ℤ) : ℚ) / 2 ^ 22 := by
        rw [hz, toRat_twoPi]; push_cast; ring
      have hr : F32.Repr (toRat (fmod a twoPi) + toRat twoPi) := by
        rw [e]; exact rep _ (by rw [abs_le]; constructor <;> omega)
      have hs1 := isFinite_add hf finite_consts.2.2 hr.lt_ovf
      have hs2 := toRat_add hf finite_consts.2.2 hr.lt_ovf
      rw [hr.rnd_eq, e] at hs2
      refine ⟨hs1, ?_, ?_, ⟨k - 1, ?_⟩⟩
      · rw [lt_iff finite_consts.2.1 hs1, hs2, toRat_negPi, ← neg_div,
          div_lt_div_iff_of_pos_right (by positivity)]
        have : (-13176795 : ℤ) < z + 26353590 := by omega
        exact_mod_cast this
      · rw [le_iff hs1 finite_consts.1, hs2, toRat_pi, div_le_div_iff_of_pos_right (by positivity)]
        have : z + 26353590 ≤ (13176795 : ℤ) := by omega
        exact_mod_cast this
      · rw [hs2, ← e, hk, toRat_twoPi]; push_cast; ring
    · rw [if_neg hle]
      rw [le_iff hf finite_consts.2.1] at hle
      rw [lt_iff finite_consts.1 hf] at hgt
      refine ⟨hf, ?_, ?_, ⟨k, hk⟩⟩
      · rw [lt_iff finite_consts.2.1 hf]; exact not_le.1 hle
      · rw [le_iff hf finite_consts.1]; exact not_lt.1 hgt

/-- C19 is false without the hypothesis: an infinite angle normalises to NaN. -/
theorem C19_infinite_counterexample : normalized (inf false) = nan ∧ normalizedAboutZero (inf true) = nan :=
  by decide +kernel

/-- Tiny negative angles normalise to zero, not to 2π; -π goes to π; 7 and -7 are reduced. -/
example : normalized (fin true 1 (by decide)) = zero ∧ normalizedAboutZero negPi = pi ∧
    lt zero (normalized (ofInt 7)) = true ∧ lt (normalized (ofInt 7)) (ofInt 1) = true ∧
    lt (ofInt 5) (normalized (ofInt (-7))) = true ∧
    lt (normalizedAboutZero (ofInt (-7))) zero = true := by decide +kernel

/-! ## The stored width and rotation of a quad -/

/-- The width is not negative and the rotation is in [0, 2π). -/
def QuadF.Ok (q : QuadF) : Prop :=
  le zero q.width = true ∧ le zero q.rotation = true ∧ lt q.rotation twoPi = true ∧
    q.rotation.isFinite = true

/-- The documented arguments: a width that is not NaN and a finite rotation. -/
def QuadFOp.Ok : QuadFOp → Prop
  | .setWidth w => w.isNaN = false
  | .setRotation r => r.isFinite = true
  | _ => True

theorem QuadF.normalize_ok (q : QuadF) (hw : q.width.isNaN = false) (hr : q.rotation.isFinite = true)
    (h0 : le zero q.rotation = true) (h1 : lt q.rotation twoPi = true) : q.normalize.Ok := by
  unfold QuadF.normalize
  by_cases h : lt q.width zero = true
  · rw [if_pos h]
    rw [le_iff isFinite_zero hr, toRat_zero] at h0
    rw [lt_iff hr finite_consts.2.2, toRat_twoPi] at h1
    have hb : |toRat q.rotation + toRat pi| < ovf := by
      rw [toRat_pi, abs_lt]
      have := ovf_big
      constructor <;> linarith
    have := C19_normalized _ (isFinite_add hr finite_consts.1 hb)
    refine ⟨?_, this.2.1, this.2.2.1, this.1⟩
    unfold lt at h
    simp only [Bool.and_eq_true, Bool.not_eq_true', decide_eq_true_eq] at h
    apply le_of_key rfl (by simpa using hw)
    rw [key_neg]
    have hz : key zero = 0 := rfl
    omega
  · rw [if_neg h]
    refine ⟨?_, h0, h1, hr⟩
    rw [Bool.not_eq_true] at h
    exact (not_lt_iff hw (by rfl)).1 h

theorem QuadF.step_ok (q : QuadF) (hq : q.Ok) (op : QuadFOp) (ho : op.Ok) : (q.step op).Ok := by
  obtain ⟨w0, r0, r1, rf⟩ := hq
  cases op with
  | setWidth w =>
    unfold QuadF.step
    simp only
    split
    · exact ⟨w0, r0, r1, rf⟩
    · exact QuadF.normalize_ok _ ho rf r0 r1
  | setHeight h =>
    unfold QuadF.step
    simp only
    split
    · exact ⟨w0, r0, r1, rf⟩
    · exact ⟨w0, r0, r1, rf⟩
  | setRotation r =>
    unfold QuadF.step
    simp only
    split
    · exact ⟨w0, r0, r1, rf⟩
    · have := C19_normalized r ho
      exact ⟨w0, this.2.1, this.2.2.1, this.1⟩
  | join w h =>
    refine ⟨?_, r0, r1, rf⟩
    unfold QuadF.step smax
    simp only
    split
    · next hl =>
      unfold lt at hl
      simp only [Bool.and_eq_true, Bool.not_eq_true', decide_eq_true_eq] at hl
      have := le_key w0
      apply le_of_key rfl hl.1.2
      omega
    · exact w0

/-- C25, in binary32: after any history of calls the width is at least zero and the rotation is in
[0, 2π). -/
theorem C25_width_rotation_range (w h r : F32) (hw : w.isNaN = false) (hr : r.isFinite = true)
    (ops : List QuadFOp) (hops : ∀ op ∈ ops, op.Ok) :
    let q := (QuadF.new w h r).run ops
    le zero q.width = true ∧ le zero q.rotation = true ∧ lt q.rotation twoPi = true := by
  intro q
  have h0 : (QuadF.new w h r).Ok := by
    have := C19_normalized r hr
    exact QuadF.normalize_ok _ hw this.1 this.2.1 this.2.2.1
  have : ∀ (l : List QuadFOp) (o : QuadF), o.Ok → (∀ op ∈ l, op.Ok) → (o.run l).Ok := by
    intro l
    induction l with
    | nil => intro o ho _; exact ho
    | cons op l ih =>
      intro o ho hl
      exact ih _ (o.step_ok ho op (hl op (by simp))) fun op' h' => hl op' (by simp [h'])
  have hq := this ops _ h0 hops
  exact ⟨hq.1, hq.2.1, hq.2.2.1⟩

/-- A history with a negative and an infinite width and a large rotation. -/
example : ∀ op ∈ [QuadFOp.setWidth (ofInt (-3)), .setRotation (ofInt (-100)), .setWidth (inf true),
    .join nan zero], op.Ok := by
  intro op h
  simp only [List.mem_cons, List.not_mem_nil, or_false] at h
  rcases h with rfl | rfl | rfl | rfl
  · show (ofInt (-3)).isNaN = false; decide +kernel
  · show (ofInt (-100)).isFinite = true; decide +kernel
  · rfl
  · exact True.intro

end Verif
