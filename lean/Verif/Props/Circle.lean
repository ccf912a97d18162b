import Verif.Lemmas.Circle
import Verif.Lemmas.VecF32

/-!
# C57: circles; C58: directions of vectors
-/

set_option autoImplicit false

namespace Verif.RealGeom

open Verif.RealGeom.Spec Real

/-! ## C57 -/

/-- **C57** (arcs): an arc is appended as points on the circle at evenly spaced angles, from the start of the arc to its end. There are
between 2 and 32768 of them: the least number for which no step is more than a full turn and the chord height of each step is at most
the given one, or 32768. -/
theorem C57_arc (c : Circle) (hr : 0 ≤ c.radius) (start arc h : ℝ) (hh : 0 < h) (polyline : List ℂ) :
    ∃ (n : ℕ) (ps : List ℂ), c.appendArcToPolyline start arc h polyline = some (polyline ++ ps) ∧ ps.length = n + 1 ∧ 1 ≤ n ∧ n ≤ 32767 ∧
      (∀ i ≤ n, ps[i]? = some (c.getPoint (start + i * (arc / n)))) ∧
      (Enough c start arc h n ∨ n = 32767 ∨ c.radius = 0) ∧ ∀ m, Enough c start arc h m → n ≤ m := by
  obtain ⟨n, h1, h2, h3, h4, h5⟩ := append_spec (start := start) (arc := arc) (l := polyline) hr hh
  refine ⟨n, _, h1, by simp, h2, h3, fun i hi => ?_, h4, h5⟩
  rw [List.getElem?_map, List.getElem?_range (by omega)]; rfl

/-- **C57** (distance from arcs): unless there are 32768 points, all of the arc is within the given chord height of the appended
segments. -/
theorem C57_near (c : Circle) (hr : 0 ≤ c.radius) (start arc h : ℝ) (hh : 0 < h) (polyline ps : List ℂ)
    (hp : c.appendArcToPolyline start arc h polyline = some (polyline ++ ps)) (hl : ps.length < 32768) (t : ℝ) (ht0 : 0 ≤ t) (ht1 : t ≤ 1) :
    ∃ (i : ℕ) (p q z : ℂ), ps[i]? = some p ∧ ps[i + 1]? = some q ∧ OnSegment p q z ∧ ‖c.getPoint (start + t * arc) - z‖ ≤ h := by
  obtain ⟨n, h1, h2, h3, h4, -⟩ := append_spec (start := start) (arc := arc) (l := polyline) hr hh
  rw [h1] at hp
  have hps := List.append_cancel_left (Option.some.inj hp)
  subst hps
  rw [List.length_map, List.length_range] at hl
  have hget : ∀ i ≤ n, ((List.range (n + 1)).map fun i : ℕ => c.getPoint (start + (i : ℝ) * (arc / n)))[i]? =
      some (c.getPoint (start + i * (arc / n))) := fun i hi => by
    rw [List.getElem?_map, List.getElem?_range (by omega)]; rfl
  rcases h4 with h4 | h4 | h4
  · obtain ⟨-, e1, e2⟩ := h4
    have hn : (0 : ℝ) < n := by exact_mod_cast h2
    obtain ⟨i, hi, s0, s1⟩ : ∃ i < n, 0 ≤ t * n - i ∧ t * n - i ≤ 1 := by
      have htn : 0 ≤ t * n := by positivity
      by_cases hlt : ⌊t * n⌋₊ < n
      · exact ⟨_, hlt, by linarith [Nat.floor_le htn], by linarith [Nat.lt_floor_add_one (t * n)]⟩
      · have hge : (n : ℝ) ≤ t * n := (Nat.le_floor_iff htn).1 (not_lt.1 hlt)
        have ht : t * n = n := le_antisymm (by nlinarith) hge
        refine ⟨n - 1, by omega, ?_, ?_⟩
        · rw [ht, Nat.cast_sub h2]; simp
        · rw [ht, Nat.cast_sub h2]; simp
    have hstep : ∀ x : ℝ, start + (i + 1) * x - (start + i * x) = x := fun x => by ring
    obtain ⟨z, hz1, hz2⟩ := arc_near (a := start + i * (arc / n)) (b := start + (i + 1) * (arc / n)) hr
      (by rw [hstep, abs_div, abs_of_pos hn]; exact e1) (e2 i hi) s0 s1
    refine ⟨i, _, _, z, hget i hi.le, hget (i + 1) hi, by push_cast; exact hz1, ?_⟩
    rw [hstep] at hz2
    have : start + ↑i * (arc / ↑n) + (t * ↑n - ↑i) * (arc / ↑n) = start + t * arc := by field_simp; ring
    rwa [this] at hz2
  · omega
  · have hc : ∀ a, c.getPoint a = c.center := fun a => by rw [getPoint_eq, h4]; simp
    refine ⟨0, _, _, c.center, hget 0 (by omega), hget 1 h2, ?_, ?_⟩
    · rw [hc, hc]; exact ⟨0, le_refl _, zero_le_one, by simp⟩
    · rw [hc, sub_self, norm_zero]; exact hh.le

/-- **C57** (arcs for chord heights): the returned angle is that of an arc with the given chord height. -/
theorem C57_arcAngle (c : Circle) (hr : 0 < c.radius) (h a : ℝ) (h0 : 0 ≤ h) (h1 : h ≤ 2 * c.radius) :
    0 ≤ c.getArcAngleForChordHeight h ∧ c.getArcAngleForChordHeight h ≤ 2 * π ∧
      chordHeight c a (a + c.getArcAngleForChordHeight h) = h ∧ (c.radius < h → π < c.getArcAngleForChordHeight h) := by
  have hq : 0 ≤ h / c.radius := by positivity
  have hq2 : h / c.radius ≤ 2 := by rw [div_le_iff₀ hr]; exact h1
  have e : c.getArcAngleForChordHeight h = 2 * Real.arccos (1 - h / c.radius) := by
    unfold Circle.getArcAngleForChordHeight
    rw [if_neg hr.ne', clamp_of_mem (by linarith) (by linarith)]
  rw [e]
  refine ⟨by linarith [Real.arccos_nonneg (1 - h / c.radius)], by linarith [Real.arccos_le_pi (1 - h / c.radius)], ?_, fun hgt => ?_⟩
  · rw [chordHeight_eq, abs_of_pos hr]
    have : (a + 2 * Real.arccos (1 - h / c.radius) - a) / 2 = Real.arccos (1 - h / c.radius) := by ring
    rw [this, Real.cos_arccos (by linarith) (by linarith)]
    field_simp; ring
  · have h2 : 1 < h / c.radius := by rw [lt_div_iff₀ hr]; linarith
    have h3 : π / 2 < Real.arccos (1 - h / c.radius) := by
      rw [← not_le, Real.arccos_le_pi_div_two]; linarith
    linarith

/-- **C57** (no chord height): a chord height that is not positive, or a circle that is a point, gives zero. -/
theorem C57_arcAngle_zero (c : Circle) (hr : 0 ≤ c.radius) (h : ℝ) (h0 : h ≤ 0 ∨ c.radius = 0) : c.getArcAngleForChordHeight h = 0 := by
  unfold Circle.getArcAngleForChordHeight
  by_cases hz : c.radius = 0
  · rw [if_pos hz]
  · rw [if_neg hz]
    have hr' : 0 < c.radius := lt_of_le_of_ne hr (Ne.symm hz)
    have hh : h ≤ 0 := h0.resolve_right hz
    have hq : h / c.radius ≤ 0 := div_nonpos_of_nonpos_of_nonneg hh hr
    have : clamp (1 - h / c.radius) (-1) 1 = 1 := by
      unfold clamp; split_ifs <;> linarith
    rw [this, Real.arccos_one, mul_zero]

/-- **C57** (defect in the documentation): the documented range of the angle is [0, 2π), but 2π is returned for a chord height of twice
the radius or more. -/
theorem C57_arcAngle_counterexample (c : Circle) (hr : 0 < c.radius) (h : ℝ) (hh : 2 * c.radius ≤ h) :
    c.getArcAngleForChordHeight h = 2 * π := by
  unfold Circle.getArcAngleForChordHeight
  have hq : 2 ≤ h / c.radius := by rw [le_div_iff₀ hr]; exact hh
  have : clamp (1 - h / c.radius) (-1) 1 = -1 := by
    unfold clamp; split_ifs <;> linarith
  rw [if_neg hr.ne', this, Real.arccos_neg_one]

/-- **C57** (containment): a circle contains another one exactly if all points of the other disc belong to its disc. -/
theorem C57_contains (c d : Circle) (hd : 0 ≤ d.radius) : c.Contains d ↔ ∀ p, InDisc d p → InDisc c p := contains_iff hd

/-- **C57** (tangents): tangent angles are returned unless one of the discs contains the other. They are normalised, they are those of
all exterior tangents, and they are on the named sides. -/
theorem C57_tangents (c d : Circle) (hc : 0 ≤ c.radius) (hd : 0 ≤ d.radius) :
    (c.getTangentAngles d = none ↔ (∀ p, InDisc d p → InDisc c p) ∨ ∀ p, InDisc c p → InDisc d p) ∧
    ∀ t, c.getTangentAngles d = some t →
      Normal t.left ∧ Normal t.right ∧ ToTheLeft (d.center - c.center) t.left ∧ ToTheRight (d.center - c.center) t.right ∧
      (∀ θ, Normal θ → (ExteriorTangent c d θ ↔ θ = t.left ∨ θ = t.right)) ∧ c.guaranteedRightTangentAngle d = t.right := by
  refine ⟨by rw [none_iff, contains_iff hd, contains_iff hc], fun t ht => ?_⟩
  obtain ⟨h1, h2, h3, h4, h5⟩ := tangent_spec ht
  refine ⟨h1, h2, h3, h4, h5, ?_⟩
  unfold Circle.getTangentAngles at ht
  dsimp only at ht
  split_ifs at ht
  injection ht with ht
  subst ht
  rfl

/-- Two circles with tangents: radii 1 and 2, centers at distance 3. -/
example : ∃ t, (⟨0, 1⟩ : Circle).getTangentAngles ⟨3, 2⟩ = some t := by
  rw [← Option.isSome_iff_exists, Option.isSome_iff_ne_none, Ne, none_iff]
  unfold Circle.Contains
  rw [magnitude_eq, magnitude_eq]
  norm_num

/-- A half circle of radius 1 with chord height 2: one step is enough, so two points are appended. -/
example : ∃ p q, (⟨0, 1⟩ : Circle).appendArcToPolyline 0 π 2 [] = some [p, q] := by
  obtain ⟨n, ps, h1, h2, h3, -, -, -, h7⟩ := C57_arc ⟨0, 1⟩ zero_le_one 0 π 2 (by norm_num) []
  have : n ≤ 1 := by
    apply h7
    refine ⟨le_refl _, ?_, fun i _ => ?_⟩
    · rw [abs_of_pos Real.pi_pos, Nat.cast_one, div_one]; linarith [Real.pi_pos]
    · rw [chordHeight_eq, abs_one, one_mul]; linarith [Real.neg_one_le_cos ((0 + (↑i + 1) * (π / (1 : ℕ)) - (0 + ↑i * (π / (1 : ℕ)))) / 2)]
  obtain rfl : n = 1 := by omega
  match ps, h2 with
  | [p, q], _ => exact ⟨p, q, h1⟩

/-! ## C58 -/

/-- **C58** (polar coordinates): a vector is determined by its direction and magnitude, and these are what it was made from. -/
theorem C58_polar (v : ℂ) (a m : ℝ) (hm : 0 < m) :
    Vec.fromDirectionAndMagnitude (Vec.direction v) (Vec.magnitude v) = v ∧ Normal (Vec.direction v) ∧
      Vec.magnitude (Vec.fromDirectionAndMagnitude a m) = m ∧ Normal (Vec.direction (Vec.fromDirectionAndMagnitude a m)) ∧
      SameAngle (Vec.direction (Vec.fromDirectionAndMagnitude a m)) a := by
  refine ⟨from_direction v, normal_direction v, by rw [magnitude_eq, norm_from, abs_of_pos hm], normal_direction _, ?_⟩
  rw [direction_from a m hm]
  exact (normalized_spec a).2

/-- **C58** (unit vectors): the unit vector of every vector has magnitude 1 and the same direction; also of the zero vector. -/
theorem C58_unit (v : ℂ) : Vec.magnitude (Vec.asUnitVec v) = 1 ∧ Vec.direction (Vec.asUnitVec v) = Vec.direction v ∧
    Vec.asUnitVec v = Vec.fromDirectionAndMagnitude (Vec.direction v) 1 ∧ v = (Vec.magnitude v : ℂ) * Vec.asUnitVec v := by
  refine ⟨by rw [magnitude_eq, norm_unit], direction_unit v, unit_eq v, ?_⟩
  conv_lhs => rw [← from_direction v]
  rw [unit_eq, from_eq, from_eq]; simp

/-- **C58** (angles): the signed angle between two vectors is the difference of their directions, normalised, and the absolute angle is
its absolute value. -/
theorem C58_angles (a b : ℂ) :
    Normal (Vec.signedAngleBetween a b) ∧ SameAngle (Vec.signedAngleBetween a b) (Vec.direction b - Vec.direction a) ∧
      Vec.absoluteAngleBetween a b = |Vec.signedAngleBetween a b| := by
  rw [signed_eq]
  exact ⟨(normalized_spec _).1, (normalized_spec _).2, arccos_dot a b⟩

/-- **C58** (products): dot product and determinant are those of the magnitudes and the signed angle; `Orthogonal` turns by 90 degrees. -/
theorem C58_products (a b : ℂ) :
    Vec.dotProduct a b = Vec.magnitude a * Vec.magnitude b * Real.cos (Vec.signedAngleBetween a b) ∧
      Vec.determinant a b = Vec.magnitude a * Vec.magnitude b * Real.sin (Vec.signedAngleBetween a b) ∧
      Vec.magnitude (Vec.orthogonal a) = Vec.magnitude a ∧ (a ≠ 0 → Vec.signedAngleBetween a (Vec.orthogonal a) = π / 2) := by
  have hd : ∀ a b : ℂ, Vec.dotProduct a b = Vec.magnitude a * Vec.magnitude b * Real.cos (Vec.signedAngleBetween a b) := fun a b => by
    rw [signed_eq, cos_normalized, magnitude_eq, magnitude_eq]; exact dot_eq a b
  have hs : ∀ a b : ℂ, Vec.determinant a b = Vec.magnitude a * Vec.magnitude b * Real.sin (Vec.signedAngleBetween a b) := fun a b => by
    rw [signed_eq, sin_normalized, magnitude_eq, magnitude_eq]; exact det_eq a b
  have hm : Vec.magnitude (Vec.orthogonal a) = Vec.magnitude a := by
    unfold Vec.magnitude Vec.orthogonal
    congr 1
    ring
  refine ⟨hd a b, hs a b, hm, fun ha => ?_⟩
  have h1 := hd a (Vec.orthogonal a)
  have h2 := hs a (Vec.orthogonal a)
  rw [hm] at h1 h2
  have e1 : Vec.dotProduct a (Vec.orthogonal a) = 0 := by unfold Vec.dotProduct Vec.orthogonal; ring
  have e2 : Vec.determinant a (Vec.orthogonal a) = Vec.magnitude a * Vec.magnitude a := by
    unfold Vec.determinant Vec.orthogonal Vec.magnitude
    rw [Real.mul_self_sqrt (by nlinarith [mul_self_nonneg a.re, mul_self_nonneg a.im])]; ring
  have hp : 0 < Vec.magnitude a := by rw [magnitude_eq]; exact norm_pos_iff.2 ha
  rw [e1] at h1
  rw [e2] at h2
  have hpp : Vec.magnitude a * Vec.magnitude a ≠ 0 := (mul_pos hp hp).ne'
  have c0 : Real.cos (Vec.signedAngleBetween a (Vec.orthogonal a)) = 0 := by
    rcases mul_eq_zero.1 h1.symm with h | h
    · exact absurd h hpp
    · exact h
  have s1 : Real.sin (Vec.signedAngleBetween a (Vec.orthogonal a)) = 1 := by
    have : Vec.magnitude a * Vec.magnitude a * 1 = Vec.magnitude a * Vec.magnitude a * Real.sin (Vec.signedAngleBetween a (Vec.orthogonal a)) := by
      rw [mul_one]; exact h2
    exact (mul_left_cancel₀ hpp this).symm
  refine normal_unique (C58_angles a _).1 ⟨by linarith [Real.pi_pos], by linarith [Real.pi_pos]⟩ (sameAngle_of ?_ ?_)
  · rw [c0, Real.cos_pi_div_two]
  · rw [s1, Real.sin_pi_div_two]

end Verif.RealGeom

/-! ## In binary32 -/

namespace Verif.VecF

open F32

/-- **C58** (unit vectors in binary32): the components of a unit vector are between -1 and 1, whatever the vector, without NaN. -/
theorem C58_unit_range (hypot : F32 → F32 → F32) (H : HypotOk hypot) (v u : F32 × F32) (h1 : v.1.isNaN = false) (h2 : v.2.isNaN = false)
    (h : asUnitVec hypot v = some u) :
    u.1.isFinite = true ∧ |toRat u.1| ≤ 1 ∧ u.2.isFinite = true ∧ |toRat u.2| ≤ 1 := by
  obtain ⟨⟨a, b⟩, c, d⟩ := unit_range H h1 h2 h
  exact ⟨a, b, c, d⟩

/-- **C58** (angles in binary32): the absolute angle between vectors without NaN is in [0, π] and the signed angle is in (-π, π]. -/
theorem C58_angle_range (hypot : F32 → F32 → F32) (acos : F32 → F32) (H : HypotOk hypot) (A : AcosOk acos) (a b : F32 × F32)
    (ha : a.1.isNaN = false ∧ a.2.isNaN = false) (hb : b.1.isNaN = false ∧ b.2.isNaN = false) :
    (∀ r, absoluteAngleBetween hypot acos a b = some r → le zero r = true ∧ le r Angle.pi = true) ∧
      ∀ r, signedAngleBetween hypot acos a b = some r → lt (neg Angle.pi) r = true ∧ le r Angle.pi = true :=
  ⟨fun _ h => absolute_range H A ha hb h, fun _ h => signed_range H A ha hb h⟩

/-- **C58** (NaN): if a component of a vector is NaN, so are its unit vector and the angles to other vectors. -/
theorem C58_nan (hypot : F32 → F32 → F32) (acos : F32 → F32) (A : AcosOk acos) (a b : F32 × F32) (ha : a.1.isNaN = true ∨ a.2.isNaN = true) :
    asUnitVec hypot a = some (.nan, .nan) ∧
      (∀ r, absoluteAngleBetween hypot acos a b = some r ∨ absoluteAngleBetween hypot acos b a = some r → r = .nan) ∧
      ∀ r, signedAngleBetween hypot acos a b = some r ∨ signedAngleBetween hypot acos b a = some r → r = .nan := by
  have hu : asUnitVec hypot a = some (.nan, .nan) := by
    unfold asUnitVec
    rw [if_pos (by rw [Bool.or_eq_true]; exact ha)]
  have m1 : ∀ x : F32, mul .nan x = .nan := fun x => rfl
  have m2 : ∀ x : F32, mul x .nan = .nan := fun x => by cases x <;> rfl
  have d1 : ∀ u : F32 × F32, dotProduct (.nan, .nan) u = .nan := fun u => by unfold dotProduct; rw [m1, m1]; rfl
  have d2 : ∀ u : F32 × F32, dotProduct u (.nan, .nan) = .nan := fun u => by unfold dotProduct; rw [m2, m2]; rfl
  have e1 : ∀ u : F32 × F32, determinant (.nan, .nan) u = .nan := fun u => by unfold determinant; rw [m1, m1]; rfl
  have e2 : ∀ u : F32 × F32, determinant u (.nan, .nan) = .nan := fun u => by unfold determinant; rw [m2, m2]; rfl
  have c : clamp .nan (neg one) one = .nan := by decide
  have f : (if feq .nan Angle.pi || ge .nan zero then (.nan : F32) else neg .nan) = .nan := by decide
  refine ⟨hu, fun r hr => ?_, fun r hr => ?_⟩
  · rcases hr with h | h
    · obtain ⟨u, h1, h⟩ := bind_some h
      obtain ⟨w, h2, h⟩ := bind_some h
      rw [hu] at h1; cases h1
      rw [d1, c, A.nan] at h; cases h; rfl
    · obtain ⟨u, h1, h⟩ := bind_some h
      obtain ⟨w, h2, h⟩ := bind_some h
      rw [hu] at h2; cases h2
      rw [d2, c, A.nan] at h; cases h; rfl
  · rcases hr with h | h
    · obtain ⟨u, h1, h⟩ := bind_some h
      obtain ⟨w, h2, h⟩ := bind_some h
      rw [hu] at h1; cases h1
      dsimp only at h
      rw [d1, c, A.nan, e1, f] at h; cases h; rfl
    · obtain ⟨u, h1, h⟩ := bind_some h
      obtain ⟨w, h2, h⟩ := bind_some h
      rw [hu] at h2; cases h2
      dsimp only at h
      rw [d2, c, A.nan, e2, f] at h; cases h; rfl

/-- **C58** (defect): `AsUnitVec` fails a CHECK, exactly for the vectors whose components are zero or the least float 2^-149, in absolute
value, but not both zero: halving them gives zero, and dividing by the magnitude fails. -/
theorem C58_unit_counterexample (hypot : F32 → F32 → F32) (H : HypotOk hypot) (v : F32 × F32) : asUnitVec hypot v = none ↔
    v.1.isFinite = true ∧ v.2.isFinite = true ∧ ¬ (toRat v.1 = 0 ∧ toRat v.2 = 0) ∧ |toRat v.1| ≤ 1 / 2 ^ 149 ∧ |toRat v.2| ≤ 1 / 2 ^ 149 :=
  unit_none H v

/-- The hypotheses on `hypot` and `acos` are met by some functions, and there is a vector for which the check fails. -/
example : ∃ hypot, HypotOk hypot ∧ asUnitVec hypot (.fin false 1 (by decide), zero) = none := by
  have H : HypotOk (fun x y => smax (fabs x) (fabs y)) := by
    refine ⟨fun x y hx hy => ?_, fun x y hx hy => ?_, by decide⟩
    · have nx : (fabs x).isNaN = false := by rw [isNaN_fabs]; exact hx
      have ny : (fabs y).isNaN = false := by rw [isNaN_fabs]; exact hy
      show le (fabs x) (if lt (fabs x) (fabs y) then fabs y else fabs x) = true
      split
      · rename_i h
        simp only [lt, Bool.and_eq_true, decide_eq_true_eq] at h
        exact le_of_key nx ny (by omega)
      · exact F32.le_refl nx
    · have nx : (fabs x).isNaN = false := by rw [isNaN_fabs]; exact hx
      have ny : (fabs y).isNaN = false := by rw [isNaN_fabs]; exact hy
      show le (fabs y) (if lt (fabs x) (fabs y) then fabs y else fabs x) = true
      split
      · exact F32.le_refl ny
      · rename_i h
        rw [Bool.not_eq_true, not_lt_iff nx ny] at h
        exact h
  exact ⟨_, H, (unit_none H _).2 (by decide +kernel)⟩

example : ∃ acos, AcosOk acos ∧ acos one = zero := by
  refine ⟨fun x => if x.isNaN then .nan else if le one x then zero else Angle.pi, ⟨fun x h1 h2 => ?_, by decide⟩, by decide⟩
  have hn : x.isNaN = false := (le_key h2).1
  simp only [hn, Bool.false_eq_true, if_false]
  split <;> decide

/-- **C57** (defect): for an arc of angle zero, and a chord height of at most 2^-25 of the radius, the number of steps is NaN, and its
conversion to an integer is undefined. Used of the C++ library: acos(1) is zero and rounding up NaN gives NaN. -/
theorem C57_steps_counterexample (acos ceil : F32 → F32) (ha : acos one = zero) (hc : ceil .nan = .nan) (r h : F32) (hr : r.isFinite = true)
    (hh : h.isFinite = true) (h0 : 0 < toRat h) (hs : toRat h * 2 ^ 25 ≤ toRat r) : steps acos ceil r zero h = .nan := by
  unfold steps
  rw [arcAngle_zero ha hr hh h0 hs]
  have : fabs (div zero zero) = .nan := by decide
  rw [this, hc]
  decide +kernel

/-- Such a circle: chord height 1 and radius 2^25. -/
example : (ofInt 1).isFinite = true ∧ 0 < toRat (ofInt 1) ∧ toRat (ofInt 1) * 2 ^ 25 ≤ toRat (ofInt (2 ^ 25)) := by decide +kernel

end Verif.VecF
