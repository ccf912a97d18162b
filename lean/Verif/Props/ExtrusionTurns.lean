import Verif.Lemmas.ExtrusionTurns
import Verif.Props.ExtrusionPoints

/-!
# C69: the turns of an outline
-/

set_option autoImplicit false

namespace Verif.RealGeom

open Spec Real TipShape

theorem radius_nonneg {s : TipState} {m : ℝ} {t : TipShape} (h : TipShape.make s m = some t) : ∀ c ∈ t.circles, 0 ≤ c.radius := by
  obtain ⟨-, -, -, r, hr, hr0, -⟩ := (C65_make _ _).2 _ h
  intro c hc
  rw [hr c hc]; exact hr0

/-- The points of a turn are added to those that are there, and all of them are within what the tip covers on its way from the first
position to the second or from the second to the third. -/
theorem C69_inside (s1 s2 s3 : TipState) (m1 m2 m3 h : ℝ) (t1 t2 t3 : TipShape) (points new : ExtrusionPoints)
    (h1 : TipShape.make s1 m1 = some t1) (h2 : TipShape.make s2 m2 = some t2) (h3 : TipShape.make s3 m3 = some t3)
    (ht : appendTurn t1 t2 t3 h points = some new) :
    ∃ l r, new = ⟨points.left ++ l, points.right ++ r⟩ ∧ ∀ p, p ∈ l ∨ p ∈ r →
      p ∈ convexHull ℝ (region t1 ∪ region t2) ∨ p ∈ convexHull ℝ (region t2 ∪ region t3) := by
  obtain ⟨l, r, e, hl, hr⟩ := turn_inside (radius_nonneg h1) (radius_nonneg h2) (radius_nonneg h3)
    (S := convexHull ℝ (region t1 ∪ region t2) ∪ convexHull ℝ (region t2 ∪ region t3)) (by rw [hull_union]; exact Set.subset_union_left)
    (by rw [hull_union]; exact Set.subset_union_right) ht
  exact ⟨l, r, e, fun p hp => hp.elim (hl p) (hr p)⟩

/-- A round tip of the same size at three positions. Where the way turns to the left, the left side has the crossing of its two tangents, or
their two ends in the middle if they do not cross, and the right side follows the circle from the end of the first tangent to the start of
the second. A turn to the right is the same with the sides exchanged. At a full turn back both sides follow half of the circle, and where
the way is straight, or nearly so, each side has one point. Missing: circles that need more points than the limit. -/
theorem C69_round_partial (s1 s2 s3 : TipState) (m1 m2 m3 h δ α β : ℝ) (t1 t2 t3 : TipShape) (a b c : Circle) (points : ExtrusionPoints)
    (_h1 : TipShape.make s1 m1 = some t1) (h2 : TipShape.make s2 m2 = some t2) (_h3 : TipShape.make s3 m3 = some t3)
    (ha : t1.circles = [a]) (hb : t2.circles = [b]) (hc : t3.circles = [c]) (hab : a.radius = b.radius) (hbc : b.radius = c.radius)
    (nab : a.center ≠ b.center) (nbc : b.center ≠ c.center) (hh : 0 < h) (hbig : NotHuge h [b])
    (hα : α = Complex.arg (b.center - a.center)) (hβ : β = Complex.arg (c.center - b.center))
    (hδ : δ = Complex.arg ((c.center - b.center) / (b.center - a.center))) :
    ∃ l r, appendTurn t1 t2 t3 h points = some ⟨points.left ++ l, points.right ++ r⟩ ∧
      (b.radius = 0 → l = [b.center] ∧ r = [b.center]) ∧
      (0 < b.radius → (|δ| < collinear → l = [b.getPoint (β + π / 2)] ∧ r = [b.getPoint (β - π / 2)]) ∧
        (collinear ≤ δ → δ < π →
          Crossing (a.getPoint (α + π / 2)) (b.getPoint (α + π / 2)) (b.getPoint (β + π / 2)) (c.getPoint (β + π / 2)) l ∧
            FollowsArc b (α - π / 2) δ h r) ∧
        (δ ≤ -collinear → FollowsArc b (α + π / 2) δ h l ∧
          Crossing (a.getPoint (α - π / 2)) (b.getPoint (α - π / 2)) (b.getPoint (β - π / 2)) (c.getPoint (β - π / 2)) r) ∧
        (δ = π → FollowsArc b (α + π / 2) (-π) h l ∧ FollowsArc b (α - π / 2) π h r)) := by
  subst hα hβ
  have hr : 0 ≤ b.radius := radius_nonneg h2 b (by rw [hb]; simp)
  rcases hr.eq_or_lt with h0 | hpos
  · refine ⟨[b.center], [b.center], single_turn ha hb hc hab hbc nab nbc points ?_ ?_, fun _ => ⟨rfl, rfl⟩, fun g => absurd g (by rw [← h0]; exact lt_irrefl _)⟩
    · rw [appendLeftTurns, if_pos h0.symm, appendLeftTurns]
      intro a' b' c' cs' g; simp at g
    · rw [appendRightTurns, if_pos h0.symm, appendRightTurns]
      intro a' b' c' cs' g; simp at g
  · obtain ⟨l, r, hl, hr', ht⟩ := equal_turn hab hbc nab nbc hδ hpos hh (hbig b (by simp)) points.left points.right
    refine ⟨l, r, single_turn ha hb hc hab hbc nab nbc points ?_ ?_, fun g => absurd g hpos.ne', fun _ => ⟨ht.straight, ht.left, ht.right, ht.back⟩⟩
    · rw [appendLeftTurns, if_neg hpos.ne', hl]
      dsimp only
      rw [appendLeftTurns]
      intro a' b' c' cs' g; simp at g
    · rw [appendRightTurns, if_neg hpos.ne', hr']
      dsimp only
      rw [appendRightTurns]
      intro a' b' c' cs' g; simp at g

theorem dot_make (p : ℂ) : TipShape.make ⟨p, 2, 2, 1, 0, 0, 0⟩ (1 / 10) = some ⟨p, [⟨p, 1⟩]⟩ := by
  unfold TipShape.make makeShapeControlCircles calculateCircleRadius
  rw [show max (1 / 10 : ℝ) floatMin = 1 / 10 by unfold floatMin; norm_num]
  norm_num

/-- A round tip that turns to the left, by a right angle: the tangents on the left cross. -/
example (points : ExtrusionPoints) : ∃ r, appendTurn ⟨0, [⟨0, 1⟩]⟩ ⟨4, [⟨4, 1⟩]⟩ ⟨4 + 4 * Complex.I, [⟨4 + 4 * Complex.I, 1⟩]⟩ (1 / 100) points =
    some ⟨points.left ++ [3 + Complex.I], points.right ++ r⟩ ∧ FollowsArc ⟨4, 1⟩ (-(π / 2)) (π / 2) (1 / 100) r := by
  have hpi := Real.pi_gt_three
  have tv : collinear = 1 / 100000 := rfl
  have a1 : Complex.arg (4 - 0) = 0 := by
    rw [sub_zero, show (4 : ℂ) = ((4 : ℝ) : ℂ) by norm_num]; exact Complex.arg_ofReal_of_nonneg (by norm_num)
  have a2 : Complex.arg (4 + 4 * Complex.I - 4) = π / 2 := by
    rw [show (4 : ℂ) + 4 * Complex.I - 4 = ((4 : ℝ) : ℂ) * Complex.I by push_cast; ring, Complex.arg_real_mul _ (by norm_num), Complex.arg_I]
  have a3 : Complex.arg ((4 + 4 * Complex.I - 4) / (4 - 0)) = π / 2 := by
    rw [show ((4 : ℂ) + 4 * Complex.I - 4) / (4 - 0) = Complex.I by field_simp; ring, Complex.arg_I]
  obtain ⟨l, r, e, -, h⟩ := C69_round_partial ⟨0, 2, 2, 1, 0, 0, 0⟩ ⟨4, 2, 2, 1, 0, 0, 0⟩ ⟨4 + 4 * Complex.I, 2, 2, 1, 0, 0, 0⟩ (1 / 10) (1 / 10) (1 / 10)
    (1 / 100) (π / 2) 0 (π / 2) _ _ _ ⟨0, 1⟩ ⟨4, 1⟩ ⟨4 + 4 * Complex.I, 1⟩ points (dot_make 0) (dot_make 4) (dot_make _) rfl rfl rfl rfl rfl
    (by simp) (by simp [Complex.I_ne_zero]) (by norm_num) (by intro c hc; rw [List.mem_singleton] at hc; subst hc; norm_num) a1.symm a2.symm a3.symm
  obtain ⟨h1, h2⟩ := (h one_pos).2.1 (by linarith) (by linarith)
  refine ⟨r, ?_, by rwa [zero_sub] at h2⟩
  rw [e]
  have g : ∀ p : ℂ, (⟨p, 1⟩ : Circle).getPoint (0 + π / 2) = p + Complex.I ∧ (⟨p, 1⟩ : Circle).getPoint (π / 2 + π / 2) = p - 1 := by
    intro p
    rw [zero_add, add_halves]
    unfold Circle.getPoint Vec.fromDirectionAndMagnitude
    dsimp only
    constructor
    · congr 1; apply Complex.ext <;> simp
    · rw [sub_eq_add_neg]; congr 1; apply Complex.ext <;> simp
  rw [(g 0).1, (g 4).1, (g 4).2, (g _).2] at h1
  rcases h1 with ⟨z, ⟨t, t0, t1, e1⟩, ⟨s, s0, s1, e2⟩, rfl⟩ | ⟨hno, -⟩
  · have : z = 3 + Complex.I := by
      apply Complex.ext
      · rw [e2]; norm_num
      · rw [e1]; norm_num
    rw [this]
  · refine absurd ⟨⟨3 / 4, by norm_num, by norm_num, ?_⟩, ⟨1 / 4, by norm_num, by norm_num, ?_⟩⟩ (hno (3 + Complex.I))
    · push_cast; ring
    · push_cast; ring

end Verif.RealGeom
