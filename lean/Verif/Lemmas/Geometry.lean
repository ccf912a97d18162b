import Mathlib.Tactic.Linarith
import Mathlib.Tactic.Ring
import Mathlib.Tactic.FieldSimp
import Mathlib.Tactic.LinearCombination
import Verif.Spec.Geometry

/-!
# Segments, convex sets and their edges
-/

set_option autoImplicit false

namespace Verif.Geo

open Verif.Geo.Spec

variable {K : Type} [Field K] [LinearOrder K] [IsStrictOrderedRing K]

/-! ## Segments -/

theorem onSegment_start (s : Segment K) : OnSegment s.start s := ⟨0, le_refl _, zero_le_one, by ring, by ring⟩

theorem onSegment_stop (s : Segment K) : OnSegment s.stop s := ⟨1, zero_le_one, le_refl _, by ring, by ring⟩

theorem onSegment_degenerate (p q : Pt K) : OnSegment p ⟨q, q⟩ ↔ p = q := by
  constructor
  · rintro ⟨t, -, -, h1, h2⟩
    exact Pt.ext (by linear_combination h1) (by linear_combination h2)
  · intro h; rw [h]; exact onSegment_start (⟨q, q⟩ : Segment K)

theorem onSegment_swap {p a b : Pt K} (h : OnSegment p ⟨a, b⟩) : OnSegment p ⟨b, a⟩ := by
  obtain ⟨t, h0, h1, hx, hy⟩ := h
  simp only at hx hy
  exact ⟨1 - t, by linarith, by linarith, by simp only; linear_combination hx,
    by simp only; linear_combination hy⟩

theorem onSegment_conv {s : Segment K} {p q x : Pt K} (hp : OnSegment p s) (hq : OnSegment q s)
    (hx : OnSegment x ⟨p, q⟩) : OnSegment x s := by
  obtain ⟨a, a0, a1, ax, ay⟩ := hp
  obtain ⟨b, b0, b1, bx, by_⟩ := hq
  obtain ⟨t, t0, t1, tx, ty⟩ := hx
  simp only at tx ty
  refine ⟨a + t * (b - a), ?_, ?_, ?_, ?_⟩
  · have := mul_nonneg t0 b0
    have := mul_nonneg (sub_nonneg.2 t1) a0
    linarith
  · have := mul_nonneg t0 (sub_nonneg.2 b1)
    have := mul_nonneg (sub_nonneg.2 t1) (sub_nonneg.2 a1)
    linarith
  · rw [tx, ax, bx]; ring
  · rw [ty, ay, by_]; ring

theorem dot_self_pos {s : Segment K} (h : s.start ≠ s.stop) : 0 < s.vector.dot s.vector := by
  unfold Segment.vector Pt.sub Pt.dot
  simp only
  by_cases hx : s.stop.x - s.start.x = 0
  · have hy : s.stop.y - s.start.y ≠ 0 := by
      intro hy
      exact h (Pt.ext (by linarith) (by linarith))
    rw [hx]
    have := mul_self_pos.2 hy
    linarith
  · have := mul_self_pos.2 hx
    have := mul_self_nonneg (s.stop.y - s.start.y)
    linarith

theorem project_eq {s : Segment K} (h : s.start ≠ s.stop) (p : Pt K) :
    s.project p = some ((p.sub s.start).dot s.vector / s.vector.dot s.vector) := by
  unfold Segment.project
  rw [if_neg h]
  exact if_neg (not_le.2 (dot_self_pos h))

/-- A point on the line of a segment, by its projection. -/
theorem on_line {s : Segment K} (h : s.start ≠ s.stop) {p : Pt K}
    (hd : (p.sub s.start).det (s.stop.sub s.start) = 0) {t : K} (ht : s.project p = some t) :
    p.x = s.start.x + t * (s.stop.x - s.start.x) ∧ p.y = s.start.y + t * (s.stop.y - s.start.y) := by
  rw [project_eq h] at ht
  cases ht
  have hm := ne_of_gt (dot_self_pos h)
  generalize hn : (p.sub s.start).dot s.vector = n
  generalize hk : s.vector.dot s.vector = m at hm
  unfold Segment.vector Pt.sub Pt.dot at hn hk
  unfold Pt.sub Pt.det at hd
  simp only at hn hk hd
  have e : ∀ d x : K, x * m = n * d → x = n / m * d := by
    intro d x hx
    field_simp
    exact hx
  constructor
  · have := e (s.stop.x - s.start.x) (p.x - s.start.x)
      (by rw [← hn, ← hk]; linear_combination (s.stop.y - s.start.y) * hd)
    linear_combination this
  · have := e (s.stop.y - s.start.y) (p.y - s.start.y)
      (by rw [← hn, ← hk]; linear_combination -(s.stop.x - s.start.x) * hd)
    linear_combination this

/-- The projection of a point given by its parameter. -/
theorem project_of {s : Segment K} (h : s.start ≠ s.stop) {p : Pt K} {t : K}
    (hx : p.x = s.start.x + t * (s.stop.x - s.start.x))
    (hy : p.y = s.start.y + t * (s.stop.y - s.start.y)) : s.project p = some t := by
  rw [project_eq h]
  have hm := ne_of_gt (dot_self_pos h)
  rw [Option.some.injEq, div_eq_iff hm]
  unfold Segment.vector Pt.sub Pt.dot
  simp only
  linear_combination (s.stop.x - s.start.x) * hx + (s.stop.y - s.start.y) * hy

theorem param_unique {s : Segment K} (h : s.start ≠ s.stop) {t u : K}
    (hx : s.start.x + t * (s.stop.x - s.start.x) = s.start.x + u * (s.stop.x - s.start.x))
    (hy : s.start.y + t * (s.stop.y - s.start.y) = s.start.y + u * (s.stop.y - s.start.y)) : t = u := by
  have h1 := project_of h (p := ⟨s.start.x + t * (s.stop.x - s.start.x),
    s.start.y + t * (s.stop.y - s.start.y)⟩) (t := t) rfl rfl
  have h2 := project_of h (p := ⟨s.start.x + t * (s.stop.x - s.start.x),
    s.start.y + t * (s.stop.y - s.start.y)⟩) (t := u) hx hy
  rw [h1] at h2
  exact Option.some.inj h2

/-- intersects_internal.cc:31-41 -/
theorem intersectsPS_iff (p : Pt K) (s : Segment K) : intersectsPS p s = true ↔ OnSegment p s := by
  unfold intersectsPS
  by_cases h : s.start = s.stop
  · rw [if_pos h, decide_eq_true_eq]
    obtain ⟨a, b⟩ := s
    simp only at h
    subst h
    exact (onSegment_degenerate p a).symm
  · rw [if_neg h]
    by_cases hd : (p.sub s.start).det (s.stop.sub s.start) = 0
    · rw [if_neg (not_not.2 hd)]
      have hp := project_eq h p
      set t := (p.sub s.start).dot s.vector / s.vector.dot s.vector with ht
      rw [hp]
      simp only [Bool.and_eq_true, decide_eq_true_eq]
      constructor
      · rintro ⟨h0, h1⟩
        obtain ⟨hx, hy⟩ := on_line h hd hp
        exact ⟨t, h0, h1, hx, hy⟩
      · rintro ⟨u, h0, h1, hx, hy⟩
        have := project_of h hx hy
        rw [hp] at this
        cases this
        exact ⟨h0, h1⟩
    · rw [if_pos hd]
      constructor
      · intro h; cases h
      · rintro ⟨u, h0, h1, hx, hy⟩
        apply absurd _ hd
        unfold Pt.sub Pt.det
        simp only
        rw [hx, hy]; ring

/-- intersects_internal.cc:49-92 -/
theorem intersectsSS_iff (a b : Segment K) :
    intersectsSS a b = true ↔ ∃ p, OnSegment p a ∧ OnSegment p b := by
  unfold intersectsSS
  by_cases h0 : a.start = b.start ∨ a.start = b.stop ∨ a.stop = b.start ∨ a.stop = b.stop
  · rw [if_pos h0]
    simp only [true_iff]
    rcases h0 with h | h | h | h
    · exact ⟨_, onSegment_start a, h ▸ onSegment_start b⟩
    · exact ⟨_, onSegment_start a, h ▸ onSegment_stop b⟩
    · exact ⟨_, onSegment_stop a, h ▸ onSegment_start b⟩
    · exact ⟨_, onSegment_stop a, h ▸ onSegment_stop b⟩
  rw [if_neg h0]
  by_cases ha : a.start = a.stop
  · rw [if_pos ha, intersectsPS_iff]
    obtain ⟨a1, a2⟩ := a
    simp only at ha
    subst ha
    simp only [onSegment_degenerate, exists_eq_left]
  rw [if_neg ha]
  by_cases hb : b.start = b.stop
  · rw [if_pos hb, intersectsPS_iff]
    obtain ⟨b1, b2⟩ := b
    simp only at hb
    subst hb
    simp only [onSegment_degenerate, exists_eq_right]
  rw [if_neg hb]
  simp only
  by_cases hd : a.vector.det b.vector = 0
  · rw [if_pos hd]
    by_cases hc : a.vector.det (b.start.sub a.start) = 0
    · rw [if_pos hc, if_neg (ne_of_gt (dot_self_pos hb))]
      have e1 := project_eq hb a.start
      have e2 := project_eq hb a.stop
      set t1 := (a.start.sub b.start).dot b.vector / b.vector.dot b.vector with ht1
      set t2 := (a.stop.sub b.start).dot b.vector / b.vector.dot b.vector with ht2
      rw [e1, e2]
      simp only [Bool.and_eq_true, Bool.or_eq_true, decide_eq_true_eq]
      -- both ends of `a` are on the line of `b`
      have key : ∀ dx dy ex ey fx fy : K, (dx ≠ 0 ∨ dy ≠ 0) → dx * ey - dy * ex = 0 →
          dx * fy - dy * fx = 0 → ex * fy - ey * fx = 0 := by
        intro dx dy ex ey fx fy hne h1 h2
        rcases hne with h | h
        · apply mul_left_cancel₀ h; linear_combination ex * h2 - fx * h1
        · apply mul_left_cancel₀ h; linear_combination ey * h2 - fy * h1
      have hne : a.stop.x - a.start.x ≠ 0 ∨ a.stop.y - a.start.y ≠ 0 := by
        by_contra hcon
        push Not at hcon
        exact ha (Pt.ext (by linarith [hcon.1]) (by linarith [hcon.2]))
      have hk := key _ _ (b.start.x - a.start.x) (b.start.y - a.start.y)
        (b.stop.x - b.start.x) (b.stop.y - b.start.y) hne
        (by unfold Segment.vector Pt.sub Pt.det at hc; simpa using hc)
        (by unfold Segment.vector Pt.sub Pt.det at hd; simpa using hd)
      have l1 : (a.start.sub b.start).det (b.stop.sub b.start) = 0 := by
        unfold Pt.sub Pt.det; simp only; linear_combination -hk
      have l2 : (a.stop.sub b.start).det (b.stop.sub b.start) = 0 := by
        unfold Segment.vector Pt.sub Pt.det at hd
        unfold Pt.sub Pt.det
        simp only at hd ⊢
        linear_combination hd - hk
      obtain ⟨x1, y1⟩ := on_line hb l1 e1
      obtain ⟨x2, y2⟩ := on_line hb l2 e2
      constructor
      · rintro ⟨g1, g2⟩
        -- a point of both
        have mid : ∀ u s : K, 0 ≤ u → u ≤ 1 → 0 ≤ s → s ≤ 1 → t1 + s * (t2 - t1) = u →
            ∃ p, OnSegment p a ∧ OnSegment p b := by
          intro u s u0 u1 s0 s1 hs
          refine ⟨⟨b.start.x + u * (b.stop.x - b.start.x), b.start.y + u * (b.stop.y - b.start.y)⟩,
            ⟨s, s0, s1, ?_, ?_⟩, ⟨u, u0, u1, rfl, rfl⟩⟩
          · simp only; rw [x1, x2, ← hs]; ring
          · simp only; rw [y1, y2, ← hs]; ring
        by_cases c1 : 0 ≤ t1 ∧ t1 ≤ 1
        · exact mid t1 0 c1.1 c1.2 (le_refl _) zero_le_one (by ring)
        by_cases c2 : 0 ≤ t2 ∧ t2 ≤ 1
        · exact mid t2 1 c2.1 c2.2 zero_le_one (le_refl _) (by ring)
        -- zero is strictly between
        by_cases c3 : t1 < 0
        · have c4 : 0 ≤ t2 := by rcases g1 with h | h; exact absurd h (not_le.2 c3); exact h
          have c5 : 0 < t2 - t1 := by linarith
          refine mid 0 (-t1 / (t2 - t1)) (le_refl _) zero_le_one (div_nonneg (by linarith) c5.le)
            ((div_le_one c5).2 (by linarith)) ?_
          rw [div_mul_cancel₀ _ (ne_of_gt c5)]; ring
        · have c4 : 1 < t1 := by
            by_contra hcon
            exact c1 ⟨not_lt.1 c3, not_lt.1 hcon⟩
          have c5 : t2 < 0 := by
            rcases g2 with h | h
            · exact absurd h (not_le.2 c4)
            · by_contra hcon
              exact c2 ⟨not_lt.1 hcon, h⟩
          have c6 : 0 < t1 - t2 := by linarith
          refine mid 0 (t1 / (t1 - t2)) (le_refl _) zero_le_one (div_nonneg (by linarith) c6.le)
            ((div_le_one c6).2 (by linarith)) ?_
          have : t1 / (t1 - t2) * (t2 - t1) = -t1 := by
            rw [show t2 - t1 = -(t1 - t2) by ring, mul_neg, div_mul_cancel₀ _ (ne_of_gt c6)]
          rw [this]; ring
      · rintro ⟨p, ⟨s, s0, s1, sx, sy⟩, u, u0, u1, ux, uy⟩
        have hu : t1 + s * (t2 - t1) = u := by
          apply param_unique hb
          · rw [← ux, sx, x1, x2]; ring
          · rw [← uy, sy, y1, y2]; ring
        constructor
        · by_contra hcon
          push Not at hcon
          have := mul_nonneg s0 (sub_nonneg.2 hcon.2.le)
          have h1 : (1 - s) * t1 + s * t2 = u := by linear_combination hu
          rcases lt_or_eq_of_le s0 with hs | hs
          · have := mul_neg_of_pos_of_neg hs hcon.2
            have := mul_nonpos_of_nonneg_of_nonpos (sub_nonneg.2 s1) hcon.1.le
            linarith
          · rw [← hs] at h1; linarith [hcon.1]
        · by_contra hcon
          push Not at hcon
          have h1 : (1 - s) * (t1 - 1) + s * (t2 - 1) = u - 1 := by linear_combination hu
          rcases lt_or_eq_of_le s0 with hs | hs
          · have := mul_pos hs (sub_pos.2 hcon.2)
            have := mul_nonneg (sub_nonneg.2 s1) (sub_pos.2 hcon.1).le
            linarith
          · rw [← hs] at h1; linarith [hcon.1]
    · rw [if_neg hc]
      constructor
      · intro h; cases h
      · rintro ⟨p, ⟨s, s0, s1, sx, sy⟩, u, u0, u1, ux, uy⟩
        apply absurd _ hc
        unfold Segment.vector Pt.sub Pt.det at hd ⊢
        simp only at hd ⊢
        linear_combination (a.stop.x - a.start.x) * (sy - uy) - (a.stop.y - a.start.y) * (sx - ux)
          - u * hd
  · rw [if_neg hd]
    simp only [Bool.and_eq_true, decide_eq_true_eq]
    set D := a.vector.det b.vector with hD
    set v1 := a.vector.det (b.start.sub a.start) with hv1
    set v2 := a.vector.det (b.stop.sub a.start) with hv2
    set v3 := b.vector.det (a.start.sub b.start) with hv3
    set v4 := b.vector.det (a.stop.sub b.start) with hv4
    have e1 : v2 - v1 = D := by
      rw [hv1, hv2, hD]; unfold Segment.vector Pt.sub Pt.det; simp only; ring
    have e2 : v3 - v4 = D := by
      rw [hv3, hv4, hD]; unfold Segment.vector Pt.sub Pt.det; simp only; ring
    have sgn : ∀ x y d : K, d ≠ 0 → y - x = d → x * y ≤ 0 → 0 ≤ -x / d ∧ -x / d ≤ 1 := by
      intro x y d hd0 h1 h2
      rcases lt_or_gt_of_ne hd0 with h | h
      · have hx : 0 ≤ x := by
          by_contra hcon
          have hx := not_le.1 hcon
          have : y < 0 := by linarith
          have := mul_pos_of_neg_of_neg hx this
          linarith
        have hy : y ≤ 0 := by
          by_contra hcon
          have hy := not_le.1 hcon
          have : 0 < x := by linarith
          have := mul_pos this hy
          linarith
        exact ⟨div_nonneg_of_nonpos (by linarith) h.le, by rw [div_le_one_of_neg h]; linarith⟩
      · have hx : x ≤ 0 := by
          by_contra hcon
          have hx := not_le.1 hcon
          have : 0 < y := by linarith
          have := mul_pos hx this
          linarith
        have hy : 0 ≤ y := by
          by_contra hcon
          have hy := not_le.1 hcon
          have : x < 0 := by linarith
          have := mul_pos_of_neg_of_neg this hy
          linarith
        exact ⟨div_nonneg (by linarith) h.le, by rw [div_le_one h]; linarith⟩
    constructor
    · rintro ⟨g1, g2⟩
      obtain ⟨u0, u1⟩ := sgn v1 v2 D hd e1 g1
      obtain ⟨s0, s1⟩ := sgn v3 v4 (-D) (neg_ne_zero.2 hd) (by linarith) g2
      have cr : ∀ n w x y : K, y * D = x * D + n * w → y = x + n / D * w := by
        intro n w x y h
        field_simp
        linear_combination h
      refine ⟨⟨b.start.x + -v1 / D * (b.stop.x - b.start.x),
        b.start.y + -v1 / D * (b.stop.y - b.start.y)⟩, ⟨-v3 / -D, s0, s1, ?_, ?_⟩,
        ⟨_, u0, u1, rfl, rfl⟩⟩
      · simp only
        rw [neg_div_neg_eq]
        apply cr
        have : (b.start.x + -v1 / D * (b.stop.x - b.start.x)) * D =
            b.start.x * D + -v1 * (b.stop.x - b.start.x) := by field_simp
        rw [this, hv1, hv3, hD]
        unfold Segment.vector Pt.sub Pt.det; simp only; ring
      · simp only
        rw [neg_div_neg_eq]
        apply cr
        have : (b.start.y + -v1 / D * (b.stop.y - b.start.y)) * D =
            b.start.y * D + -v1 * (b.stop.y - b.start.y) := by field_simp
        rw [this, hv1, hv3, hD]
        unfold Segment.vector Pt.sub Pt.det; simp only; ring
    · rintro ⟨p, ⟨s, s0, s1, sx, sy⟩, u, u0, u1, ux, uy⟩
      have k1 : v1 = -u * D := by
        rw [hv1, hD]; unfold Segment.vector Pt.sub Pt.det; simp only
        linear_combination (a.stop.x - a.start.x) * (sy - uy) - (a.stop.y - a.start.y) * (sx - ux)
      have k3 : v3 = s * D := by
        rw [hv3, hD]; unfold Segment.vector Pt.sub Pt.det; simp only
        linear_combination (b.stop.x - b.start.x) * (uy - sy) - (b.stop.y - b.start.y) * (ux - sx)
      have k2 : v2 = (1 - u) * D := by linear_combination e1 + k1
      have k4 : v4 = -(1 - s) * D := by linear_combination k3 - e2
      have hDD := mul_self_nonneg D
      constructor
      · rw [k1, k2]
        have := mul_nonneg (mul_nonneg u0 (sub_nonneg.2 u1)) hDD
        linarith
      · rw [k3, k4]
        have := mul_nonneg (mul_nonneg s0 (sub_nonneg.2 s1)) hDD
        linarith

end Verif.Geo
