import Verif.Spec.RoundedPolygon
import Verif.Lemmas.BrushTipShape
import Mathlib.Analysis.Convex.Caratheodory
import Mathlib.Analysis.Convex.Join
import Mathlib.Analysis.SpecialFunctions.Trigonometric.Deriv
import Mathlib.Analysis.Calculus.LocalExtr.Basic
import Mathlib.LinearAlgebra.Complex.FiniteDimensional
import Mathlib.LinearAlgebra.AffineSpace.FiniteDimensional

/-!
# Lemmas about rounded polygons
-/

set_option autoImplicit false

namespace Verif.RealGeom

open Spec Real

/-! ## Coordinates -/

theorem along_point (φ ψ : ℝ) (c : Circle) : along φ (c.getPoint ψ) = along φ c.center + c.radius * Real.cos (ψ - φ) := by
  unfold Circle.getPoint
  rw [along_add]
  congr 1
  unfold along Vec.fromDirectionAndMagnitude
  rw [Real.cos_sub]; ring

theorem SameAngle.along {a b : ℝ} (h : SameAngle a b) (p : ℂ) : along a p = along b p := by
  unfold Spec.along; rw [SameAngle.cos h, SameAngle.sin h]

theorem SameAngle.getPoint {a b : ℝ} (h : SameAngle a b) (c : Circle) : c.getPoint a = c.getPoint b := by
  unfold Circle.getPoint Vec.fromDirectionAndMagnitude; rw [SameAngle.cos h, SameAngle.sin h]

/-- The coordinate on the tangent, in the direction of travel. -/
noncomputable def across (θ : ℝ) (p : ℂ) : ℝ := Real.cos θ * p.im - Real.sin θ * p.re

theorem across_sub (θ : ℝ) (p q : ℂ) : across θ (p - q) = across θ p - across θ q := by
  unfold across; rw [Complex.sub_re, Complex.sub_im]; ring

theorem along_change (a φ : ℝ) (v : ℂ) : along φ v = Real.cos (a - φ) * along a v - Real.sin (a - φ) * across a v := by
  have h := Real.sin_sq_add_cos_sq a
  unfold along across
  rw [Real.cos_sub, Real.sin_sub]
  linear_combination (-(Real.cos φ * v.re) - Real.sin φ * v.im) * h

theorem rightTangent_iff (c d : Circle) (a : ℝ) : RightTangent c d a ↔
    along a (d.center - c.center) = c.radius - d.radius ∧ 0 < across a (d.center - c.center) := by
  unfold RightTangent
  rw [tangent_iff]
  unfold ToTheRight across
  constructor <;> rintro ⟨h1, h2⟩ <;> exact ⟨h1, by linarith⟩

/-- From the end of an arc to the start of the next one. -/
theorem along_step {c d : Circle} {a : ℝ} (h : RightTangent c d a) (φ : ℝ) :
    along φ (d.getPoint a) = along φ (c.getPoint a) - Real.sin (a - φ) * across a (d.center - c.center) := by
  rw [rightTangent_iff] at h
  have := along_change a φ (d.center - c.center)
  rw [h.1, along_sub] at this
  rw [along_point, along_point]
  linarith

/-! ## Tours -/

/-- A tour of circles, again and again. -/
structure Tour (n : ℕ) (C : ℕ → Circle) (Θ : ℕ → ℝ) : Prop where
  pos : 0 < n
  perC : ∀ j, C (j + n) = C j
  per : ∀ j, Θ (j + n) = Θ j + 2 * π
  mono : ∀ j, Θ j ≤ Θ (j + 1)
  tan : ∀ j, RightTangent (C j) (C (j + 1)) (Θ (j + 1))
  rad : ∀ j, 0 ≤ (C j).radius

section
variable {n : ℕ} {C : ℕ → Circle} {Θ : ℕ → ℝ}

theorem Tour.le (T : Tour n C Θ) {i j : ℕ} (h : i ≤ j) : Θ i ≤ Θ j := monotone_nat_of_le_succ T.mono h

theorem Tour.forward (T : Tour n C Θ) {i : ℕ} {φ : ℝ} (h2 : φ ≤ Θ (i + 1)) (m : ℕ) : ∀ ψ, φ ≤ ψ → ψ ≤ φ + π →
    Θ (i + m) ≤ ψ → ψ ≤ Θ (i + m + 1) → along φ ((C (i + m)).getPoint ψ) ≤ along φ ((C i).getPoint φ) := by
  induction m with
  | zero =>
    intro ψ _ _ _ _
    rw [Nat.add_zero, along_point, along_point, sub_self, Real.cos_zero]
    have := mul_le_mul_of_nonneg_left (Real.cos_le_one (ψ - φ)) (T.rad i)
    linarith
  | succ m ih =>
    intro ψ p1 p2 p3 p4
    have ha : φ ≤ Θ (i + m + 1) := h2.trans (T.le (by omega))
    have p3' : Θ (i + m + 1) ≤ ψ := p3
    have h := ih (Θ (i + m + 1)) ha (by linarith) (T.mono _) (le_refl _)
    have hs := along_step (T.tan (i + m)) φ
    have hpos := ((rightTangent_iff _ _ _).1 (T.tan (i + m))).2
    have hsin := Real.sin_nonneg_of_nonneg_of_le_pi (x := Θ (i + m + 1) - φ) (by linarith) (by linarith)
    have := mul_nonneg hsin hpos.le
    have hc : Real.cos (ψ - φ) ≤ Real.cos (Θ (i + m + 1) - φ) :=
      Real.cos_le_cos_of_nonneg_of_le_pi (by linarith) (by linarith) (by linarith)
    have hc' := mul_le_mul_of_nonneg_left hc (T.rad (i + m + 1))
    have e : i + (m + 1) = i + m + 1 := rfl
    rw [e]
    have q := along_point φ ψ (C (i + m + 1))
    have q' := along_point φ (Θ (i + m + 1)) (C (i + m + 1))
    linarith

theorem Tour.backward (T : Tour n C Θ) {i : ℕ} {φ : ℝ} (h1 : Θ i ≤ φ) (h2 : φ ≤ Θ (i + 1)) (m : ℕ) : ∀ j ψ, j + m = i → ψ ≤ φ →
    φ - π ≤ ψ → Θ j ≤ ψ → ψ ≤ Θ (j + 1) → along φ ((C j).getPoint ψ) ≤ along φ ((C i).getPoint φ) := by
  induction m with
  | zero =>
    intro j ψ e _ _ _ _
    subst e
    rw [Nat.add_zero, along_point, along_point, sub_self, Real.cos_zero]
    have := mul_le_mul_of_nonneg_left (Real.cos_le_one (ψ - φ)) (T.rad j)
    linarith
  | succ m ih =>
    intro j ψ e p1 p2 p3 p4
    have ha : Θ (j + 1) ≤ φ := (T.le (by omega : j + 1 ≤ i)).trans h1
    have h := ih (j + 1) (Θ (j + 1)) (by omega) ha (by linarith) (le_refl _) (T.mono _)
    have hs := along_step (T.tan j) φ
    have hpos := ((rightTangent_iff _ _ _).1 (T.tan j)).2
    have hsin := Real.sin_nonpos_of_nonpos_of_neg_pi_le (x := Θ (j + 1) - φ) (by linarith) (by linarith)
    have := mul_nonpos_of_nonpos_of_nonneg hsin hpos.le
    have hc : Real.cos (φ - ψ) ≤ Real.cos (φ - Θ (j + 1)) :=
      Real.cos_le_cos_of_nonneg_of_le_pi (by linarith) (by linarith) (by linarith)
    rw [← Real.cos_neg, neg_sub, ← Real.cos_neg (φ - Θ (j + 1)), neg_sub] at hc
    have hc' := mul_le_mul_of_nonneg_left hc (T.rad j)
    have q := along_point φ ψ (C j)
    have q' := along_point φ (Θ (j + 1)) (C j)
    linarith

/-- The point of the boundary at an angle is the farthest one in its direction. -/
theorem Tour.support (T : Tour n C Θ) {i j : ℕ} {φ ψ : ℝ} (hi : i < n) (hj : j < n) (h1 : Θ i ≤ φ) (h2 : φ ≤ Θ (i + 1)) (p1 : Θ j ≤ ψ)
    (p2 : ψ ≤ Θ (j + 1)) : along φ ((C j).getPoint ψ) ≤ along φ (C i).center + (C i).radius := by
  rw [← along_getPoint]
  have hpi := Real.pi_pos
  have hn : Θ n = Θ 0 + 2 * π := by have := T.per 0; rwa [zero_add] at this
  have a1 : Θ 0 ≤ φ := (T.le (Nat.zero_le i)).trans h1
  have a2 : φ ≤ Θ n := h2.trans (T.le (by omega))
  have b1 : Θ 0 ≤ ψ := (T.le (Nat.zero_le j)).trans p1
  have b2 : ψ ≤ Θ n := p2.trans (T.le (by omega))
  have fw : i ≤ j → φ ≤ ψ → ψ ≤ φ + π → along φ ((C j).getPoint ψ) ≤ along φ ((C i).getPoint φ) := by
    intro hij g1 g2
    obtain ⟨m, rfl⟩ := Nat.exists_eq_add_of_le hij
    exact T.forward h2 m ψ g1 g2 p1 p2
  have bw : j ≤ i → ψ ≤ φ → φ - π ≤ ψ → along φ ((C j).getPoint ψ) ≤ along φ ((C i).getPoint φ) := by
    intro hij g1 g2
    obtain ⟨m, rfl⟩ := Nat.exists_eq_add_of_le hij
    exact T.backward h1 h2 m j ψ rfl g1 g2 p1 p2
  have same : ∀ x : ℝ, SameAngle (x + 2 * π) x := fun x => ⟨1, by push_cast; ring⟩
  rcases le_total φ ψ with g | g
  · rcases le_total ψ (φ + π) with g' | g'
    · rcases le_total i j with hij | hij
      · exact fw hij g g'
      · rcases hij.lt_or_eq with hl | hl
        · have : ψ ≤ φ := p2.trans ((T.le (by omega : j + 1 ≤ i)).trans h1)
          exact bw hij this (by linarith)
        · exact fw hl.ge g g'
    · obtain ⟨m, hm⟩ := Nat.exists_eq_add_of_le (by omega : j ≤ i + n)
      have := T.backward (i := i + n) (φ := φ + 2 * π) (by rw [T.per]; linarith)
        (by rw [show i + n + 1 = i + 1 + n by omega, T.per]; linarith) m j ψ hm.symm (by linarith) (by linarith) p1 p2
      rw [SameAngle.along (same φ), SameAngle.along (same φ), SameAngle.getPoint (same φ), T.perC] at this
      exact this
  · rcases le_total (φ - π) ψ with g' | g'
    · rcases le_total j i with hij | hij
      · exact bw hij g g'
      · rcases hij.lt_or_eq with hl | hl
        · have : φ ≤ ψ := h2.trans ((T.le (by omega : i + 1 ≤ j)).trans p1)
          exact fw hij this (by linarith)
        · exact bw hl.ge g g'
    · obtain ⟨m, hm⟩ := Nat.exists_eq_add_of_le (by omega : i ≤ j + n)
      have := T.forward h2 m (ψ + 2 * π) (by linarith) (by linarith) (by rw [← hm, T.per]; linarith)
        (by rw [← hm, show j + n + 1 = j + 1 + n by omega, T.per]; linarith)
      rw [← hm, T.perC, SameAngle.getPoint (same ψ)] at this
      exact this

/-- Each direction is one of an arc. -/
theorem Tour.cover (T : Tour n C Θ) (α : ℝ) : ∃ i φ, i < n ∧ Θ i ≤ φ ∧ φ ≤ Θ (i + 1) ∧ SameAngle α φ := by
  obtain ⟨u, u1, u2, u3⟩ := exists_turn (Θ 0) α
  have hn : Θ n = Θ 0 + 2 * π := by have := T.per 0; rwa [zero_add] at this
  have key : ∀ m, m ≤ n → Θ 0 + u ≤ Θ m → 0 < m → ∃ i, i < m ∧ Θ i ≤ Θ 0 + u ∧ Θ 0 + u ≤ Θ (i + 1) := by
    intro m
    induction m with
    | zero => intro _ _ h; omega
    | succ m ih =>
      intro hm hle _
      by_cases h : Θ m ≤ Θ 0 + u
      · exact ⟨m, by omega, h, hle⟩
      · rcases Nat.eq_zero_or_pos m with rfl | h0
        · exact absurd (by linarith) h
        · obtain ⟨i, i1, i2⟩ := ih (by omega) (not_le.1 h).le h0
          exact ⟨i, by omega, i2⟩
  obtain ⟨i, i1, i2, i3⟩ := key n (le_refl _) (by linarith) T.pos
  exact ⟨i, Θ 0 + u, i1, i2, i3, u3⟩

/-! ## The hull of a compact set -/

theorem compact_join {s t : Set ℂ} (hs : IsCompact s) (ht : IsCompact t) : IsCompact (convexJoin ℝ s t) := by
  have e : convexJoin ℝ s t = (fun x : (ℂ × ℂ) × ℝ => x.1.1 + x.2 • (x.1.2 - x.1.1)) '' ((s ×ˢ t) ×ˢ Set.Icc 0 1) := by
    ext z
    rw [mem_convexJoin]
    constructor
    · rintro ⟨a, ha, b, hb, h⟩
      rw [segment_eq_image'] at h
      obtain ⟨u, hu, rfl⟩ := h
      exact ⟨((a, b), u), ⟨⟨ha, hb⟩, hu⟩, rfl⟩
    · rintro ⟨⟨⟨a, b⟩, u⟩, ⟨⟨ha, hb⟩, hu⟩, rfl⟩
      refine ⟨a, ha, b, hb, ?_⟩
      rw [segment_eq_image']
      exact ⟨u, hu, rfl⟩
  rw [e]
  exact ((hs.prod ht).prod isCompact_Icc).image (by fun_prop)

theorem compact_hull {s : Set ℂ} (hs : IsCompact s) : IsCompact (convexHull ℝ s) := by
  have e : convexHull ℝ s = convexJoin ℝ s (convexJoin ℝ s s) := by
    apply Set.Subset.antisymm
    · have one : ∀ x ∈ s, x ∈ convexJoin ℝ s s := fun x hx => mem_convexJoin.2 ⟨x, hx, x, hx, left_mem_segment ℝ x x⟩
      rw [convexHull_eq_union]
      intro z hz
      simp only [Set.mem_iUnion, exists_prop] at hz
      obtain ⟨t, ht, hind, hz⟩ := hz
      have hcard : t.card ≤ 3 := by
        have h1 := hind.card_le_finrank_succ
        have h2 := Submodule.finrank_le (vectorSpan ℝ (Set.range ((↑) : t → ℂ)))
        rw [Complex.finrank_real_complex] at h2
        rw [Fintype.card_coe] at h1
        omega
      have hpos : t.card ≠ 0 := by
        intro h
        rw [Finset.card_eq_zero] at h
        subst h
        simp at hz
      obtain h | h | h : t.card = 1 ∨ t.card = 2 ∨ t.card = 3 := by omega
      · obtain ⟨a, rfl⟩ := Finset.card_eq_one.1 h
        rw [Finset.coe_singleton, convexHull_singleton, Set.mem_singleton_iff] at hz
        have ha : a ∈ s := ht (by simp)
        subst hz
        exact mem_convexJoin.2 ⟨z, ha, z, one z ha, left_mem_segment ℝ z z⟩
      · obtain ⟨a, b, -, rfl⟩ := Finset.card_eq_two.1 h
        have ha : a ∈ s := ht (by simp)
        have hb : b ∈ s := ht (by simp)
        rw [Finset.coe_pair, convexHull_pair] at hz
        exact mem_convexJoin.2 ⟨a, ha, b, one b hb, hz⟩
      · obtain ⟨a, b, c, -, -, -, rfl⟩ := Finset.card_eq_three.1 h
        have ha : a ∈ s := ht (by simp)
        have hb : b ∈ s := ht (by simp)
        have hc : c ∈ s := ht (by simp)
        rw [Finset.coe_insert, Finset.coe_pair, convexHull_insert (Set.insert_nonempty _ _), convexHull_pair, mem_convexJoin] at hz
        obtain ⟨x, hx, y, hy, hxy⟩ := hz
        rw [Set.mem_singleton_iff] at hx
        subst hx
        exact mem_convexJoin.2 ⟨x, ha, y, mem_convexJoin.2 ⟨b, hb, c, hc, hy⟩, hxy⟩
    · have hj : convexJoin ℝ s s ⊆ convexHull ℝ s := by
        intro z hz
        obtain ⟨a, ha, b, hb, h⟩ := mem_convexJoin.1 hz
        exact (convex_convexHull ℝ s).segment_subset (subset_convexHull ℝ s ha) (subset_convexHull ℝ s hb) h
      intro z hz
      obtain ⟨a, ha, b, hb, h⟩ := mem_convexJoin.1 hz
      exact (convex_convexHull ℝ s).segment_subset (subset_convexHull ℝ s ha) (hj hb) h
  rw [e]
  exact compact_join hs (compact_join hs hs)

/-! ## Regions -/

/-- The boundary of a tour. -/
def Tour.bd (n : ℕ) (C : ℕ → Circle) (Θ : ℕ → ℝ) : Set ℂ :=
  {z | ∃ i < n, (∃ φ, Θ i ≤ φ ∧ φ ≤ Θ (i + 1) ∧ z = (C i).getPoint φ) ∨
    OnSegment ((C i).getPoint (Θ (i + 1))) ((C (i + 1)).getPoint (Θ (i + 1))) z}

theorem getPoint_continuous (c : Circle) : Continuous c.getPoint := by
  have e : c.getPoint = fun a : ℝ => c.center + c.radius * (Complex.cos a + Complex.sin a * Complex.I) := by
    funext a; exact getPoint_eq c a
  rw [e]
  fun_prop

theorem Tour.compact (n : ℕ) (C : ℕ → Circle) (Θ : ℕ → ℝ) : IsCompact (Tour.bd n C Θ) := by
  have e : Tour.bd n C Θ = ⋃ i ∈ Set.Iio n, ((C i).getPoint '' Set.Icc (Θ i) (Θ (i + 1)) ∪
      (fun t : ℝ => (C i).getPoint (Θ (i + 1)) + t * ((C (i + 1)).getPoint (Θ (i + 1)) - (C i).getPoint (Θ (i + 1)))) '' Set.Icc 0 1) := by
    ext z
    simp only [Tour.bd, Set.mem_ofPred_eq, Set.mem_iUnion, Set.mem_Iio, Set.mem_union, Set.mem_image, Set.mem_Icc, exists_prop]
    refine exists_congr fun i => and_congr_right fun _ => or_congr ?_ ?_
    · exact ⟨fun ⟨φ, h1, h2, h3⟩ => ⟨φ, ⟨h1, h2⟩, h3.symm⟩, fun ⟨φ, ⟨h1, h2⟩, h3⟩ => ⟨φ, h1, h2, h3.symm⟩⟩
    · exact ⟨fun ⟨φ, h1, h2, h3⟩ => ⟨φ, ⟨h1, h2⟩, h3.symm⟩, fun ⟨φ, ⟨h1, h2⟩, h3⟩ => ⟨φ, h1, h2, h3.symm⟩⟩
  rw [e]
  refine (Set.finite_Iio n).isCompact_biUnion fun i _ => IsCompact.union ?_ ?_
  · exact isCompact_Icc.image (getPoint_continuous _)
  · exact isCompact_Icc.image (by fun_prop)

theorem Tour.bd_le (T : Tour n C Θ) {i : ℕ} {φ : ℝ} (hi : i < n) (h1 : Θ i ≤ φ) (h2 : φ ≤ Θ (i + 1)) {z : ℂ}
    (hz : z ∈ convexHull ℝ (Tour.bd n C Θ)) : along φ z ≤ along φ (C i).center + (C i).radius := by
  have hsub : convexHull ℝ (Tour.bd n C Θ) ⊆ {z | along φ z ≤ along φ (C i).center + (C i).radius} := by
    refine convexHull_min ?_ (convex_along_le _ _)
    have arc : ∀ j ψ, j < n → Θ j ≤ ψ → ψ ≤ Θ (j + 1) → along φ ((C j).getPoint ψ) ≤ along φ (C i).center + (C i).radius :=
      fun j ψ hj p1 p2 => T.support hi hj h1 h2 p1 p2
    rintro z ⟨j, hj, ⟨ψ, p1, p2, rfl⟩ | ⟨t, t0, t1, rfl⟩⟩
    · exact arc j ψ hj p1 p2
    · have e1 := arc j (Θ (j + 1)) hj (T.mono j) (le_refl _)
      have e2 : along φ ((C (j + 1)).getPoint (Θ (j + 1))) ≤ along φ (C i).center + (C i).radius := by
        rcases Nat.lt_or_ge (j + 1) n with h | h
        · exact arc (j + 1) _ h (le_refl _) (T.mono _)
        · have hj' : j + 1 = 0 + n := by omega
          have := arc 0 (Θ 0) T.pos (le_refl _) (T.mono _)
          rw [hj', T.perC, T.per, SameAngle.getPoint (⟨1, by push_cast; ring⟩ : SameAngle (Θ 0 + 2 * π) (Θ 0))]
          exact this
      have : along φ ((C j).getPoint (Θ (j + 1)) + t * ((C (j + 1)).getPoint (Θ (j + 1)) - (C j).getPoint (Θ (j + 1)))) =
          (1 - t) * along φ ((C j).getPoint (Θ (j + 1))) + t * along φ ((C (j + 1)).getPoint (Θ (j + 1))) := by
        generalize (C j).getPoint (Θ (j + 1)) = a
        generalize (C (j + 1)).getPoint (Θ (j + 1)) = b
        unfold along
        simp only [Complex.add_re, Complex.add_im, Complex.mul_re, Complex.mul_im, Complex.ofReal_re, Complex.ofReal_im, Complex.sub_re,
          Complex.sub_im]
        ring
      show along φ _ ≤ _
      rw [this]
      nlinarith
  exact hsub hz

theorem Tour.disc_iff (T : Tour n C Θ) {q : Circle} (hq : 0 ≤ q.radius) : (∀ p, InDisc q p → p ∈ convexHull ℝ (Tour.bd n C Θ)) ↔
    ∀ i φ, i < n → Θ i ≤ φ → φ ≤ Θ (i + 1) → along φ q.center + q.radius ≤ along φ (C i).center + (C i).radius := by
  constructor
  · intro h i φ hi h1 h2
    have := T.bd_le hi h1 h2 (h _ (getPoint_in hq φ))
    rwa [along_getPoint] at this
  · intro h p hp
    by_contra hn
    have hcl : IsClosed (convexHull ℝ (Tour.bd n C Θ)) := (compact_hull (Tour.compact n C Θ)).isClosed
    obtain ⟨f, u, f1, f2⟩ := geometric_hahn_banach_closed_point (convex_convexHull ℝ _) hcl hn
    obtain ⟨M, α, M0, hM⟩ := functional f
    obtain ⟨i, φ, hi, h1, h2, h3⟩ := T.cover α
    have g1 := f1 ((C i).getPoint φ) (subset_convexHull ℝ _ ⟨i, hi, Or.inl ⟨φ, h1, h2, rfl⟩⟩)
    rw [hM, SameAngle.along h3, along_getPoint] at g1
    rw [hM, SameAngle.along h3] at f2
    have g2 := along_disc φ hp
    have g3 := h i φ hi h1 h2
    have := mul_le_mul_of_nonneg_left (g2.trans g3) M0
    linarith

end

/-! ## Distances -/

namespace RoundedPolygon

theorem det_from (a : ℝ) (w : ℂ) : Vec.determinant (Vec.fromDirectionAndMagnitude a 1) w = across a w := by
  unfold Vec.determinant Vec.fromDirectionAndMagnitude across; ring

theorem across_from (a b : ℝ) : across a (Vec.fromDirectionAndMagnitude b 1) = Real.sin (b - a) := by
  unfold across Vec.fromDirectionAndMagnitude; rw [Real.sin_sub]; ring

theorem across_eq (a : ℝ) (w : ℂ) : across a w = ‖w‖ * Real.sin (Vec.direction w - a) := by
  have := side_eq w a
  unfold across
  rw [← neg_sub a, Real.sin_neg]; linarith

theorem tolerance_pos : 0 < tolerance := by unfold tolerance; norm_num

/-- The sector of an arc. -/
def Sector (a b : ℝ) (w : ℂ) : Prop := w = 0 ∨ ∃ φ, a ≤ φ ∧ φ ≤ b ∧ SameAngle (Vec.direction w) φ

theorem arc_greater {c : Circle} {a b : ℝ} (h0 : a ≤ b) (h1 : b ≤ a + 2 * π) (p : ℂ) (x : ℝ) :
    greater (signedDistanceToArc ⟨c, Vec.fromDirectionAndMagnitude a 1, Vec.fromDirectionAndMagnitude b 1⟩ p) x ↔
      tolerance ≤ |Real.sin (b - a)| ∧ Sector a b (p - c.center) ∧ x < ‖p - c.center‖ - c.radius := by
  unfold signedDistanceToArc
  dsimp only
  rw [det_from, det_from, det_from, across_from, magnitude_eq]
  generalize p - c.center = w
  have hpi := Real.pi_pos
  have gsome : ∀ y, greater (some y) x ↔ x < y := by
    intro y
    constructor
    · rintro ⟨z, hz, h⟩; cases hz; exact h
    · intro h; exact ⟨y, rfl, h⟩
  have gnone : ¬greater none x := by rintro ⟨z, hz, -⟩; cases hz
  by_cases ht : |Real.sin (b - a)| < tolerance
  · rw [if_pos ht]
    exact ⟨fun h => absurd h gnone, fun h => absurd h.1 (not_le.2 ht)⟩
  rw [if_neg ht]
  have ht' := not_lt.1 ht
  have hne : Real.sin (b - a) ≠ 0 := by
    intro e; rw [e, abs_zero] at ht'; linarith [tolerance_pos]
  -- the sector, in terms of the angle from the start
  have hsec : w ≠ 0 → ∃ u, 0 ≤ u ∧ u < 2 * π ∧ (Sector a b w ↔ u ≤ b - a) ∧ across a w = ‖w‖ * Real.sin u ∧
      across b w = ‖w‖ * Real.sin (u - (b - a)) := by
    intro hw
    obtain ⟨u, u1, u2, u3⟩ := exists_turn a (Vec.direction w)
    refine ⟨u, u1, u2, ?_, ?_, ?_⟩
    · constructor
      · rintro (h | ⟨φ, p1, p2, p3⟩)
        · exact absurd h hw
        · rcases (show φ ≤ a + 2 * π by linarith).lt_or_eq with hl | hl
          · have := sameTurn (x := a) (by linarith) (by linarith) p1 hl (SameAngle.trans (SameAngle.symm u3) p3)
            linarith
          · have : b = a + 2 * π := by linarith
            linarith
      · intro h
        exact Or.inr ⟨a + u, by linarith, by linarith, u3⟩
    · rw [across_eq]
      congr 1
      exact SameAngle.sin (by obtain ⟨k, hk⟩ := u3; exact ⟨k, by linarith⟩)
    · rw [across_eq]
      congr 1
      exact SameAngle.sin (by obtain ⟨k, hk⟩ := u3; exact ⟨k, by linarith⟩)
  have hb2 : b - a < 2 * π := by
    rcases (show b - a ≤ 2 * π by linarith).lt_or_eq with h | h
    · exact h
    · rw [h, Real.sin_two_pi] at hne; exact absurd rfl hne
  by_cases hneg : Real.sin (b - a) < 0
  · rw [if_pos hneg]
    have hbig : π < b - a := by
      by_contra hn
      exact absurd (Real.sin_nonneg_of_nonneg_of_le_pi (x := b - a) (by linarith) (not_lt.1 hn)) (not_le.2 hneg)
    have key : (across a w < 0 ∧ across b w > 0) ↔ ¬Sector a b w := by
      by_cases hw : w = 0
      · constructor
        · rintro ⟨h, -⟩
          rw [hw] at h
          simp [across] at h
        · intro h; exact absurd (Or.inl hw) h
      · obtain ⟨u, u1, u2, u3, u4, u5⟩ := hsec hw
        have hp := norm_pos_iff.2 hw
        rw [u3, u4, u5]
        constructor
        · rintro ⟨g1, g2⟩ hle
          have s1 : Real.sin u < 0 := by
            by_contra hn; exact absurd (mul_nonneg hp.le (not_lt.1 hn)) (not_le.2 g1)
          have s2 : 0 < Real.sin (u - (b - a)) := pos_of_mul_pos_right g2 hp.le
          have : π < u := by
            by_contra hn
            exact absurd (Real.sin_nonneg_of_nonneg_of_le_pi u1 (not_lt.1 hn)) (not_le.2 s1)
          exact absurd (Real.sin_nonpos_of_nonpos_of_neg_pi_le (x := u - (b - a)) (by linarith) (by linarith)) (not_le.2 s2)
        · intro hn
          have hlt := not_le.1 hn
          have s1 : Real.sin u < 0 := by
            have := Real.sin_pos_of_pos_of_lt_pi (x := u - π) (by linarith) (by linarith)
            rw [Real.sin_sub_pi] at this; linarith
          have s2 := Real.sin_pos_of_pos_of_lt_pi (x := u - (b - a)) (by linarith) (by linarith)
          exact ⟨mul_neg_of_pos_of_neg hp s1, mul_pos hp s2⟩
    by_cases hs : Sector a b w
    · rw [if_neg (fun h => key.1 h hs), gsome]
      exact ⟨fun h => ⟨ht', hs, h⟩, fun h => h.2.2⟩
    · rw [if_pos (key.2 hs)]
      exact ⟨fun h => absurd h gnone, fun h => absurd h.2.1 hs⟩
  · rw [if_neg hneg]
    have hsin : 0 < Real.sin (b - a) := lt_of_le_of_ne (not_lt.1 hneg) hne.symm
    have hsmall : b - a < π := by
      by_contra hn
      have := Real.sin_nonneg_of_nonneg_of_le_pi (x := b - a - π) (by linarith) (by linarith)
      rw [Real.sin_sub_pi] at this; linarith
    have key : (across a w < 0 ∨ across b w > 0) ↔ ¬Sector a b w := by
      by_cases hw : w = 0
      · constructor
        · intro h
          rw [hw] at h
          simp [across] at h
        · intro h; exact absurd (Or.inl hw) h
      · obtain ⟨u, u1, u2, u3, u4, u5⟩ := hsec hw
        have hp := norm_pos_iff.2 hw
        rw [u3, u4, u5]
        constructor
        · rintro (g | g) hle
          · exact absurd (mul_nonneg hp.le (Real.sin_nonneg_of_nonneg_of_le_pi u1 (by linarith))) (not_le.2 g)
          · exact absurd (mul_nonpos_of_nonneg_of_nonpos hp.le
              (Real.sin_nonpos_of_nonpos_of_neg_pi_le (x := u - (b - a)) (by linarith) (by linarith))) (not_le.2 g)
        · intro hn
          have hlt := not_le.1 hn
          rcases le_or_gt u π with hu | hu
          · right
            have h0' : 0 < b - a := by
              rcases (show 0 ≤ b - a by linarith).lt_or_eq with h | h
              · exact h
              · rw [← h, Real.sin_zero] at hsin; exact absurd hsin (lt_irrefl _)
            exact mul_pos hp (Real.sin_pos_of_pos_of_lt_pi (by linarith) (by linarith))
          · left
            have := Real.sin_pos_of_pos_of_lt_pi (x := u - π) (by linarith) (by linarith)
            rw [Real.sin_sub_pi] at this
            exact mul_neg_of_pos_of_neg hp (by linarith)
    by_cases hs : Sector a b w
    · rw [if_neg (fun h => key.1 h hs), gsome]
      exact ⟨fun h => ⟨ht', hs, h⟩, fun h => h.2.2⟩
    · rw [if_pos (key.2 hs)]
      exact ⟨fun h => absurd h gnone, fun h => absurd h.2.1 hs⟩

theorem seg_greater {c d : Circle} {a : ℝ} (h : RightTangent c d a) (p : ℂ) (x : ℝ) :
    greater (signedDistanceToSegment ⟨c.getPoint a, d.getPoint a⟩ p) x ↔
      0 ≤ across a (p - c.center) ∧ across a (p - c.center) ≤ across a (d.center - c.center) ∧
        x < along a (p - c.center) - c.radius := by
  have ht := (rightTangent_iff c d a).1 h
  have hL := ht.2
  have hsq := Real.sin_sq_add_cos_sq a
  have v1 : (d.getPoint a - c.getPoint a).re = -(across a (d.center - c.center) * Real.sin a) := by
    have e := ht.1
    unfold Spec.along at e
    unfold Circle.getPoint Vec.fromDirectionAndMagnitude across
    simp only [Complex.sub_re, Complex.sub_im, Complex.add_re] at e ⊢
    linear_combination Real.cos a * e - (d.center.re - c.center.re) * hsq
  have v2 : (d.getPoint a - c.getPoint a).im = across a (d.center - c.center) * Real.cos a := by
    have e := ht.1
    unfold Spec.along at e
    unfold Circle.getPoint Vec.fromDirectionAndMagnitude across
    simp only [Complex.sub_re, Complex.sub_im, Complex.add_im] at e ⊢
    linear_combination Real.sin a * e - (d.center.im - c.center.im) * hsq
  have st1 : (p - c.getPoint a).re = (p - c.center).re - c.radius * Real.cos a := by
    unfold Circle.getPoint Vec.fromDirectionAndMagnitude
    simp only [Complex.sub_re, Complex.add_re]; ring
  have st2 : (p - c.getPoint a).im = (p - c.center).im - c.radius * Real.sin a := by
    unfold Circle.getPoint Vec.fromDirectionAndMagnitude
    simp only [Complex.sub_im, Complex.add_im]; ring
  generalize hLdef : across a (d.center - c.center) = L at *
  generalize p - c.center = w at *
  have hm : (d.getPoint a - c.getPoint a).re * (d.getPoint a - c.getPoint a).re +
      (d.getPoint a - c.getPoint a).im * (d.getPoint a - c.getPoint a).im = L ^ 2 := by
    rw [v1, v2]; linear_combination L ^ 2 * hsq
  have hne : c.getPoint a ≠ d.getPoint a := by
    intro e
    rw [e, sub_self] at hm
    have := sq_pos_of_pos hL
    simp at hm
    linarith
  have hproj : RealSegment.project ⟨c.getPoint a, d.getPoint a⟩ p = some (across a w / L) := by
    unfold RealSegment.project RealSegment.vector
    dsimp only
    rw [if_neg hne, hm, if_neg (not_le.2 (sq_pos_of_pos hL))]
    congr 1
    unfold Vec.dotProduct across
    rw [v1, v2, st1, st2]
    field_simp
    ring
  have hlen : RealSegment.length ⟨c.getPoint a, d.getPoint a⟩ = L := by
    unfold RealSegment.length RealSegment.vector Vec.magnitude
    dsimp only
    rw [hm, Real.sqrt_sq hL.le]
  have hdist : -Vec.determinant (RealSegment.vector ⟨c.getPoint a, d.getPoint a⟩) (p - c.getPoint a) /
      RealSegment.length ⟨c.getPoint a, d.getPoint a⟩ = along a w - c.radius := by
    rw [hlen]
    unfold Vec.determinant RealSegment.vector Spec.along
    dsimp only
    rw [v1, v2, st1, st2]
    rw [div_eq_iff hL.ne']
    linear_combination (- L * c.radius) * hsq
  unfold signedDistanceToSegment
  rw [hproj]
  dsimp only
  have b1 : across a w / L < 0 ↔ across a w < 0 := by rw [div_lt_iff₀ hL, zero_mul]
  have b2 : across a w / L > 1 ↔ L < across a w := by rw [gt_iff_lt, lt_div_iff₀ hL, one_mul]
  by_cases hc : across a w / L < 0 ∨ across a w / L > 1
  · rw [if_pos hc]
    rw [b1, b2] at hc
    constructor
    · rintro ⟨z, hz, -⟩; cases hz
    · rintro ⟨g1, g2, -⟩
      rcases hc with hc | hc <;> linarith
  · rw [if_neg hc, hdist]
    rw [b1, b2] at hc
    push Not at hc
    constructor
    · rintro ⟨z, hz, g⟩
      cases hz
      exact ⟨hc.1, hc.2, g⟩
    · rintro ⟨-, -, g⟩
      exact ⟨_, rfl, g⟩

end RoundedPolygon

/-! ## The test of a circle -/

section
variable {n : ℕ} {C : ℕ → Circle} {Θ : ℕ → ℝ}

/-- No arc and no segment is too near. -/
def Tour.Passes (n : ℕ) (C : ℕ → Circle) (Θ : ℕ → ℝ) (q : Circle) : Prop := ∀ i < n,
  (RoundedPolygon.tolerance ≤ |Real.sin (Θ (i + 1) - Θ i)| → RoundedPolygon.Sector (Θ i) (Θ (i + 1)) (q.center - (C i).center) →
    ‖q.center - (C i).center‖ - (C i).radius ≤ -q.radius) ∧
  (0 ≤ across (Θ (i + 1)) (q.center - (C i).center) →
    across (Θ (i + 1)) (q.center - (C i).center) ≤ across (Θ (i + 1)) ((C (i + 1)).center - (C i).center) →
    along (Θ (i + 1)) (q.center - (C i).center) - (C i).radius ≤ -q.radius)

theorem Tour.complete (T : Tour n C Θ) {q : Circle}
    (h : ∀ i φ, i < n → Θ i ≤ φ → φ ≤ Θ (i + 1) → along φ q.center + q.radius ≤ along φ (C i).center + (C i).radius) :
    Tour.Passes n C Θ q := by
  intro i hi
  constructor
  · rintro - (hs | ⟨φ, p1, p2, p3⟩)
    · have := h i (Θ i) hi (le_refl _) (T.mono i)
      rw [hs, norm_zero]
      rw [sub_eq_zero] at hs
      rw [hs] at this
      linarith
    · have := h i φ hi p1 p2
      have e : along φ (q.center - (C i).center) = ‖q.center - (C i).center‖ := by
        rw [← SameAngle.along p3, along_eq, sub_self, Real.cos_zero, mul_one]
      rw [along_sub] at e
      linarith
  · intro _ _
    have := h i (Θ (i + 1)) hi (T.mono i) (le_refl _)
    rw [along_sub]; linarith

theorem along_deriv (p : ℂ) (φ : ℝ) : HasDerivAt (fun x => along x p) (across φ p) φ := by
  have h1 := (Real.hasDerivAt_cos φ).mul_const p.re
  have h2 := (Real.hasDerivAt_sin φ).mul_const p.im
  have := h1.add h2
  refine this.congr_deriv ?_
  unfold across; ring

/-- A difference that is least at the end of an interval does not grow there. -/
theorem deriv_left {p : ℂ} {a b : ℝ} (hab : a < b) (h : ∀ x, a ≤ x → x ≤ b → along b p ≤ along x p) : across b p ≤ 0 := by
  have hd := (along_deriv p b).hasDerivWithinAt (s := Set.Iio b)
  rw [hasDerivWithinAt_iff_tendsto_slope, Set.sdiff_singleton_eq_self (by simp)] at hd
  refine le_of_tendsto hd ?_
  filter_upwards [Ioo_mem_nhdsLT hab] with x hx
  have := h x hx.1.le hx.2.le
  rw [slope_def_field]
  exact div_nonpos_of_nonneg_of_nonpos (by linarith) (by linarith [hx.2])

theorem deriv_right {p : ℂ} {a b : ℝ} (hab : a < b) (h : ∀ x, a ≤ x → x ≤ b → along a p ≤ along x p) : 0 ≤ across a p := by
  have hd := (along_deriv p a).hasDerivWithinAt (s := Set.Ioi a)
  rw [hasDerivWithinAt_iff_tendsto_slope, Set.sdiff_singleton_eq_self (by simp)] at hd
  refine ge_of_tendsto hd ?_
  filter_upwards [Ioo_mem_nhdsGT hab] with x hx
  have := h x hx.1.le hx.2.le
  rw [slope_def_field]
  exact div_nonneg (by linarith) (by linarith [hx.1])

/-- Where the boundary is nearest. -/
theorem Tour.nearest (T : Tour n C Θ) (p : ℂ) : ∃ i φ, i < n ∧ Θ i ≤ φ ∧ φ ≤ Θ (i + 1) ∧ ∀ j ψ, j < n → Θ j ≤ ψ → ψ ≤ Θ (j + 1) →
    along φ ((C i).center - p) + (C i).radius ≤ along ψ ((C j).center - p) + (C j).radius := by
  have each : ∀ j, ∃ φ, Θ j ≤ φ ∧ φ ≤ Θ (j + 1) ∧ ∀ ψ, Θ j ≤ ψ → ψ ≤ Θ (j + 1) →
      along φ ((C j).center - p) + (C j).radius ≤ along ψ ((C j).center - p) + (C j).radius := by
    intro j
    obtain ⟨φ, h1, h2⟩ := isCompact_Icc.exists_isMinOn (Set.nonempty_Icc.2 (T.mono j))
      (((along_continuous ((C j).center - p)).add continuous_const).continuousOn (s := Set.Icc (Θ j) (Θ (j + 1))) (f := fun φ =>
        along φ ((C j).center - p) + (C j).radius))
    exact ⟨φ, h1.1, h1.2, fun ψ p1 p2 => h2 ⟨p1, p2⟩⟩
  choose f f1 f2 f3 using each
  obtain ⟨i, hi, hmin⟩ := Finset.exists_min_image (Finset.range n) (fun j => along (f j) ((C j).center - p) + (C j).radius)
    ⟨0, Finset.mem_range.2 T.pos⟩
  refine ⟨i, f i, Finset.mem_range.1 hi, f1 i, f2 i, fun j ψ hj p1 p2 => ?_⟩
  exact (hmin j (Finset.mem_range.2 hj)).trans (f3 j ψ p1 p2)

theorem Tour.shift (T : Tour n C Θ) (j m : ℕ) : C (j + m * n) = C j ∧ Θ (j + m * n) = Θ j + m * (2 * π) := by
  induction m with
  | zero => simp
  | succ m ih =>
    rw [show j + (m + 1) * n = j + m * n + n by ring, T.perC, T.per, ih.1, ih.2]
    exact ⟨rfl, by push_cast; ring⟩

/-- A statement about arcs and angles, for all laps. -/
theorem Tour.laps (T : Tour n C Θ) (j : ℕ) : ∃ k l, k < n ∧ C j = C k ∧ C (j + 1) = C (k + 1) ∧ Θ j = Θ k + (l : ℕ) * (2 * π) ∧
    Θ (j + 1) = Θ (k + 1) + (l : ℕ) * (2 * π) := by
  have h1 := T.shift (j % n) (j / n)
  have h2 := T.shift (j % n + 1) (j / n)
  have e : j % n + j / n * n = j := by rw [Nat.mul_comm, Nat.mod_add_div]
  rw [show j % n + 1 + j / n * n = j + 1 by omega] at h2
  rw [e] at h1
  exact ⟨j % n, j / n, Nat.mod_lt _ T.pos, h1.1, h2.1, h1.2, h2.2⟩

theorem SameAngle.across {a b : ℝ} (h : SameAngle a b) (p : ℂ) : across a p = across b p := by
  unfold RealGeom.across; rw [SameAngle.cos h, SameAngle.sin h]

theorem lap (x : ℝ) (l : ℕ) : SameAngle (x + l * (2 * π)) x := ⟨l, by push_cast; ring⟩

theorem Tour.sound (T : Tour n C Θ) {q : Circle}
    (harc : ∀ i < n, Θ (i + 1) = Θ i ∨ RoundedPolygon.tolerance ≤ |Real.sin (Θ (i + 1) - Θ i)|) (h : Tour.Passes n C Θ q) :
    ∀ i φ, i < n → Θ i ≤ φ → φ ≤ Θ (i + 1) → along φ q.center + q.radius ≤ along φ (C i).center + (C i).radius := by
  obtain ⟨i, φ, hi, h1, h2, hmin⟩ := T.nearest q.center
  suffices hr : q.radius ≤ along φ ((C i).center - q.center) + (C i).radius by
    intro j ψ hj p1 p2
    have := hr.trans (hmin j ψ hj p1 p2)
    rw [along_sub] at this
    linarith
  -- the same for all laps
  have hmin' : ∀ j ψ, Θ j ≤ ψ → ψ ≤ Θ (j + 1) →
      along φ ((C i).center - q.center) + (C i).radius ≤ along ψ ((C j).center - q.center) + (C j).radius := by
    intro j ψ p1 p2
    obtain ⟨k, l, k1, k2, k3, k4, k5⟩ := T.laps j
    have := hmin k (ψ - l * (2 * π)) k1 (by linarith) (by linarith)
    have e : SameAngle ψ (ψ - l * (2 * π)) := ⟨l, by push_cast; ring⟩
    rw [k2, SameAngle.along e]
    exact this
  have hpass : ∀ j, (0 ≤ across (Θ (j + 1)) (q.center - (C j).center) →
      across (Θ (j + 1)) (q.center - (C j).center) ≤ across (Θ (j + 1)) ((C (j + 1)).center - (C j).center) →
      along (Θ (j + 1)) (q.center - (C j).center) - (C j).radius ≤ -q.radius) := by
    intro j
    obtain ⟨k, l, k1, k2, k3, k4, k5⟩ := T.laps j
    rw [k2, k3, k5, SameAngle.across (lap _ l), SameAngle.across (lap _ l), SameAngle.along (lap _ l)]
    exact (h k k1).2
  by_cases hin : Θ i < φ ∧ φ < Θ (i + 1)
  · -- inside of an arc
    have hlm : IsLocalMin (fun x => along x ((C i).center - q.center)) φ := by
      have : Set.Ioo (Θ i) (Θ (i + 1)) ∈ nhds φ := Ioo_mem_nhds hin.1 hin.2
      filter_upwards [this] with x hx
      linarith [hmin i x hi hx.1.le hx.2.le]
    have hz := hlm.hasDerivAt_eq_zero (along_deriv _ φ)
    have htol := (harc i hi).resolve_left (by intro e; linarith [hin.1, hin.2])
    have hp := (h i hi).1 htol
    by_cases hw : q.center - (C i).center = 0
    · have := hp (Or.inl hw)
      rw [hw, norm_zero] at this
      rw [sub_eq_zero] at hw
      have e0 : along φ 0 = 0 := by simp [along]
      rw [hw, sub_self, e0]
      linarith
    · have hw' := norm_pos_iff.2 hw
      have e1 : along φ ((C i).center - q.center) = -along φ (q.center - (C i).center) := by rw [along_sub, along_sub]; ring
      have e2 : across φ ((C i).center - q.center) = -across φ (q.center - (C i).center) := by rw [across_sub, across_sub]; ring
      rw [e2, RoundedPolygon.across_eq] at hz
      have hsin : Real.sin (Vec.direction (q.center - (C i).center) - φ) = 0 := by
        rcases mul_eq_zero.1 (neg_eq_zero.1 hz) with g | g
        · exact absurd g hw'.ne'
        · exact g
      have hcos : Real.cos (Vec.direction (q.center - (C i).center) - φ) = 1 := by
        have hsq := Real.sin_sq_add_cos_sq (Vec.direction (q.center - (C i).center) - φ)
        rw [hsin] at hsq
        have : (Real.cos (Vec.direction (q.center - (C i).center) - φ) - 1) *
            (Real.cos (Vec.direction (q.center - (C i).center) - φ) + 1) = 0 := by linear_combination hsq
        rcases mul_eq_zero.1 this with g | g
        · linarith
        · exfalso
          have hm1 : Real.cos (Vec.direction (q.center - (C i).center) - φ) = -1 := by linarith
          -- a little farther it is nearer
          obtain ⟨ε, e1', e2', e3'⟩ : ∃ ε, 0 < ε ∧ ε ≤ 1 ∧ φ + ε ≤ Θ (i + 1) :=
            ⟨min 1 (Θ (i + 1) - φ), lt_min one_pos (by linarith [hin.2]), min_le_left _ _, by linarith [min_le_right 1 (Θ (i + 1) - φ)]⟩
          have hx := hmin i (φ + ε) hi (by linarith) e3'
          have f1 := along_eq φ ((q.center - (C i).center))
          have f2 := along_eq (φ + ε) ((q.center - (C i).center))
          have f3 : along (φ + ε) ((C i).center - q.center) = -along (φ + ε) (q.center - (C i).center) := by
            rw [along_sub, along_sub]; ring
          rw [← Real.cos_neg, neg_sub, hm1] at f1
          rw [← Real.cos_neg, show -(φ + ε - Vec.direction (q.center - (C i).center)) =
            (Vec.direction (q.center - (C i).center) - φ) - ε by ring, Real.cos_sub, hsin, hm1] at f2
          have hc1 : Real.cos ε < 1 := by
            have := Real.cos_lt_cos_of_nonneg_of_le_pi (x := 0) (y := ε) (le_refl _) (by linarith [Real.two_le_pi]) e1'
            rwa [Real.cos_zero] at this
          nlinarith
      have hsame : SameAngle (Vec.direction (q.center - (C i).center)) φ := by
        have := sameAngle_of (a := Vec.direction (q.center - (C i).center) - φ) (b := 0) (by rw [hcos, Real.cos_zero])
          (by rw [hsin, Real.sin_zero])
        obtain ⟨k, hk⟩ := this
        exact ⟨k, by linarith⟩
      have := hp (Or.inr ⟨φ, h1, h2, hsame⟩)
      have f1 := along_eq φ ((q.center - (C i).center))
      rw [← Real.cos_neg, neg_sub, hcos, mul_one] at f1
      linarith
  · -- at a segment: `φ` is the angle of some end
    obtain ⟨K, hsame, hKv, hKt⟩ : ∃ K, SameAngle (Θ K) φ ∧ n ≤ K ∧
        along (Θ K) ((C K).center - q.center) + (C K).radius = along φ ((C i).center - q.center) + (C i).radius := by
      have same : ∀ x : ℝ, SameAngle (x + 2 * π) x := fun x => ⟨1, by push_cast; ring⟩
      rcases h1.lt_or_eq with g | g
      · have : φ = Θ (i + 1) := le_antisymm h2 (not_lt.1 fun g' => hin ⟨g, g'⟩)
        refine ⟨i + 1 + n, by rw [T.per, this]; exact same _, by omega, ?_⟩
        rw [T.per, T.perC, SameAngle.along (same _), this]
        have := ((rightTangent_iff _ _ _).1 (T.tan i)).1
        rw [along_sub] at this
        rw [along_sub, along_sub]
        linarith
      · refine ⟨i + n, by rw [T.per, g]; exact same _, by omega, ?_⟩
        rw [T.per, T.perC, SameAngle.along (same _), g]
    have hpi := Real.pi_pos
    -- the last circle before the tangent
    obtain ⟨A, A1, A2⟩ : ∃ A, Θ A < Θ K ∧ Θ (A + 1) = Θ K := by
      have hex : ∃ m, Θ (K - n + m) = Θ K := ⟨n, by rw [Nat.sub_add_cancel hKv]⟩
      classical
      have hf := Nat.find_spec hex
      have hm := fun m (h : m < Nat.find hex) => Nat.find_min hex h
      have hle : ∀ m, m ≤ n → Θ (K - n + m) ≤ Θ K := fun m hm => T.le (by omega)
      have hfn : Nat.find hex ≤ n := Nat.find_min' hex (by rw [Nat.sub_add_cancel hKv])
      have h0 : Nat.find hex ≠ 0 := by
        intro e
        rw [e, Nat.add_zero] at hf
        have := T.per (K - n)
        rw [Nat.sub_add_cancel hKv] at this
        linarith
      obtain ⟨m, hm'⟩ := Nat.exists_eq_succ_of_ne_zero h0
      refine ⟨K - n + m, lt_of_le_of_ne (hle m (by omega)) (hm m (by omega)), ?_⟩
      rw [hm'] at hf
      exact hf
    -- the first one after it
    obtain ⟨B, B1, B2⟩ : ∃ B, Θ B = Θ K ∧ Θ K < Θ (B + 1) := by
      have hex : ∃ m, Θ K < Θ (K + m) := ⟨n, by rw [T.per]; linarith⟩
      classical
      have hf := Nat.find_spec hex
      have hm := fun m (h : m < Nat.find hex) => Nat.find_min hex h
      have h0 : Nat.find hex ≠ 0 := by
        intro e
        rw [e, Nat.add_zero] at hf
        exact lt_irrefl _ hf
      obtain ⟨m, hm'⟩ := Nat.exists_eq_succ_of_ne_zero h0
      refine ⟨K + m, le_antisymm (not_lt.1 (hm m (by omega))) (T.le (by omega)), ?_⟩
      rw [hm'] at hf
      exact hf
    have hAB : A + 1 ≤ B := by
      by_contra hn
      have := T.le (show B ≤ A by omega)
      linarith
    -- all of these circles touch the tangent
    have touch : ∀ m, A ≤ m → m ≤ B →
        along (Θ K) ((C m).center - q.center) + (C m).radius = along φ ((C i).center - q.center) + (C i).radius := by
      have step : ∀ m, Θ (m + 1) = Θ K → along (Θ K) ((C (m + 1)).center - q.center) + (C (m + 1)).radius =
          along (Θ K) ((C m).center - q.center) + (C m).radius := by
        intro m hm
        have := ((rightTangent_iff _ _ _).1 (T.tan m)).1
        rw [hm, along_sub] at this
        rw [along_sub, along_sub]
        linarith
      have hinK : ∀ m, A ≤ m → m < B → Θ (m + 1) = Θ K := by
        intro m m1 m2
        have q1 := T.le (show A + 1 ≤ m + 1 by omega)
        have q2 := T.le (show m + 1 ≤ B by omega)
        linarith
      have all : ∀ m, A ≤ m → m ≤ B → along (Θ K) ((C m).center - q.center) + (C m).radius =
          along (Θ K) ((C A).center - q.center) + (C A).radius := by
        intro m m1
        induction m, m1 using Nat.le_induction with
        | base => intro _; rfl
        | succ m m1 ih =>
          intro m2
          rw [step m (hinK m m1 (by omega)), ih (by omega)]
      -- one of the tour has the angle
      have hKA : A ≤ K ∧ K ≤ B := by
        constructor
        · by_contra hn
          have := T.le (show K ≤ A by omega)
          linarith
        · by_contra hn
          have := T.le (show B + 1 ≤ K by omega)
          linarith
      intro m m1 m2
      rw [all m m1 m2, ← hKt, all K hKA.1 hKA.2]
    -- the tangent is nearest between two of them
    have hA : across (Θ K) ((C A).center - q.center) ≤ 0 := by
      refine deriv_left A1 fun x x1 x2 => ?_
      have := hmin' A x x1 (by rw [A2]; exact x2)
      rw [← touch A (le_refl _) (by omega)] at this
      linarith
    have hB : 0 ≤ across (Θ K) ((C B).center - q.center) := by
      refine deriv_right B2 fun x x1 x2 => ?_
      have := hmin' B x (by rw [B1]; exact x1) x2
      rw [← touch B (by omega) (le_refl _)] at this
      linarith
    obtain ⟨m, m1, m2, m3, m4⟩ : ∃ m, A ≤ m ∧ m < B ∧ across (Θ K) ((C m).center - q.center) ≤ 0 ∧
        0 ≤ across (Θ K) ((C (m + 1)).center - q.center) := by
      have key : ∀ e, A + 1 ≤ e → 0 ≤ across (Θ K) ((C e).center - q.center) → ∃ m, A ≤ m ∧ m < e ∧
          across (Θ K) ((C m).center - q.center) ≤ 0 ∧ 0 ≤ across (Θ K) ((C (m + 1)).center - q.center) := by
        intro e he
        induction e, he using Nat.le_induction with
        | base => intro h; exact ⟨A, le_refl _, by omega, hA, h⟩
        | succ e he ih =>
          intro h
          rcases le_total (across (Θ K) ((C e).center - q.center)) 0 with g | g
          · exact ⟨e, by omega, by omega, g, h⟩
          · obtain ⟨m, m1, m2, m3⟩ := ih g
            exact ⟨m, m1, by omega, m3⟩
      exact key B hAB hB
    have hΘ : Θ (m + 1) = Θ K := by
      have q1 := T.le (show A + 1 ≤ m + 1 by omega)
      have q2 := T.le (show m + 1 ≤ B by omega)
      linarith
    have hp := hpass m
    rw [hΘ] at hp
    have t := touch m m1 m2.le
    rw [across_sub] at m3 m4
    rw [across_sub, across_sub, along_sub] at hp
    rw [along_sub] at t
    have := hp (by linarith) (by linarith)
    linarith

end

/-! ## Tangents -/

theorem SameAngle.rightTangent {a b : ℝ} (h : SameAngle a b) (c d : Circle) : RightTangent c d a ↔ RightTangent c d b := by
  rw [rightTangent_iff, rightTangent_iff, SameAngle.along h, SameAngle.across h]

theorem right_spec {c d : Circle} (h1 : ¬c.Contains d) (h2 : ¬d.Contains c) : RightTangent c d (c.guaranteedRightTangentAngle d) := by
  obtain ⟨γ, g1, g2, g3, g4, g5⟩ := right_angle h1 h2
  rw [SameAngle.rightTangent g5, rightTangent_iff, along_eq, RoundedPolygon.across_eq]
  rw [sub_sub_cancel, show Vec.direction (d.center - c.center) - γ - Vec.direction (d.center - c.center) = -γ by ring, Real.cos_neg]
  exact ⟨g4, mul_pos g3 (Real.sin_pos_of_pos_of_lt_pi g1 g2)⟩

theorem right_unique {c d : Circle} {a b : ℝ} (ha : RightTangent c d a) (hb : RightTangent c d b) : SameAngle a b := by
  rw [rightTangent_iff, along_eq, RoundedPolygon.across_eq] at ha hb
  generalize d.center - c.center = v at *
  have hv : 0 < ‖v‖ := by
    rcases (norm_nonneg v).lt_or_eq with h | h
    · exact h
    · rw [← h, zero_mul, zero_mul] at ha; exact absurd ha.2 (lt_irrefl _)
  have hc : Real.cos (a - Vec.direction v) = Real.cos (b - Vec.direction v) := by
    have := ha.1.trans hb.1.symm
    exact mul_left_cancel₀ hv.ne' this
  have s1 : Real.sin (a - Vec.direction v) < 0 := by
    have := pos_of_mul_pos_right ha.2 hv.le
    rw [← neg_sub, Real.sin_neg] at this; linarith
  have s2 : Real.sin (b - Vec.direction v) < 0 := by
    have := pos_of_mul_pos_right hb.2 hv.le
    rw [← neg_sub, Real.sin_neg] at this; linarith
  have hs : Real.sin (a - Vec.direction v) = Real.sin (b - Vec.direction v) := by
    have q1 := Real.sin_sq_add_cos_sq (a - Vec.direction v)
    have q2 := Real.sin_sq_add_cos_sq (b - Vec.direction v)
    rw [hc] at q1
    have : (Real.sin (a - Vec.direction v) - Real.sin (b - Vec.direction v)) *
        (Real.sin (a - Vec.direction v) + Real.sin (b - Vec.direction v)) = 0 := by linear_combination q1 - q2
    rcases mul_eq_zero.1 this with g | g <;> linarith
  obtain ⟨k, hk⟩ := sameAngle_of hc hs
  exact ⟨k, by linarith⟩

theorem right_apart {c d : Circle} {a : ℝ} (h : RightTangent c d a) : ¬c.Contains d ∧ ¬d.Contains c := by
  rw [rightTangent_iff] at h
  unfold Circle.Contains
  rw [magnitude_eq, magnitude_eq, norm_sub_rev c.center]
  have hsq : along a (d.center - c.center) ^ 2 + across a (d.center - c.center) ^ 2 = ‖d.center - c.center‖ ^ 2 := by
    rw [along_eq, RoundedPolygon.across_eq, ← Real.cos_neg, neg_sub, mul_pow, mul_pow, ← mul_add, add_comm,
      Real.sin_sq_add_cos_sq, mul_one]
  have hp := sq_pos_of_pos h.2
  rw [h.1] at hsq
  have h0 := norm_nonneg (d.center - c.center)
  constructor <;> intro hc <;> nlinarith

/-! ## The constructor -/

namespace RoundedPolygon

theorem makeLoop_none (L : ℝ) (cs : List Circle) : ∀ inc, makeLoop L inc cs = none ↔
    ∃ i c d, cs[i]? = some c ∧ cs[i + 1]? = some d ∧ (c.Contains d ∨ d.Contains c) := by
  induction cs with
  | nil => intro inc; simp [makeLoop]
  | cons c cs ih =>
    intro inc
    cases cs with
    | nil => simp [makeLoop]
    | cons d cs =>
      rw [makeLoop]
      by_cases h : c.Contains d ∨ d.Contains c
      · rw [if_pos h]
        exact ⟨fun _ => ⟨0, c, d, rfl, rfl, h⟩, fun _ => rfl⟩
      · rw [if_neg h]
        dsimp only
        rw [Option.map_eq_none_iff, ih]
        constructor
        · rintro ⟨i, x, y, h1, h2, h3⟩
          exact ⟨i + 1, x, y, h1, h2, h3⟩
        · rintro ⟨i, x, y, h1, h2, h3⟩
          cases i with
          | zero =>
            cases h1; cases h2
            exact absurd h3 h
          | succ i => exact ⟨i, x, y, h1, h2, h3⟩

theorem makeLoop_some (L : ℝ) (cs : List Circle) : ∀ inc arcs, makeLoop L inc cs = some arcs →
    arcs.length = cs.length ∧ (∀ (i : ℕ) (a : Arc), arcs[i]? = some a → cs[i]? = some a.circle) ∧
    (∀ a, arcs[0]? = some a → a.startUnit = Vec.fromDirectionAndMagnitude inc 1) ∧
    (∀ a, arcs[cs.length - 1]? = some a → a.endUnit = Vec.fromDirectionAndMagnitude L 1) ∧
    ∀ i a b, arcs[i]? = some a → arcs[i + 1]? = some b →
      a.endUnit = Vec.fromDirectionAndMagnitude (a.circle.guaranteedRightTangentAngle b.circle) 1 ∧ b.startUnit = a.endUnit := by
  induction cs with
  | nil =>
    intro inc arcs h
    cases h
    simp
  | cons c cs ih =>
    intro inc arcs h
    cases cs with
    | nil =>
      cases h
      refine ⟨rfl, ?_, ?_, ?_, ?_⟩
      · intro i a ha
        cases i with
        | zero => cases ha; rfl
        | succ i => simp at ha
      · intro a ha; cases ha; rfl
      · intro a ha; cases ha; rfl
      · intro i a b _ hb; simp at hb
    | cons d cs =>
      rw [makeLoop] at h
      by_cases hc : c.Contains d ∨ d.Contains c
      · rw [if_pos hc] at h; cases h
      rw [if_neg hc] at h
      dsimp only at h
      obtain ⟨rest, hr, rfl⟩ := Option.map_eq_some_iff.1 h
      obtain ⟨h1, h2, h3, h4, h5⟩ := ih _ _ hr
      refine ⟨by simp [h1], ?_, ?_, ?_, ?_⟩
      · intro i a ha
        cases i with
        | zero => cases ha; rfl
        | succ i => exact h2 i a ha
      · intro a ha; cases ha; rfl
      · intro a ha; exact h4 a ha
      · intro i a b ha hb
        cases i with
        | zero =>
          have hb' : rest[0]? = some b := hb
          have e := h2 0 b hb'
          cases ha
          cases e
          exact ⟨rfl, h3 b hb'⟩
        | succ i => exact h5 i a b ha hb

theorem follows_last {cs : List Circle} {c d : Circle} (h2 : 2 ≤ cs.length) (hc : cs.getLast? = some c) (hd : cs.head? = some d) :
    Follows cs (cs.length - 1) c d := by
  refine ⟨?_, ?_⟩
  · rw [← hc, List.getLast?_eq_getElem?]
  · rw [Nat.sub_add_cancel (by omega), Nat.mod_self, ← hd, List.head?_eq_getElem?]

theorem follows_cases {cs : List Circle} {i : ℕ} {c d : Circle} (h : Follows cs i c d) :
    (cs[i]? = some c ∧ cs[i + 1]? = some d) ∨ (i = cs.length - 1 ∧ cs.getLast? = some c ∧ cs.head? = some d) := by
  obtain ⟨h1, h2⟩ := h
  have hi : i < cs.length := (List.getElem?_eq_some_iff.1 h1).1
  rcases Nat.lt_or_ge (i + 1) cs.length with hl | hl
  · rw [Nat.mod_eq_of_lt hl] at h2
    exact Or.inl ⟨h1, h2⟩
  · have e : i = cs.length - 1 := by omega
    right
    rw [show i + 1 = cs.length by omega, Nat.mod_self] at h2
    refine ⟨e, ?_, ?_⟩
    · rw [List.getLast?_eq_getElem?, ← e, h1]
    · rw [List.head?_eq_getElem?, h2]

theorem make_none (cs : List Circle) : make cs = none ↔
    cs.length < 2 ∨ ∃ i c d, Follows cs i c d ∧ (c.Contains d ∨ d.Contains c) := by
  unfold make
  by_cases hl : cs.length ≤ 1
  · rw [if_pos hl]
    exact ⟨fun _ => Or.inl (by omega), fun _ => rfl⟩
  rw [if_neg hl]
  have hne : cs ≠ [] := by rintro rfl; simp at hl
  obtain ⟨front, hf⟩ : ∃ f, cs.head? = some f := ⟨cs.head hne, List.head?_eq_some_head hne⟩
  obtain ⟨back, hb⟩ : ∃ b, cs.getLast? = some b := ⟨cs.getLast hne, List.getLast?_eq_some_getLast hne⟩
  rw [hf, hb, Option.bind_some, Option.bind_some]
  by_cases hc : front.Contains back ∨ back.Contains front
  · rw [if_pos hc]
    exact ⟨fun _ => Or.inr ⟨_, back, front, follows_last (by omega) hb hf, hc.symm⟩, fun _ => rfl⟩
  rw [if_neg hc]
  dsimp only
  rw [makeLoop_none]
  constructor
  · rintro ⟨i, c, d, h1, h2, h3⟩
    right
    have : i + 1 < cs.length := (List.getElem?_eq_some_iff.1 h2).1
    exact ⟨i, c, d, ⟨h1, by rw [Nat.mod_eq_of_lt this]; exact h2⟩, h3⟩
  · rintro (h | ⟨i, c, d, h, h'⟩)
    · omega
    · rcases follows_cases h with ⟨g1, g2⟩ | ⟨-, g1, g2⟩
      · exact ⟨i, c, d, g1, g2, h'⟩
      · rw [hb] at g1; rw [hf] at g2
        cases g1; cases g2
        exact absurd h'.symm hc

theorem make_some {cs : List Circle} {arcs : List Arc} (h : make cs = some arcs) : arcs.length = cs.length ∧ 2 ≤ cs.length ∧
    ∀ i c d, Follows cs i c d → ¬c.Contains d ∧ ¬d.Contains c ∧ ∃ a b, arcs[i]? = some a ∧ arcs[(i + 1) % cs.length]? = some b ∧
      a.circle = c ∧ b.circle = d ∧ a.endUnit = Vec.fromDirectionAndMagnitude (c.guaranteedRightTangentAngle d) 1 ∧
      b.startUnit = Vec.fromDirectionAndMagnitude (c.guaranteedRightTangentAngle d) 1 := by
  have hnone : ¬make cs = none := by rw [h]; simp
  rw [make_none] at hnone
  push Not at hnone
  obtain ⟨hl, hfol⟩ := hnone
  unfold make at h
  rw [if_neg (by omega)] at h
  have hne : cs ≠ [] := by rintro rfl; simp at hl
  obtain ⟨front, hf⟩ : ∃ f, cs.head? = some f := ⟨cs.head hne, List.head?_eq_some_head hne⟩
  obtain ⟨back, hb⟩ : ∃ b, cs.getLast? = some b := ⟨cs.getLast hne, List.getLast?_eq_some_getLast hne⟩
  rw [hf, hb, Option.bind_some, Option.bind_some] at h
  by_cases hc : front.Contains back ∨ back.Contains front
  · rw [if_pos hc] at h; cases h
  rw [if_neg hc] at h
  dsimp only at h
  obtain ⟨h1, h2, h3, h4, h5⟩ := makeLoop_some _ _ _ _ h
  have get : ∀ i, i < cs.length → ∃ a, arcs[i]? = some a := fun i hi => ⟨arcs[i], List.getElem?_eq_getElem (by omega)⟩
  refine ⟨h1, hl, fun i c d hfo => ⟨(hfol i c d hfo).1, (hfol i c d hfo).2, ?_⟩⟩
  have hi : i < cs.length := (List.getElem?_eq_some_iff.1 hfo.1).1
  obtain ⟨a, ha⟩ := get i hi
  obtain ⟨b, hb'⟩ := get ((i + 1) % cs.length) (Nat.mod_lt _ (by omega))
  have ea : a.circle = c := by
    have := h2 i a ha
    rw [hfo.1] at this
    exact (Option.some.inj this).symm
  have eb : b.circle = d := by
    have := h2 _ b hb'
    rw [hfo.2] at this
    exact (Option.some.inj this).symm
  refine ⟨a, b, ha, hb', ea, eb, ?_⟩
  rcases follows_cases hfo with ⟨g1, g2⟩ | ⟨g0, g1, g2⟩
  · have : i + 1 < cs.length := (List.getElem?_eq_some_iff.1 g2).1
    rw [Nat.mod_eq_of_lt this] at hb'
    obtain ⟨q1, q2⟩ := h5 i a b ha hb'
    rw [ea, eb] at q1
    exact ⟨q1, q2.trans q1⟩
  · rw [hb] at g1; rw [hf] at g2
    cases g1; cases g2
    rw [show i + 1 = cs.length by omega, Nat.mod_self] at hb'
    rw [g0] at ha
    exact ⟨h4 a ha, h3 b hb'⟩

end RoundedPolygon

/-! ## The tour of a polygon -/

/-- The circles, again and again. -/
noncomputable def lapC (cs : List Circle) (j : ℕ) : Circle := (cs[j % cs.length]?).getD ⟨0, 0⟩

noncomputable def lapΘ (n : ℕ) (θ : ℕ → ℝ) (j : ℕ) : ℝ := θ (j % n) + ((j / n : ℕ) : ℝ) * (2 * π)

theorem lapC_follows {cs : List Circle} (h : 0 < cs.length) (j : ℕ) : Follows cs (j % cs.length) (lapC cs j) (lapC cs (j + 1)) := by
  have get : ∀ i, i < cs.length → cs[i]? = some ((cs[i]?).getD ⟨0, 0⟩) := by
    intro i hi
    rw [List.getElem?_eq_getElem hi, Option.getD_some]
  refine ⟨get _ (Nat.mod_lt _ h), ?_⟩
  have e : (j % cs.length + 1) % cs.length = (j + 1) % cs.length := by rw [Nat.mod_add_mod]
  rw [e]
  exact get _ (Nat.mod_lt _ h)

theorem lapC_eq {cs : List Circle} {i : ℕ} {c d : Circle} (h : Follows cs i c d) : i < cs.length ∧ lapC cs i = c ∧ lapC cs (i + 1) = d := by
  have hi : i < cs.length := (List.getElem?_eq_some_iff.1 h.1).1
  unfold lapC
  rw [h.2, Nat.mod_eq_of_lt hi, h.1]
  exact ⟨hi, rfl, rfl⟩

theorem lapΘ_small {n : ℕ} {θ : ℕ → ℝ} (honce : θ n = θ 0 + 2 * π) {i : ℕ} (hi : i ≤ n) (hn : 0 < n) : lapΘ n θ i = θ i := by
  unfold lapΘ
  rcases hi.lt_or_eq with h | rfl
  · rw [Nat.mod_eq_of_lt h, Nat.div_eq_of_lt h]; simp
  · rw [Nat.mod_self, Nat.div_self hn, honce]; simp

theorem turns_tour {cs : List Circle} {θ : ℕ → ℝ} (hne : cs ≠ []) (hr : ∀ c ∈ cs, 0 ≤ c.radius) (h : TurnsOnce cs θ) :
    Tour cs.length (lapC cs) (lapΘ cs.length θ) := by
  have hn : 0 < cs.length := List.length_pos_iff.2 hne
  have hnext : ∀ j, lapΘ cs.length θ (j + 1) = θ (j % cs.length + 1) + ((j / cs.length : ℕ) : ℝ) * (2 * π) := by
    intro j
    have hj := Nat.mod_lt j hn
    unfold lapΘ
    rcases Nat.lt_or_ge (j % cs.length + 1) cs.length with hl | hl
    · have e1 : (j + 1) % cs.length = j % cs.length + 1 := by
        rw [Nat.add_mod, Nat.mod_eq_of_lt (show 1 < cs.length by omega), Nat.mod_eq_of_lt hl]
      have e2 : (j + 1) / cs.length = j / cs.length := by
        have h1 := Nat.mod_add_div j cs.length
        have h2 := Nat.mod_add_div (j + 1) cs.length
        rw [e1] at h2
        have : cs.length * ((j + 1) / cs.length) = cs.length * (j / cs.length) := by omega
        exact Nat.eq_of_mul_eq_mul_left hn this
      rw [e1, e2]
    · have e0 : j % cs.length + 1 = cs.length := by omega
      have e1 : (j + 1) % cs.length = 0 := by
        have : (j % cs.length + 1) % cs.length = (j + 1) % cs.length := Nat.mod_add_mod _ _ _
        rw [← this, e0, Nat.mod_self]
      have e2 : (j + 1) / cs.length = j / cs.length + 1 := by
        have h1 := Nat.mod_add_div j cs.length
        have h2 := Nat.mod_add_div (j + 1) cs.length
        rw [e1] at h2
        have : cs.length * ((j + 1) / cs.length) = cs.length * (j / cs.length + 1) := by rw [Nat.mul_add]; omega
        exact Nat.eq_of_mul_eq_mul_left hn this
      rw [e1, e2, e0, h.once]
      push_cast; ring
  refine ⟨hn, ?_, ?_, ?_, ?_, ?_⟩
  · intro j; unfold lapC; rw [Nat.add_mod_right]
  · intro j
    unfold lapΘ
    rw [Nat.add_mod_right, Nat.add_div_right _ hn]
    push_cast; ring
  · intro j
    rw [hnext]
    unfold lapΘ
    linarith [h.mono (j % cs.length) (Nat.mod_lt _ hn)]
  · intro j
    rw [hnext, SameAngle.rightTangent (lap _ _)]
    exact h.tangent _ _ _ (lapC_follows hn j)
  · intro j
    exact hr _ (List.mem_of_getElem? (lapC_follows hn j).1)

theorem boundary_bd {cs : List Circle} {θ : ℕ → ℝ} (hne : cs ≠ []) (h : TurnsOnce cs θ) :
    boundary cs θ = Tour.bd cs.length (lapC cs) (lapΘ cs.length θ) := by
  have hn : 0 < cs.length := List.length_pos_iff.2 hne
  ext z
  constructor
  · rintro ⟨i, c, d, hf, hz⟩
    obtain ⟨hi, h1, h2⟩ := lapC_eq hf
    refine ⟨i, hi, ?_⟩
    rw [lapΘ_small h.once hi.le hn, lapΘ_small h.once (Nat.succ_le_of_lt hi) hn, h1, h2]
    exact hz
  · rintro ⟨i, hi, hz⟩
    have hf := lapC_follows hn i
    rw [Nat.mod_eq_of_lt hi] at hf
    rw [lapΘ_small h.once hi.le hn, lapΘ_small h.once (Nat.succ_le_of_lt hi) hn] at hz
    exact ⟨i, _, _, hf, hz⟩

theorem SameAngle.unit {a b : ℝ} (h : SameAngle a b) (m : ℝ) : Vec.fromDirectionAndMagnitude a m = Vec.fromDirectionAndMagnitude b m := by
  unfold Vec.fromDirectionAndMagnitude; rw [SameAngle.cos h, SameAngle.sin h]

theorem getPoint_unit (c : Circle) (a : ℝ) : c.center + c.radius * Vec.fromDirectionAndMagnitude a 1 = c.getPoint a := by
  unfold Circle.getPoint
  congr 1
  rw [from_eq, from_eq]; push_cast; ring

open RoundedPolygon in
theorem contains_passes {cs : List Circle} {θ : ℕ → ℝ} {arcs : List Arc} (hr : ∀ c ∈ cs, 0 ≤ c.radius) (h : TurnsOnce cs θ)
    (hm : make cs = some arcs) (q : Circle) :
    ContainsCircle arcs q ↔ Tour.Passes cs.length (lapC cs) (lapΘ cs.length θ) q := by
  obtain ⟨hlen, h2, hspec⟩ := make_some hm
  have hn : 0 < cs.length := by omega
  have hne : cs ≠ [] := List.length_pos_iff.1 hn
  have T := turns_tour hne hr h
  -- an arc and the segment after it
  have hi : ∀ i, i < cs.length → ∃ arc, arcs[i]? = some arc ∧
      arc = ⟨lapC cs i, Vec.fromDirectionAndMagnitude (lapΘ cs.length θ i) 1, Vec.fromDirectionAndMagnitude (lapΘ cs.length θ (i + 1)) 1⟩ ∧
      getSegment arcs i = some ⟨(lapC cs i).getPoint (lapΘ cs.length θ (i + 1)), (lapC cs (i + 1)).getPoint (lapΘ cs.length θ (i + 1))⟩ := by
    intro i hi
    have f1 := lapC_follows hn i
    rw [Nat.mod_eq_of_lt hi] at f1
    obtain ⟨n1, n2, a, b, a1, b1, a2, b2, a3, b3⟩ := hspec _ _ _ f1
    have s1 := right_unique (right_spec n1 n2) (T.tan i)
    -- the one before it
    have f0 := lapC_follows hn (i + cs.length - 1)
    rw [show i + cs.length - 1 + 1 = i + cs.length by omega, T.perC] at f0
    obtain ⟨m1, m2, a', b', a1', b1', a2', b2', a3', b3'⟩ := hspec _ _ _ f0
    have e0 : ((i + cs.length - 1) % cs.length + 1) % cs.length = i := by
      rw [Nat.mod_add_mod, show i + cs.length - 1 + 1 = i + cs.length by omega, Nat.add_mod_right, Nat.mod_eq_of_lt hi]
    rw [e0, a1] at b1'
    have eb : a = b' := Option.some.inj b1'
    subst eb
    have tan0 := T.tan (i + cs.length - 1)
    rw [show i + cs.length - 1 + 1 = i + cs.length by omega, T.perC, T.per] at tan0
    have s0 := SameAngle.trans (right_unique (right_spec m1 m2) tan0) (⟨1, by push_cast; ring⟩ : SameAngle (lapΘ cs.length θ i + 2 * π) _)
    refine ⟨a, a1, ?_, ?_⟩
    · obtain ⟨ac, as, ae⟩ := a
      dsimp only at a2 a3 b3' ⊢
      rw [a2, a3, b3', SameAngle.unit s1, SameAngle.unit s0]
    · unfold getSegment
      rw [a1, Option.bind_some, hlen, b1, Option.map_some, a2, b2, a3, b3, SameAngle.unit s1, getPoint_unit, getPoint_unit]
  have hturn : ∀ i, i < cs.length → lapΘ cs.length θ (i + 1) ≤ lapΘ cs.length θ i + 2 * π := by
    intro i hi
    have h1 := T.le (show i + 1 ≤ 0 + cs.length by omega)
    have h2 := T.le (Nat.zero_le i)
    rw [T.per] at h1
    linarith
  constructor
  · intro hcon i hlt
    obtain ⟨arc, a1, a2, a3⟩ := hi i hlt
    have := hcon i arc _ a1 a3
    rw [a2] at this
    rw [arc_greater (T.mono i) (hturn i hlt), seg_greater (T.tan i)] at this
    push Not at this
    exact ⟨this.1, fun g1 g2 => this.2 g1 g2⟩
  · intro hp i arc s ha hs
    have hlt : i < cs.length := by
      rw [← hlen]; exact (List.getElem?_eq_some_iff.1 ha).1
    obtain ⟨arc', a1, a2, a3⟩ := hi i hlt
    rw [ha] at a1
    rw [hs] at a3
    cases a1; cases a3
    rw [a2, arc_greater (T.mono i) (hturn i hlt), seg_greater (T.tan i)]
    push Not
    exact ⟨(hp i hlt).1, (hp i hlt).2⟩

end Verif.RealGeom
