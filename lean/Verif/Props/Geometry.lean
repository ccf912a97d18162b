import Verif.Lemmas.Geometry

/-!
# C22, C23, C24: `Intersects` and `Contains`
-/

set_option autoImplicit false
set_option linter.unusedSectionVars false

namespace Verif.Geo

open Verif.Geo.Spec

variable {K : Type} [Field K] [LinearOrder K] [IsStrictOrderedRing K]

/-! ## Triangles -/

/-- On a line: convex combinations of the points at 0, 1 and `c`. -/
theorem combination_iff (c t : K) :
    (∃ x y z, 0 ≤ x ∧ 0 ≤ y ∧ 0 ≤ z ∧ x + y + z = 1 ∧ t = y + z * c) ↔
      min 0 c ≤ t ∧ t ≤ max 1 c := by
  constructor
  · rintro ⟨x, y, z, x0, y0, z0, h, ht⟩
    have m1 : min 0 c ≤ 0 := min_le_left _ _
    have m2 : min 0 c ≤ c := min_le_right _ _
    have m3 : 1 ≤ max 1 c := le_max_left _ _
    have m4 : c ≤ max 1 c := le_max_right _ _
    have a1 := mul_nonneg x0 (sub_nonneg.2 m1)
    have a2 := mul_nonneg y0 (sub_nonneg.2 (le_trans m1 zero_le_one))
    have a3 := mul_nonneg z0 (sub_nonneg.2 m2)
    have b1 := mul_nonneg x0 (sub_nonneg.2 (le_trans zero_le_one m3))
    have b2 := mul_nonneg y0 (sub_nonneg.2 m3)
    have b3 := mul_nonneg z0 (sub_nonneg.2 m4)
    have hx : x = 1 - y - z := by linarith
    rw [hx] at a1 b1
    constructor <;> linarith
  · rintro ⟨h1, h2⟩
    by_cases c1 : t < 0
    · have hc : c ≤ t := by
        rcases min_le_iff.1 h1 with h | h
        · linarith
        · exact h
      have hc0 : c < 0 := by linarith
      refine ⟨1 - t / c, 0, t / c, ?_, le_refl _, div_nonneg_of_nonpos c1.le hc0.le, by ring, ?_⟩
      · have : t / c ≤ 1 := (div_le_one_of_neg hc0).2 hc
        linarith
      · rw [div_mul_cancel₀ _ (ne_of_lt hc0)]; ring
    by_cases c2 : 1 < t
    · have hc : t ≤ c := by
        rcases le_max_iff.1 h2 with h | h
        · linarith
        · exact h
      have hc0 : 0 < c - 1 := by linarith
      refine ⟨0, 1 - (t - 1) / (c - 1), (t - 1) / (c - 1), le_refl _, ?_,
        div_nonneg (by linarith) hc0.le, by ring, ?_⟩
      · have : (t - 1) / (c - 1) ≤ 1 := (div_le_one hc0).2 (by linarith)
        linarith
      · have : (t - 1) / (c - 1) * (c - 1) = t - 1 := div_mul_cancel₀ _ (ne_of_gt hc0)
        linear_combination -this
    exact ⟨1 - t, t, 0, by linarith, by linarith, le_refl _, by ring, by ring⟩

/-- The code is right about points on the lines of the first two edges. -/
theorem contains_degenerate (t : Triangle K) (p : Pt K)
    (h0 : (p.sub t.p0).det (t.p1.sub t.p0) = 0) (h1 : (p.sub t.p1).det (t.p2.sub t.p1) = 0) :
    (match t.projections p with
    | (some third, some test) => decide (min 0 third ≤ test) && decide (test ≤ max 1 third)
    | _ => decide (p = t.p0)) = true ↔ InTriangle p t := by
  obtain ⟨p0, p1, p2⟩ := t
  simp only at h0 h1
  by_cases h : p0 = p1
  · subst h
    by_cases h' : p0 = p2
    · subst h'
      simp only [Triangle.projections]
      simp only [ne_eq, not_true_eq_false, if_false, decide_false, Bool.and_false,
        Bool.false_eq_true, decide_eq_true_eq]
      constructor
      · rintro rfl
        exact ⟨1, 0, 0, zero_le_one, le_refl _, le_refl _, by ring, by ring, by ring⟩
      · rintro ⟨a, b, c, -, -, -, hs, hx, hy⟩
        exact Pt.ext (by linear_combination hx + p0.x * hs) (by linear_combination hy + p0.y * hs)
    · have e1 := project_of (s := ⟨p0, p2⟩) h' (p := p0) (t := 0) (by simp) (by simp)
      have e2 := project_eq (s := ⟨p0, p2⟩) h' p
      generalize (p.sub (⟨p0, p2⟩ : Segment K).start).dot (⟨p0, p2⟩ : Segment K).vector /
        (⟨p0, p2⟩ : Segment K).vector.dot (⟨p0, p2⟩ : Segment K).vector = u at e2
      obtain ⟨ux, uy⟩ := on_line (s := ⟨p0, p2⟩) h' h1 e2
      simp only at ux uy
      simp only [Triangle.projections, ne_eq, not_true_eq_false, if_false, h', not_false_eq_true,
        decide_true, Option.isNone_none, Bool.or_self, Bool.and_self, if_true, e1, e2,
        Bool.and_eq_true, decide_eq_true_eq]
      rw [min_self, max_eq_left (zero_le_one : (0:K) ≤ 1)]
      constructor
      · rintro ⟨u0, u1⟩
        exact ⟨1 - u, 0, u, by linarith, le_refl _, u0, by ring, by rw [ux]; ring, by rw [uy]; ring⟩
      · rintro ⟨a, b, c, a0, b0, c0, hs, hx, hy⟩
        simp only at hx hy
        have : u = c := by
          apply param_unique (s := ⟨p0, p2⟩) h'
          · simp only; rw [← ux, hx]; linear_combination p0.x * hs
          · simp only; rw [← uy, hy]; linear_combination p0.y * hs
        subst this
        exact ⟨c0, by linarith⟩
  · have e1 := project_eq (s := ⟨p0, p1⟩) h p2
    have e2 := project_eq (s := ⟨p0, p1⟩) h p
    generalize (p.sub (⟨p0, p1⟩ : Segment K).start).dot (⟨p0, p1⟩ : Segment K).vector /
        (⟨p0, p1⟩ : Segment K).vector.dot (⟨p0, p1⟩ : Segment K).vector = u at e2
    generalize (p2.sub (⟨p0, p1⟩ : Segment K).start).dot (⟨p0, p1⟩ : Segment K).vector /
        (⟨p0, p1⟩ : Segment K).vector.dot (⟨p0, p1⟩ : Segment K).vector = c at e1
    obtain ⟨ux, uy⟩ := on_line (s := ⟨p0, p1⟩) h h0 e2
    simp only at ux uy
    simp only [Triangle.projections, ne_eq, h, not_false_eq_true, if_true, e1, e2,
      Option.isNone_some, Bool.or_self, Bool.false_and, Bool.false_eq_true, if_false,
      Bool.and_eq_true, decide_eq_true_eq]
    by_cases hd : (p2.sub p0).det (p1.sub p0) = 0
    · obtain ⟨cx, cy⟩ := on_line (s := ⟨p0, p1⟩) h hd e1
      simp only at cx cy
      rw [← combination_iff]
      constructor
      · rintro ⟨x, y, z, x0, y0, z0, hs, hu⟩
        refine ⟨x, y, z, x0, y0, z0, hs, ?_, ?_⟩
        · simp only; rw [ux, cx, hu]; linear_combination -p0.x * hs
        · simp only; rw [uy, cy, hu]; linear_combination -p0.y * hs
      · rintro ⟨x, y, z, x0, y0, z0, hs, hx, hy⟩
        simp only at hx hy
        refine ⟨x, y, z, x0, y0, z0, hs, ?_⟩
        apply param_unique (s := ⟨p0, p1⟩) h
        · simp only; rw [← ux, hx, cx]; linear_combination p0.x * hs
        · simp only; rw [← uy, hy, cy]; linear_combination p0.y * hs
    · -- the point is the corner `p1`
      have hu : u = 1 := by
        unfold Pt.sub Pt.det at h1 hd
        simp only at h1 hd
        rw [ux, uy] at h1
        have : (u - 1) * ((p2.x - p0.x) * (p1.y - p0.y) - (p2.y - p0.y) * (p1.x - p0.x)) = 0 := by
          linear_combination -h1
        rcases mul_eq_zero.1 this with h | h
        · linarith
        · exact absurd h hd
      subst hu
      constructor
      · intro _
        exact ⟨0, 1, 0, le_refl _, zero_le_one, le_refl _, by ring, by simp only; rw [ux]; ring,
          by simp only; rw [uy]; ring⟩
      · intro _
        exact ⟨le_trans (min_le_left _ _) zero_le_one, le_max_left _ _⟩

/-- **C24.** `Triangle::Contains` is true exactly for the convex combinations of the three corners, for
triangles of either winding and for degenerate triangles. -/
theorem C24_triangle_contains (t : Triangle K) (p : Pt K) :
    t.contains p = true ↔ InTriangle p t := by
  unfold Triangle.contains
  simp only
  set d0 := (p.sub t.p0).det (t.p1.sub t.p0) with hd0
  set d1 := (p.sub t.p1).det (t.p2.sub t.p1) with hd1
  set d2 := (p.sub t.p2).det (t.p0.sub t.p2) with hd2
  -- the three determinants of a convex combination
  have dets : ∀ a b c : K, a + b + c = 1 → p.x = a * t.p0.x + b * t.p1.x + c * t.p2.x →
      p.y = a * t.p0.y + b * t.p1.y + c * t.p2.y →
      d0 = c * ((t.p2.sub t.p0).det (t.p1.sub t.p0)) ∧
      d1 = a * ((t.p2.sub t.p0).det (t.p1.sub t.p0)) ∧
      d2 = b * ((t.p2.sub t.p0).det (t.p1.sub t.p0)) := by
    intro a b c hs hx hy
    have ha : a = 1 - b - c := by linarith
    subst ha
    rw [hd0, hd1, hd2]
    unfold Pt.sub Pt.det
    simp only
    rw [hx, hy]
    refine ⟨by ring, by ring, by ring⟩
  have nn : ∀ x y d : K, 0 ≤ x → 0 ≤ y → 0 ≤ (x * d) * (y * d) := by
    intro x y d hx hy
    have := mul_nonneg (mul_nonneg hx hy) (mul_self_nonneg d)
    linarith
  by_cases h : d0 * d1 < 0
  · rw [if_pos h]
    constructor
    · intro h; cases h
    · rintro ⟨a, b, c, a0, b0, c0, hs, hx, hy⟩
      obtain ⟨e0, e1, e2⟩ := dets a b c hs hx hy
      have := nn c a ((t.p2.sub t.p0).det (t.p1.sub t.p0)) c0 a0
      rw [← e0, ← e1] at this
      linarith
  rw [if_neg h]
  by_cases h' : d0 = 0 ∧ d1 = 0
  · rw [if_pos h']
    exact contains_degenerate t p h'.1 h'.2
  rw [if_neg h']
  simp only [Bool.and_eq_true, decide_eq_true_eq]
  constructor
  · rintro ⟨g1, g2⟩
    have hsum : d0 + d1 + d2 = (t.p2.sub t.p0).det (t.p1.sub t.p0) := by
      rw [hd0, hd1, hd2]; unfold Pt.sub Pt.det; simp only; ring
    set D := d0 + d1 + d2 with hD
    have g0 : 0 ≤ d0 * d1 := not_lt.1 h
    -- all three have the sign of the sum
    have k : D ≠ 0 ∧ 0 ≤ d0 * D ∧ 0 ≤ d1 * D ∧ 0 ≤ d2 * D := by
      have q0 := mul_self_nonneg d0
      have q1 := mul_self_nonneg d1
      have q2 := mul_self_nonneg d2
      have e0 : d0 * D = d0 * d0 + d0 * d1 + d0 * d2 := by rw [hD]; ring
      have e1 : d1 * D = d0 * d1 + d1 * d1 + d1 * d2 := by rw [hD]; ring
      have e2 : d2 * D = d0 * d2 + d1 * d2 + d2 * d2 := by rw [hD]; ring
      refine ⟨?_, by linarith, by linarith, by linarith⟩
      intro hz
      apply h'
      rw [hz, mul_zero] at e0 e1
      exact ⟨mul_self_eq_zero.1 (by linarith), mul_self_eq_zero.1 (by linarith)⟩
    obtain ⟨kz, k0, k1, k2⟩ := k
    have pos : ∀ d : K, 0 ≤ d * D → 0 ≤ d / D := by
      intro d hd
      have h2 := mul_self_pos.2 kz
      have : d / D = d * D / (D * D) := by field_simp
      rw [this]
      exact div_nonneg hd h2.le
    have cr : ∀ x a b c : K, x * D = d1 * a + d2 * b + d0 * c →
        x = d1 / D * a + d2 / D * b + d0 / D * c := by
      intro x a b c hx
      have : d1 / D * a + d2 / D * b + d0 / D * c = (d1 * a + d2 * b + d0 * c) / D := by ring
      rw [this, eq_div_iff kz, hx]
    refine ⟨d1 / D, d2 / D, d0 / D, pos _ k1, pos _ k2, pos _ k0, ?_, ?_, ?_⟩
    · have : d1 / D + d2 / D + d0 / D = (d0 + d1 + d2) / D := by ring
      rw [this]; exact div_self kz
    · apply cr
      rw [hD, hd0, hd1, hd2]; unfold Pt.sub Pt.det; simp only; ring
    · apply cr
      rw [hD, hd0, hd1, hd2]; unfold Pt.sub Pt.det; simp only; ring
  · rintro ⟨a, b, c, a0, b0, c0, hs, hx, hy⟩
    obtain ⟨e0, e1, e2⟩ := dets a b c hs hx hy
    rw [e0, e1, e2]
    exact ⟨nn _ _ _ a0 b0, nn _ _ _ c0 b0⟩

/-- **C24.** The signed area is positive when the corners wind in the positive direction (the third
corner is to the left of the first edge); reversing the winding negates it. -/
theorem C24_signed_area (t : Triangle K) :
    (0 < t.signedArea ↔
      0 < (t.p1.x - t.p0.x) * (t.p2.y - t.p0.y) - (t.p1.y - t.p0.y) * (t.p2.x - t.p0.x)) ∧
    (⟨t.p0, t.p2, t.p1⟩ : Triangle K).signedArea = -t.signedArea ∧
    (⟨t.p1, t.p2, t.p0⟩ : Triangle K).signedArea = t.signedArea := by
  unfold Triangle.signedArea Pt.sub Pt.det
  simp only
  refine ⟨?_, by ring, by ring⟩
  have : (t.p1.x - t.p0.x) * (t.p2.y - t.p1.y) - (t.p1.y - t.p0.y) * (t.p2.x - t.p1.x) =
    (t.p1.x - t.p0.x) * (t.p2.y - t.p0.y) - (t.p1.y - t.p0.y) * (t.p2.x - t.p0.x) := by ring
  rw [this]
  constructor
  · intro h; linarith
  · intro h; linarith

/-- Both a degenerate and a proper case. -/
example : (⟨⟨0, 0⟩, ⟨4, 0⟩, ⟨0, 3⟩⟩ : Triangle ℚ).contains ⟨1, 1⟩ = true ∧
    (⟨⟨0, 0⟩, ⟨4, 0⟩, ⟨0, 3⟩⟩ : Triangle ℚ).contains ⟨3, 3⟩ = false ∧
    (⟨⟨0, 0⟩, ⟨1, 1⟩, ⟨3, 3⟩⟩ : Triangle ℚ).contains ⟨2, 2⟩ = true ∧
    (⟨⟨0, 0⟩, ⟨1, 1⟩, ⟨3, 3⟩⟩ : Triangle ℚ).contains ⟨4, 4⟩ = false := by decide +kernel

/-! ## Convex sets with edges -/

/-- On the way from a point where finitely many affine functions are non-negative to one where one of
them is negative, there is a point where all are non-negative and one is zero. -/
theorem crossing (fs : List (K × K)) (h : ∀ f ∈ fs, 0 ≤ f.1) (hn : ∃ f ∈ fs, f.2 < 0) :
    ∃ t, 0 ≤ t ∧ t ≤ 1 ∧ (∀ f ∈ fs, 0 ≤ f.1 + t * (f.2 - f.1)) ∧
      ∃ f ∈ fs, f.1 + t * (f.2 - f.1) = 0 := by
  induction fs with
  | nil => obtain ⟨f, hf, -⟩ := hn; simp at hf
  | cons f fs ih =>
    have hf := h f (by simp)
    have hfs : ∀ g ∈ fs, 0 ≤ g.1 := fun g hg => h g (by simp [hg])
    -- convexity
    have conv : ∀ (g : K × K) (t u : K), 0 ≤ g.1 → 0 ≤ t → t ≤ u → 0 ≤ g.1 + u * (g.2 - g.1) →
        0 ≤ g.1 + t * (g.2 - g.1) := by
      intro g t u h0 ht htu hu
      rcases le_or_gt 0 (g.2 - g.1) with hs | hs
      · have := mul_nonneg ht hs; linarith
      · have := mul_nonneg (sub_nonneg.2 htu) (neg_pos.2 hs).le; linarith
    have root : f.2 < 0 → 0 ≤ f.1 / (f.1 - f.2) ∧ f.1 / (f.1 - f.2) ≤ 1 ∧
        f.1 + f.1 / (f.1 - f.2) * (f.2 - f.1) = 0 := by
      intro h2
      have h3 : 0 < f.1 - f.2 := by linarith
      refine ⟨div_nonneg hf h3.le, (div_le_one h3).2 (by linarith), ?_⟩
      have := div_mul_cancel₀ f.1 (ne_of_gt h3)
      linear_combination -this
    by_cases hc : ∃ g ∈ fs, g.2 < 0
    · obtain ⟨t, t0, t1, ht, g, hg, hgz⟩ := ih hfs hc
      by_cases hft : 0 ≤ f.1 + t * (f.2 - f.1)
      · refine ⟨t, t0, t1, ?_, g, by simp [hg], hgz⟩
        intro g' hg'
        rcases List.mem_cons.1 hg' with rfl | hg'
        · exact hft
        · exact ht g' hg'
      · have hneg := not_le.1 hft
        have h2 : f.2 < 0 := by
          by_contra hcon
          have h2 := not_lt.1 hcon
          have := mul_nonneg t0 h2
          have := mul_nonneg (sub_nonneg.2 t1) hf
          linarith
        obtain ⟨r0, r1, rz⟩ := root h2
        have hrt : f.1 / (f.1 - f.2) ≤ t := by
          have h3 : 0 < f.1 - f.2 := by linarith
          rw [div_le_iff₀ h3]; linarith
        refine ⟨_, r0, r1, ?_, f, by simp, rz⟩
        intro g' hg'
        rcases List.mem_cons.1 hg' with rfl | hg'
        · rw [rz]
        · exact conv g' _ t (hfs g' hg') r0 hrt (ht g' hg')
    · have h2 : f.2 < 0 := by
        obtain ⟨g, hg, hgn⟩ := hn
        rcases List.mem_cons.1 hg with rfl | hg
        · exact hgn
        · exact absurd ⟨g, hg, hgn⟩ hc
      obtain ⟨r0, r1, rz⟩ := root h2
      refine ⟨_, r0, r1, ?_, f, by simp, rz⟩
      intro g' hg'
      rcases List.mem_cons.1 hg' with rfl | hg'
      · rw [rz]
      · apply conv g' _ 1 (hfs g' hg') r0 r1
        have : 0 ≤ g'.2 := by
          by_contra hcon
          exact hc ⟨g', hg', not_le.1 hcon⟩
        linarith

/-- A convex set with its edges and one of its points. -/
structure Poly (S : Pt K → Prop) (es : List (Segment K)) (r : Pt K) : Prop where
  conv : ∀ p q, S p → S q → ∀ x, OnSegment x ⟨p, q⟩ → S x
  sub : ∀ e ∈ es, ∀ x, OnSegment x e → S x
  rep : S r
  cross : ∀ p q, S p → ¬ S q → ∃ e ∈ es, ∃ x, OnSegment x e ∧ OnSegment x ⟨p, q⟩
  conn : ∀ T : Pt K → Prop, (∀ p q, T p → T q → ∀ x, OnSegment x ⟨p, q⟩ → T x) →
    (∀ e ∈ es, (T e.start ↔ T e.stop)) → (∃ e ∈ es, T e.start) → T r

theorem anyEdges_iff (as bs : List (Segment K)) : anyEdges as bs = true ↔
    ∃ a ∈ as, ∃ b ∈ bs, ∃ x, OnSegment x a ∧ OnSegment x b := by
  unfold anyEdges
  simp only [List.any_eq_true, intersectsSS_iff]

theorem meet_segment {S : Pt K → Prop} {es : List (Segment K)} {r : Pt K} (P : Poly S es r)
    (a : Segment K) : (∃ x, OnSegment x a ∧ S x) ↔ S a.start ∨ anyEdges [a] es = true := by
  rw [anyEdges_iff]
  constructor
  · rintro ⟨x, hx, hS⟩
    by_cases h : S a.start
    · exact Or.inl h
    · obtain ⟨e, he, y, hy, hy'⟩ := P.cross x a.start hS h
      exact Or.inr ⟨a, by simp, e, he, y, onSegment_conv hx (onSegment_start a) hy', hy⟩
  · rintro (h | ⟨a', ha', e, he, x, h1, h2⟩)
    · exact ⟨_, onSegment_start a, h⟩
    · rw [List.mem_singleton] at ha'
      subst ha'
      exact ⟨x, h1, P.sub e he x h2⟩

theorem meet {S S' : Pt K → Prop} {es es' : List (Segment K)} {r r' : Pt K} (P : Poly S es r)
    (P' : Poly S' es' r') :
    (∃ x, S x ∧ S' x) ↔ (S' r ∨ S r') ∨ anyEdges es es' = true := by
  rw [anyEdges_iff]
  constructor
  · rintro ⟨x, hS, hS'⟩
    by_contra hcon
    push Not at hcon
    obtain ⟨⟨h1, h2⟩, h3⟩ := hcon
    obtain ⟨e, he, y, hy, hyx⟩ := P'.cross x r hS' h1
    have hSy : S y := P.conv x r hS P.rep y hyx
    have no : ∀ e' ∈ es', ∀ p q, OnSegment p e' → OnSegment q e' → S p → S q := by
      intro e' he' p q hp hq hSp
      by_contra hSq
      obtain ⟨f, hf, z, hz, hz'⟩ := P.cross p q hSp hSq
      exact h3 f hf e' he' z hz (onSegment_conv hp hq hz')
    refine h2 (P'.conn S P.conv (fun e' he' => ⟨?_, ?_⟩) ⟨e, he, ?_⟩)
    · exact no e' he' _ _ (onSegment_start e') (onSegment_stop e')
    · exact no e' he' _ _ (onSegment_stop e') (onSegment_start e')
    · exact no e he y _ hy (onSegment_start e) hSy
  · rintro ((h | h) | ⟨e, he, e', he', x, h1, h2⟩)
    · exact ⟨r, P.rep, h⟩
    · exact ⟨r', h, P'.rep⟩
    · exact ⟨x, P.sub e he x h1, P'.sub e' he' x h2⟩

theorem inTriangle_corners (t : Triangle K) : InTriangle t.p0 t ∧ InTriangle t.p1 t ∧ InTriangle t.p2 t :=
  ⟨⟨1, 0, 0, zero_le_one, le_refl _, le_refl _, by ring, by ring, by ring⟩,
   ⟨0, 1, 0, le_refl _, zero_le_one, le_refl _, by ring, by ring, by ring⟩,
   ⟨0, 0, 1, le_refl _, le_refl _, zero_le_one, by ring, by ring, by ring⟩⟩

theorem inTriangle_conv (t : Triangle K) (p q : Pt K) (hp : InTriangle p t) (hq : InTriangle q t)
    (x : Pt K) (hx : OnSegment x ⟨p, q⟩) : InTriangle x t := by
  obtain ⟨a, b, c, a0, b0, c0, hs, px, py⟩ := hp
  obtain ⟨a', b', c', a0', b0', c0', hs', qx, qy⟩ := hq
  obtain ⟨u, u0, u1, ux, uy⟩ := hx
  simp only at ux uy
  have nn : ∀ y z : K, 0 ≤ y → 0 ≤ z → 0 ≤ y + u * (z - y) := by
    intro y z hy hz
    have := mul_nonneg u0 hz
    have := mul_nonneg (sub_nonneg.2 u1) hy
    linarith
  refine ⟨a + u * (a' - a), b + u * (b' - b), c + u * (c' - c), nn _ _ a0 a0', nn _ _ b0 b0',
    nn _ _ c0 c0', by linear_combination (1 - u) * hs + u * hs', ?_, ?_⟩
  · rw [ux, px, qx]; ring
  · rw [uy, py, qy]; ring

/-- A point of a degenerate triangle is on one of its edges. -/
theorem degenerate_on_edge (t : Triangle K) (p : Pt K) (hp : InTriangle p t)
    (hd : (t.p2.sub t.p0).det (t.p1.sub t.p0) = 0) : ∃ e ∈ t.edges, OnSegment p e := by
  obtain ⟨p0, p1, p2⟩ := t
  obtain ⟨a, b, c, a0, b0, c0, hs, px, py⟩ := hp
  simp only at hd px py
  by_cases h : p0 = p1
  · subst h
    exact ⟨⟨p0, p2⟩, by simp [Triangle.edges], c, c0, by linarith,
      by simp only; linear_combination px + p0.x * hs, by simp only; linear_combination py + p0.y * hs⟩
  · have e1 := project_eq (s := ⟨p0, p1⟩) h p2
    generalize (p2.sub (⟨p0, p1⟩ : Segment K).start).dot (⟨p0, p1⟩ : Segment K).vector /
        (⟨p0, p1⟩ : Segment K).vector.dot (⟨p0, p1⟩ : Segment K).vector = k at e1
    obtain ⟨kx, ky⟩ := on_line (s := ⟨p0, p1⟩) h hd e1
    simp only at kx ky
    set u := b + c * k with hu
    have ux : p.x = p0.x + u * (p1.x - p0.x) := by
      rw [px, kx, hu]; linear_combination p0.x * hs
    have uy : p.y = p0.y + u * (p1.y - p0.y) := by
      rw [py, ky, hu]; linear_combination p0.y * hs
    obtain ⟨m1, m2⟩ := (combination_iff k u).1 ⟨a, b, c, a0, b0, c0, hs, rfl⟩
    by_cases c1 : u < 0
    · have hk : k ≤ u := by
        rcases min_le_iff.1 m1 with h | h
        · linarith
        · exact h
      have hk0 : k < 0 := by linarith
      refine ⟨⟨p2, p0⟩, by simp [Triangle.edges], 1 - u / k, ?_, ?_, ?_, ?_⟩
      · have := (div_le_one_of_neg hk0).2 hk; linarith
      · have := div_nonneg_of_nonpos c1.le hk0.le; linarith
      · have := div_mul_cancel₀ u (ne_of_lt hk0)
        simp only; rw [ux, kx]; linear_combination -(p1.x - p0.x) * this
      · have := div_mul_cancel₀ u (ne_of_lt hk0)
        simp only; rw [uy, ky]; linear_combination -(p1.y - p0.y) * this
    by_cases c2 : 1 < u
    · have hk : u ≤ k := by
        rcases le_max_iff.1 m2 with h | h
        · linarith
        · exact h
      have hk0 : 0 < k - 1 := by linarith
      have := div_mul_cancel₀ (u - 1) (ne_of_gt hk0)
      refine ⟨⟨p1, p2⟩, by simp [Triangle.edges], (u - 1) / (k - 1), div_nonneg (by linarith) hk0.le,
        (div_le_one hk0).2 (by linarith), ?_, ?_⟩
      · simp only; rw [ux, kx]; linear_combination -(p1.x - p0.x) * this
      · simp only; rw [uy, ky]; linear_combination -(p1.y - p0.y) * this
    exact ⟨⟨p0, p1⟩, by simp [Triangle.edges], u, not_lt.1 c1, not_lt.1 c2, ux, uy⟩

theorem poly_triangle (t : Triangle K) : Poly (InTriangle · t) t.edges t.p0 := by
  obtain ⟨c0, c1, c2⟩ := inTriangle_corners t
  refine ⟨inTriangle_conv t, ?_, c0, ?_, ?_⟩
  · intro e he x hx
    simp only [Triangle.edges, List.mem_cons, List.not_mem_nil, or_false] at he
    rcases he with rfl | rfl | rfl
    · exact inTriangle_conv t _ _ c0 c1 x hx
    · exact inTriangle_conv t _ _ c1 c2 x hx
    · exact inTriangle_conv t _ _ c2 c0 x hx
  · intro p q hp hq
    by_cases hd : (t.p2.sub t.p0).det (t.p1.sub t.p0) = 0
    · obtain ⟨e, he, hpe⟩ := degenerate_on_edge t p hp hd
      exact ⟨e, he, p, hpe, onSegment_start (⟨p, q⟩ : Segment K)⟩
    · -- barycentric coordinates
      set D := (t.p2.sub t.p0).det (t.p1.sub t.p0) with hD
      have bary : ∀ z : Pt K, ∃ a b c, a + b + c = 1 ∧ z.x = a * t.p0.x + b * t.p1.x + c * t.p2.x ∧
          z.y = a * t.p0.y + b * t.p1.y + c * t.p2.y := by
        intro z
        have cr : ∀ d0 d1 d2 x a b c : K, x * D = d1 * a + d2 * b + d0 * c →
            x = d1 / D * a + d2 / D * b + d0 / D * c := by
          intro d0 d1 d2 x a b c hx
          have : d1 / D * a + d2 / D * b + d0 / D * c = (d1 * a + d2 * b + d0 * c) / D := by ring
          rw [this, eq_div_iff hd, hx]
        refine ⟨(z.sub t.p1).det (t.p2.sub t.p1) / D, (z.sub t.p2).det (t.p0.sub t.p2) / D,
          (z.sub t.p0).det (t.p1.sub t.p0) / D, ?_, ?_, ?_⟩
        · rw [← add_div, ← add_div, div_eq_one_iff_eq hd, hD]
          unfold Pt.sub Pt.det; simp only; ring
        · apply cr
          rw [hD]; unfold Pt.sub Pt.det; simp only; ring
        · apply cr
          rw [hD]; unfold Pt.sub Pt.det; simp only; ring
      obtain ⟨a, b, c, a0, b0, c0, hs, px, py⟩ := hp
      obtain ⟨a', b', c', hs', qx, qy⟩ := bary q
      have hneg : ∃ f ∈ [(a, a'), (b, b'), (c, c')], f.2 < 0 := by
        by_contra hcon
        push Not at hcon
        exact hq ⟨a', b', c', hcon (a, a') (by simp), hcon (b, b') (by simp), hcon (c, c') (by simp),
          hs', qx, qy⟩
      obtain ⟨u, u0, u1, hnn, f, hf, hz⟩ := crossing [(a, a'), (b, b'), (c, c')]
        (by simp [a0, b0, c0]) hneg
      have na := hnn (a, a') (by simp)
      have nb := hnn (b, b') (by simp)
      have nc := hnn (c, c') (by simp)
      simp only at na nb nc
      have hsum : (a + u * (a' - a)) + (b + u * (b' - b)) + (c + u * (c' - c)) = 1 := by
        linear_combination (1 - u) * hs + u * hs'
      set x : Pt K := ⟨p.x + u * (q.x - p.x), p.y + u * (q.y - p.y)⟩ with hx
      have xx : x.x = (a + u * (a' - a)) * t.p0.x + (b + u * (b' - b)) * t.p1.x +
          (c + u * (c' - c)) * t.p2.x := by rw [hx]; simp only; rw [px, qx]; ring
      have xy : x.y = (a + u * (a' - a)) * t.p0.y + (b + u * (b' - b)) * t.p1.y +
          (c + u * (c' - c)) * t.p2.y := by rw [hx]; simp only; rw [py, qy]; ring
      have hxq : OnSegment x ⟨p, q⟩ := ⟨u, u0, u1, rfl, rfl⟩
      have hz3 : a + u * (a' - a) = 0 ∨ b + u * (b' - b) = 0 ∨ c + u * (c' - c) = 0 := by
        simp only [List.mem_cons, List.not_mem_nil, or_false] at hf
        rcases hf with rfl | rfl | rfl
        · exact Or.inl hz
        · exact Or.inr (Or.inl hz)
        · exact Or.inr (Or.inr hz)
      clear hnn hf hz hneg
      generalize a + u * (a' - a) = A at *
      generalize b + u * (b' - b) = B at *
      generalize c + u * (c' - c) = C at *
      rcases hz3 with hz | hz | hz
      · refine ⟨⟨t.p1, t.p2⟩, by simp [Triangle.edges], x, ⟨C, nc, by linarith, ?_, ?_⟩, hxq⟩
        · rw [xx]; simp only; linear_combination t.p1.x * hsum + (t.p0.x - t.p1.x) * hz
        · rw [xy]; simp only; linear_combination t.p1.y * hsum + (t.p0.y - t.p1.y) * hz
      · refine ⟨⟨t.p2, t.p0⟩, by simp [Triangle.edges], x, ⟨A, na, by linarith, ?_, ?_⟩, hxq⟩
        · rw [xx]; simp only; linear_combination t.p2.x * hsum + (t.p1.x - t.p2.x) * hz
        · rw [xy]; simp only; linear_combination t.p2.y * hsum + (t.p1.y - t.p2.y) * hz
      · refine ⟨⟨t.p0, t.p1⟩, by simp [Triangle.edges], x, ⟨B, nb, by linarith, ?_, ?_⟩, hxq⟩
        · rw [xx]; simp only; linear_combination t.p0.x * hsum + (t.p2.x - t.p0.x) * hz
        · rw [xy]; simp only; linear_combination t.p0.y * hsum + (t.p2.y - t.p0.y) * hz
  · intro T _ hT hex
    simp only [Triangle.edges, List.mem_cons, List.not_mem_nil, or_false, forall_eq_or_imp,
      forall_eq, exists_eq_or_imp, exists_eq_left] at hT hex
    obtain ⟨t1, t2, t3⟩ := hT
    rcases hex with h | h | h
    · exact h
    · exact t1.2 h
    · exact t3.1 h

/-! ## Parallelograms -/

/-- The points `c + α u + β v`. -/
def InPar (c u v p : Pt K) : Prop :=
  ∃ α β, -1 ≤ α ∧ α ≤ 1 ∧ -1 ≤ β ∧ β ≤ 1 ∧
    p.x = c.x + α * u.x + β * v.x ∧ p.y = c.y + α * u.y + β * v.y

def parEdges (c u v : Pt K) : List (Segment K) :=
  [⟨(c.sub u).sub v, (c.add u).sub v⟩, ⟨(c.add u).sub v, (c.add u).add v⟩,
   ⟨(c.add u).add v, (c.sub u).add v⟩, ⟨(c.sub u).add v, (c.sub u).sub v⟩]

theorem inPar_conv (c u v p q : Pt K) (hp : InPar c u v p) (hq : InPar c u v q) (x : Pt K)
    (hx : OnSegment x ⟨p, q⟩) : InPar c u v x := by
  obtain ⟨a, b, a0, a1, b0, b1, px, py⟩ := hp
  obtain ⟨a', b', a0', a1', b0', b1', qx, qy⟩ := hq
  obtain ⟨t, t0, t1, tx, ty⟩ := hx
  simp only at tx ty
  have nn : ∀ y z : K, -1 ≤ y → y ≤ 1 → -1 ≤ z → z ≤ 1 →
      -1 ≤ y + t * (z - y) ∧ y + t * (z - y) ≤ 1 := by
    intro y z h1 h2 h3 h4
    have := mul_nonneg t0 (by linarith : 0 ≤ 1 + z)
    have := mul_nonneg t0 (by linarith : 0 ≤ 1 - z)
    have := mul_nonneg (sub_nonneg.2 t1) (by linarith : 0 ≤ 1 + y)
    have := mul_nonneg (sub_nonneg.2 t1) (by linarith : 0 ≤ 1 - y)
    constructor <;> linarith
  obtain ⟨n1, n2⟩ := nn a a' a0 a1 a0' a1'
  obtain ⟨n3, n4⟩ := nn b b' b0 b1 b0' b1'
  refine ⟨_, _, n1, n2, n3, n4, ?_, ?_⟩
  · rw [tx, px, qx]; ring
  · rw [ty, py, qy]; ring

/-- A point whose `β` is -1 or 1, or whose `α` is, is on an edge. -/
theorem par_on_edge {c u v p : Pt K} {α β : K} (a0 : -1 ≤ α) (a1 : α ≤ 1) (b0 : -1 ≤ β) (b1 : β ≤ 1)
    (px : p.x = c.x + α * u.x + β * v.x) (py : p.y = c.y + α * u.y + β * v.y)
    (h : α = 1 ∨ α = -1 ∨ β = 1 ∨ β = -1) : ∃ e ∈ parEdges c u v, OnSegment p e := by
  have h2 : (0 : K) < 2 := by norm_num
  rcases h with h | h | h | h
  · subst h
    refine ⟨_, List.mem_cons_of_mem _ (List.mem_cons_self ..), (β + 1) / 2,
      div_nonneg (by linarith) h2.le, (div_le_one h2).2 (by linarith), ?_, ?_⟩ <;>
      simp only [Pt.add, Pt.sub, px, py] <;> field_simp <;> ring
  · subst h
    refine ⟨_, List.mem_cons_of_mem _ (List.mem_cons_of_mem _ (List.mem_cons_of_mem _
      (List.mem_cons_self ..))), (1 - β) / 2,
      div_nonneg (by linarith) h2.le, (div_le_one h2).2 (by linarith), ?_, ?_⟩ <;>
      simp only [Pt.add, Pt.sub, px, py] <;> field_simp <;> ring
  · subst h
    refine ⟨_, List.mem_cons_of_mem _ (List.mem_cons_of_mem _ (List.mem_cons_self ..)), (1 - α) / 2,
      div_nonneg (by linarith) h2.le, (div_le_one h2).2 (by linarith), ?_, ?_⟩ <;>
      simp only [Pt.add, Pt.sub, px, py] <;> field_simp <;> ring
  · subst h
    refine ⟨_, List.mem_cons_self .., (α + 1) / 2,
      div_nonneg (by linarith) h2.le, (div_le_one h2).2 (by linarith), ?_, ?_⟩ <;>
      simp only [Pt.add, Pt.sub, px, py] <;> field_simp <;> ring

theorem inPar_corners (c u v : Pt K) : InPar c u v ((c.sub u).sub v) ∧ InPar c u v ((c.add u).sub v) ∧
    InPar c u v ((c.add u).add v) ∧ InPar c u v ((c.sub u).add v) := by
  have h : (-1 : K) ≤ 1 := by linarith [zero_lt_one (α := K)]
  refine ⟨⟨-1, -1, le_refl _, h, le_refl _, h, ?_, ?_⟩, ⟨1, -1, h, le_refl _, le_refl _, h, ?_, ?_⟩,
    ⟨1, 1, h, le_refl _, h, le_refl _, ?_, ?_⟩, ⟨-1, 1, le_refl _, h, h, le_refl _, ?_, ?_⟩⟩ <;>
    simp only [Pt.add, Pt.sub] <;> ring

theorem poly_par (c u v : Pt K) (hd : u.det v ≠ 0 ∨ u = ⟨0, 0⟩ ∨ v = ⟨0, 0⟩) :
    Poly (InPar c u v) (parEdges c u v) c := by
  obtain ⟨k0, k1, k2, k3⟩ := inPar_corners c u v
  have hone : (0 : K) < 1 := zero_lt_one
  refine ⟨inPar_conv c u v, ?_, ?_, ?_, ?_⟩
  · intro e he x hx
    simp only [parEdges, List.mem_cons, List.not_mem_nil, or_false] at he
    rcases he with rfl | rfl | rfl | rfl
    · exact inPar_conv c u v _ _ k0 k1 x hx
    · exact inPar_conv c u v _ _ k1 k2 x hx
    · exact inPar_conv c u v _ _ k2 k3 x hx
    · exact inPar_conv c u v _ _ k3 k0 x hx
  · exact ⟨0, 0, by linarith, by linarith, by linarith, by linarith, by ring, by ring⟩
  · intro p q hp hq
    obtain ⟨a, b, a0, a1, b0, b1, px, py⟩ := hp
    rcases hd with hd | rfl | rfl
    · -- coordinates of `q`
      obtain ⟨a', b', qx, qy⟩ : ∃ a' b', q.x = c.x + a' * u.x + b' * v.x ∧
          q.y = c.y + a' * u.y + b' * v.y := by
        have cr : ∀ n m x y z w : K, w * u.det v = x * u.det v + n * y + m * z →
            w = x + n / u.det v * y + m / u.det v * z := by
          intro n m x y z w h
          have : x + n / u.det v * y + m / u.det v * z = (x * u.det v + n * y + m * z) / u.det v := by
            field_simp
          rw [this, eq_div_iff hd, h]
        refine ⟨(q.sub c).det v / u.det v, u.det (q.sub c) / u.det v, ?_, ?_⟩
        · apply cr; unfold Pt.sub Pt.det; simp only; ring
        · apply cr; unfold Pt.sub Pt.det; simp only; ring
      have hneg : ∃ f ∈ [(1 - a, 1 - a'), (1 + a, 1 + a'), (1 - b, 1 - b'), (1 + b, 1 + b')],
          f.2 < 0 := by
        by_contra hcon
        push Not at hcon
        have n1 := hcon (1 - a, 1 - a') (by simp)
        have n2 := hcon (1 + a, 1 + a') (by simp)
        have n3 := hcon (1 - b, 1 - b') (by simp)
        have n4 := hcon (1 + b, 1 + b') (by simp)
        simp only at n1 n2 n3 n4
        exact hq ⟨a', b', by linarith, by linarith, by linarith, by linarith, qx, qy⟩
      obtain ⟨t, t0, t1, hnn, f, hf, hz⟩ := crossing
        [(1 - a, 1 - a'), (1 + a, 1 + a'), (1 - b, 1 - b'), (1 + b, 1 + b')]
        (by
          intro f hf
          simp only [List.mem_cons, List.not_mem_nil, or_false] at hf
          rcases hf with rfl | rfl | rfl | rfl <;> simp only <;> linarith) hneg
      have n1 := hnn (1 - a, 1 - a') (by simp)
      have n2 := hnn (1 + a, 1 + a') (by simp)
      have n3 := hnn (1 - b, 1 - b') (by simp)
      have n4 := hnn (1 + b, 1 + b') (by simp)
      simp only at n1 n2 n3 n4
      have hcase : a + t * (a' - a) = 1 ∨ a + t * (a' - a) = -1 ∨ b + t * (b' - b) = 1 ∨
          b + t * (b' - b) = -1 := by
        simp only [List.mem_cons, List.not_mem_nil, or_false] at hf
        rcases hf with rfl | rfl | rfl | rfl
        · exact Or.inl (by simp only at hz; linarith)
        · exact Or.inr (Or.inl (by simp only at hz; linarith))
        · exact Or.inr (Or.inr (Or.inl (by simp only at hz; linarith)))
        · exact Or.inr (Or.inr (Or.inr (by simp only at hz; linarith)))
      obtain ⟨e, he, hxe⟩ := par_on_edge (c := c) (u := u) (v := v)
        (p := ⟨p.x + t * (q.x - p.x), p.y + t * (q.y - p.y)⟩) (α := a + t * (a' - a))
        (β := b + t * (b' - b)) (by linarith) (by linarith) (by linarith) (by linarith)
        (by simp only; rw [px, qx]; ring) (by simp only; rw [py, qy]; ring) hcase
      exact ⟨e, he, _, hxe, t, t0, t1, rfl, rfl⟩
    · obtain ⟨e, he, hpe⟩ := par_on_edge (c := c) (u := ⟨0, 0⟩) (v := v) (p := p) (α := 1) (β := b)
        (by linarith) (le_refl _) b0 b1 (by rw [px]; ring) (by rw [py]; ring) (Or.inl rfl)
      exact ⟨e, he, p, hpe, onSegment_start (⟨p, q⟩ : Segment K)⟩
    · obtain ⟨e, he, hpe⟩ := par_on_edge (c := c) (u := u) (v := ⟨0, 0⟩) (p := p) (α := a) (β := 1)
        a0 a1 (by linarith) (le_refl _) (by rw [px]; ring) (by rw [py]; ring)
        (Or.inr (Or.inr (Or.inl rfl)))
      exact ⟨e, he, p, hpe, onSegment_start (⟨p, q⟩ : Segment K)⟩
  · intro T hT hedge hex
    simp only [parEdges, List.mem_cons, List.not_mem_nil, or_false, forall_eq_or_imp,
      forall_eq, exists_eq_or_imp, exists_eq_left] at hedge hex
    obtain ⟨t1, t2, t3, t4⟩ := hedge
    have all : T ((c.sub u).sub v) ∧ T ((c.add u).add v) := by
      rcases hex with h | h | h | h
      · exact ⟨h, t2.1 (t1.1 h)⟩
      · exact ⟨t1.2 h, t2.1 h⟩
      · exact ⟨t4.1 (t3.1 h), h⟩
      · exact ⟨t4.1 h, t3.2 h⟩
    refine hT _ _ all.1 all.2 c ⟨1 / 2, by norm_num, by norm_num, ?_, ?_⟩ <;>
      simp only [Pt.add, Pt.sub] <;> ring

/-! ## Rectangles and quads -/

theorem inRect_iff (r : Rect K) (p : Pt K) (h : Proper (.rect r)) : InRect p r ↔
    InPar r.center ⟨r.width / 2, 0⟩ ⟨0, r.height / 2⟩ p := by
  obtain ⟨hx, hy⟩ := h
  -- one dimension
  have one : ∀ lo hi x : K, lo ≤ hi → ((lo ≤ x ∧ x ≤ hi) ↔
      ∃ α, -1 ≤ α ∧ α ≤ 1 ∧ x = (1 / 2 * lo + 1 / 2 * hi) + α * ((hi - lo) / 2)) := by
    intro lo hi x hle
    constructor
    · rintro ⟨h1, h2⟩
      rcases lt_or_eq_of_le hle with h | h
      · have hp : 0 < hi - lo := by linarith
        refine ⟨(2 * x - lo - hi) / (hi - lo), ?_, ?_, ?_⟩
        · rw [le_div_iff₀ hp]; linarith
        · rw [div_le_one hp]; linarith
        · have := div_mul_cancel₀ (2 * x - lo - hi) (ne_of_gt hp)
          linear_combination -this / 2
      · refine ⟨0, by linarith [zero_lt_one (α := K)], by linarith [zero_lt_one (α := K)], ?_⟩
        subst h
        have : x = lo := le_antisymm h2 h1
        rw [this]; ring
    · rintro ⟨α, h1, h2, h3⟩
      have a1 := mul_nonneg (by linarith : 0 ≤ 1 + α) (sub_nonneg.2 hle)
      have a2 := mul_nonneg (by linarith : 0 ≤ 1 - α) (sub_nonneg.2 hle)
      rw [h3]
      constructor <;> linarith
  unfold InRect InPar Rect.center Rect.width Rect.height
  simp only
  constructor
  · rintro ⟨h1, h2, h3, h4⟩
    obtain ⟨α, a0, a1, ax⟩ := (one _ _ _ hx).1 ⟨h1, h2⟩
    obtain ⟨β, b0, b1, bx⟩ := (one _ _ _ hy).1 ⟨h3, h4⟩
    exact ⟨α, β, a0, a1, b0, b1, by rw [ax]; ring, by rw [bx]; ring⟩
  · rintro ⟨α, β, a0, a1, b0, b1, px, py⟩
    obtain ⟨h1, h2⟩ := (one r.xMin r.xMax p.x hx).2 ⟨α, a0, a1, by rw [px]; ring⟩
    obtain ⟨h3, h4⟩ := (one r.yMin r.yMax p.y hy).2 ⟨β, b0, b1, by rw [py]; ring⟩
    exact ⟨h1, h2, h3, h4⟩

theorem rect_edges (r : Rect K) :
    r.edges = parEdges r.center ⟨r.width / 2, 0⟩ ⟨0, r.height / 2⟩ := by
  unfold Rect.edges parEdges Rect.center Rect.width Rect.height Pt.add Pt.sub
  simp only [List.cons.injEq, Segment.mk.injEq, Pt.mk.injEq, and_true]
  refine ⟨⟨⟨?_, ?_⟩, ?_, ?_⟩, ⟨⟨?_, ?_⟩, ?_, ?_⟩, ⟨⟨?_, ?_⟩, ?_, ?_⟩, ⟨?_, ?_⟩, ?_, ?_⟩ <;> ring

theorem poly_congr {S S' : Pt K → Prop} {es : List (Segment K)} {r : Pt K} (h : ∀ p, S p ↔ S' p)
    (P : Poly S' es r) : Poly S es r := by
  have : S = S' := funext fun p => propext (h p)
  rw [this]; exact P

theorem poly_rect (r : Rect K) (h : Proper (.rect r)) : Poly (InRect · r) r.edges r.center := by
  apply poly_congr (fun p => inRect_iff r p h)
  rw [rect_edges]
  apply poly_par
  by_cases hw : r.width = 0
  · right; left; rw [hw]; simp
  · by_cases hh : r.height = 0
    · right; right; rw [hh]; simp
    · left
      unfold Pt.det
      simp only [zero_mul, sub_zero]
      exact mul_ne_zero (div_ne_zero hw (by norm_num)) (div_ne_zero hh (by norm_num))

theorem inQuad_iff (q : Quad K) (p : Pt K) : InQuad p q ↔
    InPar q.center q.semiAxes.1 q.semiAxes.2 p := by
  unfold InQuad InPar Quad.semiAxes
  simp only
  constructor <;>
  · rintro ⟨α, β, a0, a1, b0, b1, px, py⟩
    exact ⟨α, β, a0, a1, b0, b1, by rw [px]; ring, by rw [py]; ring⟩

theorem quad_edges (q : Quad K) : q.edges = parEdges q.center q.semiAxes.1 q.semiAxes.2 := rfl

theorem poly_quad (q : Quad K) (h : Proper (.quad q)) : Poly (InQuad · q) q.edges q.center := by
  apply poly_congr (fun p => inQuad_iff q p)
  rw [quad_edges]
  apply poly_par
  by_cases hw : q.width = 0
  · right; left; unfold Quad.semiAxes; rw [hw]; simp
  · by_cases hh : q.height = 0
    · right; right; unfold Quad.semiAxes; rw [hh]; simp
    · left
      have : q.semiAxes.1.det q.semiAxes.2 = q.width * q.height / 4 := by
        unfold Quad.semiAxes Pt.det
        simp only
        linear_combination q.width * q.height / 4 * h.2
      rw [this]
      exact div_ne_zero (mul_ne_zero hw hh) (by norm_num)

/-- quad.cc:100-107: `Contains` is right. -/
theorem quad_contains (q : Quad K) (p : Pt K) (h : Proper (.quad q)) :
    q.contains p = true ↔ InQuad p q := by
  obtain ⟨hw, hcs⟩ := h
  unfold Quad.contains Quad.unitAxes
  simp only
  set b := Pt.det ⟨q.cos, q.sin⟩ (p.sub q.center) with hb
  set a := Pt.dot ⟨q.cos, q.sin⟩ (p.sub q.center) - q.shear * b with ha
  have px : p.x = q.center.x + a * q.cos + b * (q.shear * q.cos - q.sin) := by
    rw [ha, hb]; unfold Pt.dot Pt.det Pt.sub; simp only
    linear_combination (q.center.x - p.x) * hcs
  have py : p.y = q.center.y + a * q.sin + b * (q.shear * q.sin + q.cos) := by
    rw [ha, hb]; unfold Pt.dot Pt.det Pt.sub; simp only
    linear_combination (q.center.y - p.y) * hcs
  -- one dimension
  have one : ∀ x w : K, |x| ≤ 1 / 2 * |w| → ∃ α, -1 ≤ α ∧ α ≤ 1 ∧ x = α * (w / 2) := by
    intro x w hx
    by_cases hw : w = 0
    · subst hw
      rw [abs_zero, mul_zero] at hx
      have : x = 0 := abs_nonpos_iff.1 hx
      exact ⟨0, by linarith [zero_lt_one (α := K)], by linarith [zero_lt_one (α := K)], by rw [this]; ring⟩
    · have hwp : 0 < |w| := abs_pos.2 hw
      have : |x / (w / 2)| ≤ 1 := by
        rw [abs_div, abs_div, abs_of_pos (by norm_num : (0 : K) < 2),
          div_le_one (div_pos hwp (by norm_num))]
        linarith
      obtain ⟨h1, h2⟩ := abs_le.1 this
      refine ⟨x / (w / 2), h1, h2, ?_⟩
      rw [div_mul_cancel₀ _ (div_ne_zero hw (by norm_num))]
  constructor
  · intro h
    by_cases hc : |b| > 1 / 2 * |q.height|
    · rw [if_pos hc] at h; cases h
    rw [if_neg hc, decide_eq_true_eq] at h
    obtain ⟨β, b0, b1, hβ⟩ := one b q.height (not_lt.1 hc)
    obtain ⟨α, a0, a1, hα⟩ := one a q.width (by rw [abs_of_nonneg hw]; exact h)
    refine ⟨α, β, a0, a1, b0, b1, ?_, ?_⟩
    · rw [px, hα, hβ]; ring
    · rw [py, hα, hβ]; ring
  · rintro ⟨α, β, a0, a1, b0, b1, hx, hy⟩
    have e1 : b = β * (q.height / 2) := by
      rw [hb]; unfold Pt.det Pt.sub; simp only
      rw [hx, hy]; linear_combination β * (q.height / 2) * hcs
    have e2 : a = α * (q.width / 2) := by
      rw [ha, e1]; unfold Pt.dot Pt.sub; simp only
      rw [hx, hy]; linear_combination (α * q.width / 2 + β * q.height * q.shear / 2) * hcs
    have ab : ∀ t w : K, -1 ≤ t → t ≤ 1 → |t * (w / 2)| ≤ 1 / 2 * |w| := by
      intro t w h1 h2
      rw [abs_mul, abs_div, abs_of_pos (by norm_num : (0 : K) < 2)]
      have := mul_nonneg (sub_nonneg.2 (abs_le.2 ⟨h1, h2⟩)) (abs_nonneg w)
      linarith
    rw [if_neg (not_lt.2 (by rw [e1]; exact ab β _ b0 b1)), decide_eq_true_eq, e2]
    have := ab α q.width a0 a1
    rwa [abs_of_nonneg hw] at this

theorem rect_contains (r : Rect K) (p : Pt K) : r.contains p = true ↔ InRect p r := by
  unfold Rect.contains InRect
  simp only [Bool.and_eq_true, decide_eq_true_eq, ge_iff_le, and_assoc]

theorem triangle_point {t : Triangle K} (h : t.isPoint = true) (p : Pt K) :
    InTriangle p t ↔ p = t.p0 := by
  simp only [Triangle.isPoint, Bool.and_eq_true, decide_eq_true_eq] at h
  obtain ⟨h1, h2⟩ := h
  unfold InTriangle
  rw [← h1, ← h2]
  constructor
  · rintro ⟨a, b, c, -, -, -, hs, hx, hy⟩
    exact Pt.ext (by linear_combination hx + t.p0.x * hs) (by linear_combination hy + t.p0.y * hs)
  · rintro rfl
    exact ⟨1, 0, 0, zero_le_one, le_refl _, le_refl _, by ring, by ring, by ring⟩

theorem rect_point {r : Rect K} (h : r.isPoint = true) (p : Pt K) : InRect p r ↔ p = r.center := by
  simp only [Rect.isPoint, Bool.and_eq_true, decide_eq_true_eq] at h
  obtain ⟨h1, h2⟩ := h
  unfold Rect.width at h1
  unfold Rect.height at h2
  have e1 : r.xMax = r.xMin := by linarith
  have e2 : r.yMax = r.yMin := by linarith
  unfold InRect Rect.center
  rw [e1, e2]
  constructor
  · rintro ⟨a, b, c, d⟩
    refine Pt.ext ?_ ?_
    · simp only; rw [le_antisymm b a]; ring
    · simp only; rw [le_antisymm d c]; ring
  · rintro rfl
    simp only
    refine ⟨?_, ?_, ?_, ?_⟩ <;> linarith

theorem quad_point {q : Quad K} (h : q.isPoint = true) (p : Pt K) : InQuad p q ↔ p = q.center := by
  simp only [Quad.isPoint, Bool.and_eq_true, decide_eq_true_eq] at h
  obtain ⟨h1, h2⟩ := h
  unfold InQuad
  rw [h1, h2]
  constructor
  · rintro ⟨a, b, -, -, -, -, hx, hy⟩
    exact Pt.ext (by rw [hx]; ring) (by rw [hy]; ring)
  · rintro rfl
    have := zero_lt_one (α := K)
    exact ⟨0, 0, by linarith, by linarith, by linarith, by linarith, by ring, by ring⟩

/-- The shape of all tests between a segment and a convex set. -/
theorem segment_case {S : Pt K → Prop} {es : List (Segment K)} {r : Pt K} (P : Poly S es r)
    (a : Segment K) (contains : Pt K → Bool) (isPoint : Bool)
    (hc : ∀ p, contains p = true ↔ S p) (hp : isPoint = true → ∀ p, S p ↔ p = r) :
    (if a.start = a.stop then contains a.start
      else if isPoint then intersectsPS r a
      else if contains a.start then true
      else anyEdges [a] es) = true ↔ ∃ x, OnSegment x a ∧ S x := by
  by_cases h1 : a.start = a.stop
  · rw [if_pos h1, hc]
    obtain ⟨a1, a2⟩ := a
    simp only at h1
    subst h1
    simp only [onSegment_degenerate, exists_eq_left]
  rw [if_neg h1]
  by_cases h2 : isPoint = true
  · rw [if_pos h2, intersectsPS_iff]
    simp only [hp h2, exists_eq_right]
  rw [if_neg h2, meet_segment P a]
  by_cases h3 : contains a.start = true
  · rw [if_pos h3]
    simp only [true_iff]
    exact Or.inl ((hc _).1 h3)
  · rw [if_neg h3]
    rw [hc] at h3
    simp only [h3, false_or]

/-- The shape of all tests between two convex sets. -/
theorem poly_case {S S' : Pt K → Prop} {es es' : List (Segment K)} {r r' : Pt K} (P : Poly S es r)
    (P' : Poly S' es' r') (contains contains' : Pt K → Bool) (isPoint isPoint' : Bool)
    (hc : ∀ p, contains p = true ↔ S p) (hc' : ∀ p, contains' p = true ↔ S' p)
    (hp : isPoint = true → ∀ p, S p ↔ p = r) (hp' : isPoint' = true → ∀ p, S' p ↔ p = r') :
    (if isPoint then contains' r
      else if isPoint' then contains r'
      else if contains' r || contains r' then true
      else anyEdges es es') = true ↔ ∃ x, S x ∧ S' x := by
  by_cases h1 : isPoint = true
  · rw [if_pos h1, hc']
    simp only [hp h1, exists_eq_left]
  rw [if_neg h1]
  by_cases h2 : isPoint' = true
  · rw [if_pos h2, hc]
    simp only [hp' h2, exists_eq_right]
  rw [if_neg h2, meet P P', ← hc, ← hc']
  by_cases h3 : (contains' r || contains r') = true
  · rw [if_pos h3]
    simp only [true_iff]
    exact Or.inl (Bool.or_eq_true _ _ ▸ h3)
  · rw [if_neg h3]
    have h3' : ¬ (contains' r = true ∨ contains r' = true) := by rwa [← Bool.or_eq_true]
    simp only [h3', false_or]

theorem rect_rect (a b : Rect K) (ha : Proper (.rect a)) (hb : Proper (.rect b)) :
    intersectsRR a b = true ↔ ∃ p, InRect p a ∧ InRect p b := by
  obtain ⟨a1, a2⟩ := ha
  obtain ⟨b1, b2⟩ := hb
  unfold intersectsRR
  by_cases h1 : a.xMin > b.xMax ∨ b.xMin > a.xMax
  · rw [if_pos h1]
    constructor
    · intro h; cases h
    · rintro ⟨p, ⟨p1, p2, p3, p4⟩, q1, q2, q3, q4⟩
      rcases h1 with h | h <;> linarith
  rw [if_neg h1]
  by_cases h2 : a.yMin > b.yMax ∨ b.yMin > a.yMax
  · rw [if_pos h2]
    constructor
    · intro h; cases h
    · rintro ⟨p, ⟨p1, p2, p3, p4⟩, q1, q2, q3, q4⟩
      rcases h2 with h | h <;> linarith
  rw [if_neg h2]
  push Not at h1 h2
  simp only [true_iff]
  exact ⟨⟨max a.xMin b.xMin, max a.yMin b.yMin⟩,
    ⟨le_max_left _ _, max_le a1 h1.2, le_max_left _ _, max_le a2 h2.2⟩,
    ⟨le_max_right _ _, max_le h1.1 b1, le_max_right _ _, max_le h2.1 b2⟩⟩

/-- **C22.** `Intersects` is true exactly when the two shapes have a point in common, for every pair of
points, segments, triangles, rectangles and quads, degenerate ones included. -/
theorem C22_intersects_iff (a b : Shape K) (ha : Proper a) (hb : Proper b) :
    intersects a b = true ↔ ∃ p, In p a ∧ In p b := by
  have sw : ∀ {P Q : Pt K → Prop}, (∃ p, P p ∧ Q p) ↔ ∃ p, Q p ∧ P p := by
    intro P Q
    constructor <;> rintro ⟨p, h1, h2⟩ <;> exact ⟨p, h2, h1⟩
  have PT := fun t : Triangle K => poly_triangle t
  cases a <;> cases b <;> simp only [intersects, In]
  case point.point => simp
  case point.segment => rw [intersectsPS_iff]; simp
  case point.triangle => rw [C24_triangle_contains]; simp
  case point.rect => rw [rect_contains]; simp
  case point.quad => rw [quad_contains _ _ hb]; simp
  case segment.point => rw [intersectsPS_iff]; simp
  case segment.segment => exact intersectsSS_iff _ _
  case segment.triangle s t =>
    exact segment_case (PT t) s t.contains t.isPoint (C24_triangle_contains t) triangle_point
  case segment.rect s r =>
    exact segment_case (poly_rect r hb) s r.contains r.isPoint (rect_contains r) rect_point
  case segment.quad s q =>
    exact segment_case (poly_quad q hb) s q.contains q.isPoint (fun p => quad_contains q p hb)
      quad_point
  case triangle.point => rw [C24_triangle_contains]; simp
  case triangle.segment t s =>
    rw [sw]
    exact segment_case (PT t) s t.contains t.isPoint (C24_triangle_contains t) triangle_point
  case triangle.triangle t t' =>
    exact poly_case (PT t) (PT t') t.contains t'.contains t.isPoint t'.isPoint
      (C24_triangle_contains t) (C24_triangle_contains t') triangle_point triangle_point
  case triangle.rect t r =>
    exact poly_case (PT t) (poly_rect r hb) t.contains r.contains t.isPoint r.isPoint
      (C24_triangle_contains t) (rect_contains r) triangle_point rect_point
  case triangle.quad t q =>
    exact poly_case (PT t) (poly_quad q hb) t.contains q.contains t.isPoint q.isPoint
      (C24_triangle_contains t) (fun p => quad_contains q p hb) triangle_point quad_point
  case rect.point => rw [rect_contains]; simp
  case rect.segment r s =>
    rw [sw]
    exact segment_case (poly_rect r ha) s r.contains r.isPoint (rect_contains r) rect_point
  case rect.triangle r t =>
    rw [sw]
    exact poly_case (PT t) (poly_rect r ha) t.contains r.contains t.isPoint r.isPoint
      (C24_triangle_contains t) (rect_contains r) triangle_point rect_point
  case rect.rect r r' => exact rect_rect r r' ha hb
  case rect.quad r q =>
    exact poly_case (poly_rect r ha) (poly_quad q hb) r.contains q.contains r.isPoint q.isPoint
      (rect_contains r) (fun p => quad_contains q p hb) rect_point quad_point
  case quad.point => rw [quad_contains _ _ ha]; simp
  case quad.segment q s =>
    rw [sw]
    exact segment_case (poly_quad q ha) s q.contains q.isPoint (fun p => quad_contains q p ha)
      quad_point
  case quad.triangle q t =>
    rw [sw]
    exact poly_case (PT t) (poly_quad q ha) t.contains q.contains t.isPoint q.isPoint
      (C24_triangle_contains t) (fun p => quad_contains q p ha) triangle_point quad_point
  case quad.rect q r =>
    rw [sw]
    exact poly_case (poly_rect r hb) (poly_quad q ha) r.contains q.contains r.isPoint q.isPoint
      (rect_contains r) (fun p => quad_contains q p ha) rect_point quad_point
  case quad.quad q q' =>
    exact poly_case (poly_quad q ha) (poly_quad q' hb) q.contains q'.contains q.isPoint q'.isPoint
      (fun p => quad_contains q p ha) (fun p => quad_contains q' p hb) quad_point quad_point

/-- **C23.** `Intersects` is symmetric. -/
theorem C23_intersects_symm (a b : Shape K) (ha : Proper a) (hb : Proper b) :
    intersects a b = intersects b a := by
  rw [Bool.eq_iff_iff, C22_intersects_iff a b ha hb, C22_intersects_iff b a hb ha]
  constructor <;> rintro ⟨p, h1, h2⟩ <;> exact ⟨p, h2, h1⟩

/-- Shapes of all types that are proper, with both answers. -/
example :
    let t : Shape ℚ := .triangle ⟨⟨0, 0⟩, ⟨4, 0⟩, ⟨0, 3⟩⟩
    let q : Shape ℚ := .quad ⟨⟨3, 3⟩, 2, -1, 3 / 5, 4 / 5, 1⟩
    let r : Shape ℚ := .rect ⟨2, 1, 5, 2⟩
    let s : Shape ℚ := .segment ⟨⟨5, 5⟩, ⟨3, 3⟩⟩
    Proper t ∧ Proper q ∧ Proper r ∧ Proper s ∧ intersects t r = true ∧ intersects t q = false ∧
      intersects r q = true ∧ intersects s r = false ∧ intersects s q = true ∧ intersects q s = true := by
  refine ⟨trivial, ⟨by norm_num, by norm_num⟩, ⟨by norm_num, by norm_num⟩, trivial, ?_⟩
  decide +kernel

end Verif.Geo
