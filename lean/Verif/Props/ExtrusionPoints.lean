import Verif.Lemmas.ExtrusionCaps
import Verif.Props.BrushTipMove

/-!
# C68: the outline of a tip and of its caps
-/

set_option autoImplicit false

namespace Verif.RealGeom

open Spec Real TipShape

theorem hull_union (s o : TipShape) : hull (s.circles ++ o.circles) = convexHull ℝ (region s ∪ region o) := by
  apply Set.Subset.antisymm
  · refine convexHull_min ?_ (convex_convexHull ℝ _)
    rintro z ⟨c, hc, hz⟩
    apply subset_convexHull
    rcases List.mem_append.1 hc with g | g
    · exact Or.inl (disc_region g hz)
    · exact Or.inr (disc_region g hz)
  · refine convexHull_min ?_ (convex_convexHull ℝ _)
    apply Set.union_subset
    · exact convexHull_mono fun z ⟨c, hc, hz⟩ => ⟨c, List.mem_append.2 (Or.inl hc), hz⟩
    · exact convexHull_mono fun z ⟨c, hc, hz⟩ => ⟨c, List.mem_append.2 (Or.inr hc), hz⟩

theorem make_valid {s : TipState} {m : ℝ} {t : TipShape} (h : TipShape.make s m = some t) : ValidTip s := by
  by_contra hv
  rw [(C65_make s m).1.2 hv] at h
  cases h

theorem single_center {s : TipState} {m : ℝ} {t : TipShape} (h : TipShape.make s m = some t) (hl : t.circles.length = 1) :
    ∃ c, t.circles = [c] ∧ t.center = c.center := by
  obtain ⟨t', r, x, y, ht, hc, -, -, -, -, -, -, -, -, -, hcase⟩ := make_cases (make_valid h) m
  rw [h] at ht
  obtain rfl := Option.some.inj ht
  rcases hcase with ⟨e, -⟩ | ⟨e, -⟩ | ⟨e, -⟩ | ⟨e, -⟩ | ⟨x', e, -⟩
  · exact ⟨_, e, hc⟩
  all_goals rw [e] at hl; simp at hl

/-- The points of a whole tip, the left ones and then back the right ones, outline the tip clockwise: they are on its boundary, no point of
the tip is further than the chord height from the polygon and each point is on its side of the line through the center in the direction
of travel. Missing: corners that turn by less than 0.00001 radians, for which this is not true, and circles that need more points than
the limit. -/
theorem C68_whole_partial (s : TipState) (m h : ℝ) (t : TipShape) (v : ℂ) (points : ExtrusionPoints) (hl : Slanted s)
    (ht : TipShape.make s m = some t) (hh : 0 < h) (hbig : NotHuge h t.circles) (hsh : Sharp t.circles) :
    ∃ l r, t.appendWholeShape h v points = some ⟨points.left ++ l, points.right ++ r⟩ ∧ Outlines (region t) h (l ++ r.reverse) ∧
      (∀ p ∈ l, NotRight v s.position p) ∧ ∀ p ∈ r, NotLeft v s.position p := by
  obtain ⟨r, hs, ho⟩ := make_ordered hl ht
  have hcen : t.center = s.position := ((C65_make _ _).2 _ ht).1
  rw [← hcen]
  rcases ho with hlen | ho
  · obtain ⟨c, hc, hcc⟩ := single_center ht hlen
    exact circle_whole hc (by rw [hs.radius c (by rw [hc]; simp)]; exact hs.pos) hcc hh hbig v points
  · exact ho.whole hh hbig hsh v points

theorem notRight_scale {x : ℝ} (hx : 0 < x) {u c p : ℂ} (h : NotRight u c p) : NotRight (x * u) c p := by
  unfold NotRight at *
  rw [Complex.re_ofReal_mul, Complex.im_ofReal_mul]
  have := mul_nonneg hx.le h
  linarith

theorem notLeft_scale {x : ℝ} (hx : 0 < x) {u c p : ℂ} (h : NotLeft u c p) : NotLeft (x * u) c p := by
  unfold NotLeft at *
  rw [Complex.re_ofReal_mul, Complex.im_ofReal_mul]
  have := mul_nonneg hx.le (sub_nonneg.2 h)
  linarith

theorem arg_div_scale {x : ℝ} (hx : 0 < x) (w u : ℂ) : Complex.arg (w / (x * u)) = Complex.arg (w / u) := by
  rw [show w / (x * u) = ((x⁻¹ : ℝ) : ℂ) * (w / u) by rw [Complex.ofReal_inv, mul_comm (x : ℂ), div_mul_eq_div_div]; ring]
  exact Complex.arg_real_mul _ (inv_pos.2 hx)

/-- A tip that moves: the points of the start cap and of the end cap outline the tip at both positions and all between, on the sides of the
direction of travel. Missing: besides corners that turn by less than 0.00001 radians and circles that need more points than the limit,
moves within 0.00001 radians of the direction of an edge of a rounded tip, for which this is not true. -/
theorem C68_moved_partial (s1 s2 : TipState) (m h : ℝ) (t1 t2 : TipShape) (points : ExtrusionPoints) (hl : Slanted s1)
    (h1 : TipShape.make s1 m = some t1) (h2 : TipShape.make s2 m = some t2) (hm : Moved s1 s2) (hne : s1.position ≠ s2.position)
    (hline : ¬InLine t1.circles (s2.position - s1.position)) (hh : 0 < h) (hbig : NotHuge h t1.circles) (hsh : Sharp t1.circles)
    (hac : Across t1.circles (s2.position - s1.position)) :
    ∃ l r l' r', appendStartcap t1 t2 h points = some ⟨points.left ++ l, points.right ++ r⟩ ∧
      appendEndcap t1 t2 h ⟨points.left ++ l, points.right ++ r⟩ = some ⟨points.left ++ l ++ l', points.right ++ r ++ r'⟩ ∧
      Outlines (convexHull ℝ (region t1 ∪ region t2)) h ((l ++ l') ++ (r ++ r').reverse) ∧
      (∀ p ∈ l, NotRight (s2.position - s1.position) s1.position p) ∧ (∀ p ∈ r, NotLeft (s2.position - s1.position) s1.position p) ∧
      (∀ p ∈ l', NotRight (s2.position - s1.position) s2.position p) ∧ ∀ p ∈ r', NotLeft (s2.position - s1.position) s2.position p := by
  obtain ⟨q, rfl⟩ := hm
  dsimp only at hne hline hac ⊢
  have hmv := make_moved (p := q) h1
  rw [h2] at hmv
  have hshp := Option.some.inj hmv
  obtain ⟨r, hs, ho⟩ := make_ordered hl h1
  have hcen : t1.center = s1.position := ((C65_make _ _).2 _ h1).1
  have hsingle := single_center h1
  have hsingle' := single_center h2
  generalize s1.position = p1 at *
  have hv : q - p1 ≠ 0 := sub_ne_zero.2 hne.symm
  have hoc : t2.circles = t1.circles.map (shift (q - p1)) := by rw [hshp]
  have hocen : t2.center = q := by rw [hshp]
  have hx : 0 < ‖q - p1‖ := norm_pos_iff.2 hv
  have hum := unit_mul (v := q - p1)
  have hu := unit_norm (v := q - p1)
  have hfwd : forwardDirection t1 t2 = Vec.asUnitVec (q - p1) := by
    unfold forwardDirection
    rw [hcen, hocen, if_neg hne]
  rw [← hull_union]
  generalize Vec.asUnitVec (q - p1) = u at *
  have key : ∃ l r l' r', appendStartcap t1 t2 h points = some ⟨points.left ++ l, points.right ++ r⟩ ∧
      appendEndcap t1 t2 h ⟨points.left ++ l, points.right ++ r⟩ = some ⟨points.left ++ l ++ l', points.right ++ r ++ r'⟩ ∧
      Outlines (hull (t1.circles ++ t2.circles)) h ((l ++ l') ++ (r ++ r').reverse) ∧
      (∀ p ∈ l, NotRight u t1.center p) ∧ (∀ p ∈ r, NotLeft u t1.center p) ∧
      (∀ p ∈ l', NotRight u t2.center p) ∧ ∀ p ∈ r', NotLeft u t2.center p := by
    rcases ho with hlen | ho
    · have hol : t2.circles.length = 1 := by rw [hoc, List.length_map, hlen]
      obtain ⟨c, hc, hcc⟩ := hsingle hlen
      obtain ⟨d, hd, hdd⟩ := hsingle' hol
      have hcd : d = shift (q - p1) c := by
        rw [hc, hd, List.map_singleton] at hoc
        exact List.singleton_injective hoc
      have hr : d.radius = c.radius := by rw [hcd]; rfl
      have hr0 : 0 ≤ c.radius := by rw [hs.radius c (by rw [hc]; simp)]; exact hs.pos
      have hb : Beside c d := by
        refine ⟨by rw [← hcc, ← hdd, hcen, hocen]; exact hne, ?_⟩
        rw [hr, sub_self, abs_zero]
        refine mul_nonneg (Real.cos_nonneg_of_mem_Icc ⟨?_, ?_⟩) (norm_nonneg _)
        · have := Real.pi_gt_three; unfold collinear; linarith
        · have := Real.pi_gt_three; unfold collinear; linarith
      have := circle_caps hc hd hr0 (by rw [hr]; exact hr0) hcc hdd hb hh (by
        intro e he
        rw [hc, hd] at he
        have hcb := hbig c (by rw [hc]; simp)
        simp only [List.mem_append, List.mem_singleton] at he
        rcases he with rfl | rfl
        · exact hcb
        · rw [hr]; exact hcb) points
      rwa [hfwd] at this
    · have hoc' : t2.circles = t1.circles.map (shift ((‖q - p1‖ : ℝ) * u)) := by rw [hoc]; congr 2
      refine ho.moved_caps hu hx hoc' hfwd ?_ hsh ?_ hh hbig points
      · by_contra hcon
        push Not at hcon
        refine hline ⟨ho.two, fun a ha b hb => ?_⟩
        have := hcon b hb a ha
        rw [hum, Complex.re_ofReal_mul, Complex.im_ofReal_mul]
        unfold lft Vec.determinant at this
        linear_combination (norm (q - p1)) * this
      · intro i c d hf hcd hr
        have := hac i c d hf hcd hr
        rwa [hum, arg_div_scale hx, arg_div_scale hx] at this
  obtain ⟨l, r, l', r', k1, k2, k3, k4, k5, k6, k7⟩ := key
  rw [hcen] at k4 k5
  rw [hocen] at k6 k7
  rw [hum]
  exact ⟨l, r, l', r', k1, k2, k3, fun p hp => notRight_scale hx (k4 p hp), fun p hp => notLeft_scale hx (k5 p hp),
    fun p hp => notRight_scale hx (k6 p hp), fun p hp => notLeft_scale hx (k7 p hp)⟩

/-- Two round tips of any two sizes: the points of the start cap and of the end cap outline both and all between. Missing: circles that
need more points than the limit, and a circle that is nearly in the other, so that its arc is less than 0.00001 radians. -/
theorem C68_round_partial (s1 s2 : TipState) (m1 m2 h : ℝ) (t1 t2 : TipShape) (c d : Circle) (points : ExtrusionPoints)
    (h1 : TipShape.make s1 m1 = some t1) (h2 : TipShape.make s2 m2 = some t2) (hc : t1.circles = [c]) (hd : t2.circles = [d])
    (hb : Beside c d) (hh : 0 < h) (hbig : NotHuge h [c, d]) :
    ∃ l r l' r', appendStartcap t1 t2 h points = some ⟨points.left ++ l, points.right ++ r⟩ ∧
      appendEndcap t1 t2 h ⟨points.left ++ l, points.right ++ r⟩ = some ⟨points.left ++ l ++ l', points.right ++ r ++ r'⟩ ∧
      Outlines (convexHull ℝ (region t1 ∪ region t2)) h ((l ++ l') ++ (r ++ r').reverse) ∧
      (∀ p ∈ l, NotRight (s2.position - s1.position) s1.position p) ∧ (∀ p ∈ r, NotLeft (s2.position - s1.position) s1.position p) ∧
      (∀ p ∈ l', NotRight (s2.position - s1.position) s2.position p) ∧ ∀ p ∈ r', NotLeft (s2.position - s1.position) s2.position p := by
  have hcen : t1.center = s1.position := ((C65_make _ _).2 _ h1).1
  have hcen' : t2.center = s2.position := ((C65_make _ _).2 _ h2).1
  obtain ⟨c', ec, hcc⟩ := single_center h1 (by rw [hc]; rfl)
  obtain ⟨d', ed, hdd⟩ := single_center h2 (by rw [hd]; rfl)
  rw [hc] at ec
  rw [hd] at ed
  obtain rfl := List.singleton_injective ec
  obtain rfl := List.singleton_injective ed
  have hne : s1.position ≠ s2.position := by rw [← hcen, ← hcen', hcc, hdd]; exact hb.1
  have hx : 0 < ‖s2.position - s1.position‖ := norm_pos_iff.2 (sub_ne_zero.2 hne.symm)
  have hum := unit_mul (v := s2.position - s1.position)
  have hfwd : forwardDirection t1 t2 = Vec.asUnitVec (s2.position - s1.position) := by
    unfold forwardDirection
    rw [hcen, hcen', if_neg hne]
  rw [← hull_union]
  have r1 : 0 ≤ c.radius := by
    obtain ⟨-, -, -, r, hr, hr0, -⟩ := (C65_make _ _).2 _ h1
    rw [hr c (by rw [hc]; simp)]; exact hr0
  have r2 : 0 ≤ d.radius := by
    obtain ⟨-, -, -, r, hr, hr0, -⟩ := (C65_make _ _).2 _ h2
    rw [hr d (by rw [hd]; simp)]; exact hr0
  obtain ⟨l, r, l', r', k1, k2, k3, k4, k5, k6, k7⟩ := circle_caps hc hd r1 r2 hcc hdd hb hh (by rw [hc, hd]; exact hbig) points
  rw [hcen, hfwd] at k4 k5
  rw [hcen', hfwd] at k6 k7
  generalize Vec.asUnitVec (s2.position - s1.position) = u at *
  rw [hum]
  exact ⟨l, r, l', r', k1, k2, k3, fun p hp => notRight_scale hx (k4 p hp), fun p hp => notLeft_scale hx (k5 p hp),
    fun p hp => notRight_scale hx (k6 p hp), fun p hp => notLeft_scale hx (k7 p hp)⟩

/-! ## Examples -/

theorem pill_follows {i : ℕ} {c d : Circle} (h : Follows (pillShape 0).circles i c d) :
    (i = 0 ∧ c = ⟨1, 1⟩ ∧ d = ⟨-1, 1⟩) ∨ (i = 1 ∧ c = ⟨-1, 1⟩ ∧ d = ⟨1, 1⟩) := by
  obtain ⟨h1, h2⟩ := h
  have hi : i < 2 := by have := (List.getElem?_eq_some_iff.1 h1).1; simpa [pillShape] using this
  interval_cases i <;> simp [pillShape] at h1 h2 <;> subst h1 h2 <;> simp

theorem pill_sharp : Sharp (pillShape 0).circles := by
  have hpi := Real.pi_gt_three
  intro i c d e h1 h2 _ _
  have key : (e.center - d.center) / (d.center - c.center) = -1 := by
    rcases pill_follows h1 with ⟨rfl, rfl, rfl⟩ | ⟨rfl, rfl, rfl⟩ <;> rcases pill_follows h2 with ⟨g, g1, rfl⟩ | ⟨g, g1, rfl⟩ <;>
      simp [pillShape] at g <;> norm_num
  rw [key, Complex.arg_neg_one, abs_of_pos (by linarith)]
  unfold collinear; linarith

theorem pill_huge : NotHuge (1 / 100) (pillShape 0).circles := by
  intro c hc
  simp only [pillShape, List.mem_cons, List.not_mem_nil, or_false] at hc
  rcases hc with rfl | rfl <;> norm_num

/-- A line with round ends. -/
example (v : ℂ) (points : ExtrusionPoints) : ∃ l r,
    (pillShape 0).appendWholeShape (1 / 100) v points = some ⟨points.left ++ l, points.right ++ r⟩ ∧
      Outlines (region (pillShape 0)) (1 / 100) (l ++ r.reverse) ∧ (∀ p ∈ l, NotRight v 0 p) ∧ ∀ p ∈ r, NotLeft v 0 p :=
  C68_whole_partial (pillTip 0) (1 / 10) (1 / 100) (pillShape 0) v points (pill_slanted 0) (tip_make (pill_make 0)).2 (by norm_num) pill_huge
    pill_sharp

/-- It moves to its side. -/
example (points : ExtrusionPoints) : ∃ l r l' r',
    appendStartcap (pillShape 0) (pillShape Complex.I) (1 / 100) points = some ⟨points.left ++ l, points.right ++ r⟩ ∧
      appendEndcap (pillShape 0) (pillShape Complex.I) (1 / 100) ⟨points.left ++ l, points.right ++ r⟩ =
        some ⟨points.left ++ l ++ l', points.right ++ r ++ r'⟩ ∧
      Outlines (convexHull ℝ (region (pillShape 0) ∪ region (pillShape Complex.I))) (1 / 100) ((l ++ l') ++ (r ++ r').reverse) := by
  have hpi := Real.pi_gt_three
  obtain ⟨l, r, l', r', h1, h2, h3, -⟩ := C68_moved_partial (pillTip 0) (pillTip Complex.I) (1 / 10) (1 / 100) (pillShape 0) (pillShape Complex.I)
    points (pill_slanted 0) (tip_make (pill_make 0)).2 (tip_make (pill_make Complex.I)).2 ⟨Complex.I, rfl⟩
    (by simp [pillTip, Complex.I_ne_zero.symm]) (by
      rintro ⟨-, h⟩
      have := h ⟨(0 : ℂ) + 1, 1⟩ (by simp [pillShape]) ⟨(0 : ℂ) - 1, 1⟩ (by simp [pillShape])
      norm_num [pillTip] at this) (by norm_num) pill_huge pill_sharp (by
      intro i c d hf _ _
      have e1 : Complex.arg (((2 : ℝ) : ℂ) * Complex.I) = π / 2 := by rw [Complex.arg_real_mul _ (by norm_num), Complex.arg_I]
      have e2 : Complex.arg (((2 : ℝ) : ℂ) * -Complex.I) = -(π / 2) := by rw [Complex.arg_real_mul _ (by norm_num), Complex.arg_neg_I]
      have q : collinear ≤ π / 2 := by unfold collinear; linarith
      have f1 : ((-1 : ℂ) - 1) / (Complex.I - 0) = ((2 : ℝ) : ℂ) * Complex.I := by
        rw [sub_zero, div_eq_iff Complex.I_ne_zero, mul_assoc, Complex.I_mul_I]; norm_num
      have f2 : ((1 : ℂ) - -1) / (Complex.I - 0) = ((2 : ℝ) : ℂ) * -Complex.I := by
        rw [sub_zero, div_eq_iff Complex.I_ne_zero, mul_assoc, neg_mul, Complex.I_mul_I]; norm_num
      rcases pill_follows hf with ⟨rfl, rfl, rfl⟩ | ⟨rfl, rfl, rfl⟩ <;> dsimp only [pillTip] <;> rw [f1, f2, e1, e2, abs_neg, abs_of_pos (by linarith)] <;>
        exact ⟨q, q⟩)
  exact ⟨l, r, l', r', h1, h2, h3⟩

/-- Round tips of two sizes. -/
example (points : ExtrusionPoints) : ∃ t1 t2 l r l' r', TipShape.make ⟨0, 2, 2, 1, 0, 0, 0⟩ (1 / 10) = some t1 ∧
    TipShape.make ⟨5, 6, 6, 1, 0, 0, 0⟩ (1 / 10) = some t2 ∧
    appendStartcap t1 t2 (1 / 100) points = some ⟨points.left ++ l, points.right ++ r⟩ ∧
      appendEndcap t1 t2 (1 / 100) ⟨points.left ++ l, points.right ++ r⟩ = some ⟨points.left ++ l ++ l', points.right ++ r ++ r'⟩ ∧
      Outlines (convexHull ℝ (region t1 ∪ region t2)) (1 / 100) ((l ++ l') ++ (r ++ r').reverse) := by
  have m1 : TipShape.make ⟨0, 2, 2, 1, 0, 0, 0⟩ (1 / 10) = some ⟨0, [⟨0, 1⟩]⟩ := by
    unfold TipShape.make makeShapeControlCircles calculateCircleRadius
    rw [show max (1 / 10 : ℝ) floatMin = 1 / 10 by unfold floatMin; norm_num]
    norm_num
  have m2 : TipShape.make ⟨5, 6, 6, 1, 0, 0, 0⟩ (1 / 10) = some ⟨5, [⟨5, 3⟩]⟩ := by
    unfold TipShape.make makeShapeControlCircles calculateCircleRadius
    rw [show max (1 / 10 : ℝ) floatMin = 1 / 10 by unfold floatMin; norm_num]
    norm_num
  obtain ⟨l, r, l', r', h1, h2, h3, -⟩ := C68_round_partial _ _ _ _ (1 / 100) _ _ ⟨0, 1⟩ ⟨5, 3⟩ points m1 m2 rfl rfl (by
    refine ⟨by norm_num, ?_⟩
    have := Real.one_sub_sq_div_two_le_cos (x := collinear / 2)
    norm_num [collinear] at this ⊢
    linarith) (by norm_num) (by
    intro c hc
    simp only [List.mem_cons, List.not_mem_nil, or_false] at hc
    rcases hc with rfl | rfl <;> norm_num)
  exact ⟨_, _, l, r, l', r', m1, m2, h1, h2, h3⟩

end Verif.RealGeom
