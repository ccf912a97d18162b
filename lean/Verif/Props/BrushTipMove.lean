import Verif.Lemmas.BrushTipMove
import Verif.Props.BrushTipExtrusion

/-!
# C67: the tangents between two positions of a tip
-/

set_option autoImplicit false

namespace Verif.RealGeom

open Spec Real TipShape

theorem hull_region (t : TipShape) : region t = hull t.circles := rfl

/-- A tip that only moves, however little: the joined shape is the convex hull of the tip at both positions, unless the tip is a line that
moves along itself. -/
theorem C67_moved (s1 s2 : TipState) (m : ℝ) (e1 e2 : TipExtrusion) (l1 : Slanted s1) (h1 : TipExtrusion.make s1 m = some e1)
    (h2 : TipExtrusion.make s2 m = some e2) (hm : Moved s1 s2) (hne : s1.position ≠ s2.position) :
    ∃ ix js, tangentCircleIndices e1.shape e2.shape = some ix ∧ Joined e1.shape e2.shape ix js ∧
      (hull js = convexHull ℝ (region e1.shape ∪ region e2.shape) ↔ ¬InLine e1.shape.circles (s2.position - s1.position)) := by
  obtain ⟨q, rfl⟩ := hm
  dsimp only at hne ⊢
  obtain ⟨rfl, ht1⟩ := tip_make h1
  obtain ⟨-, ht2⟩ := tip_make h2
  have hmv := make_moved (p := q) ht1
  rw [ht2] at hmv
  have hsh := Option.some.inj hmv
  obtain ⟨r, hs, ho⟩ := make_ordered l1 ht1
  have hcen : e1.shape.center = e1.state.position := ((C65_make _ _).2 _ ht1).1
  generalize e1.state.position = p1 at *
  have hv : q - p1 ≠ 0 := sub_ne_zero.2 hne.symm
  generalize hs1 : e1.shape = s at *
  generalize hs2 : e2.shape = o at *
  have hoc : o.circles = s.circles.map (shift (q - p1)) := by rw [hsh]
  have hocen : o.center = q := by rw [hsh]
  have ro : ∀ c ∈ o.circles, c.radius = r := by
    intro c hc
    rw [hoc, List.mem_map] at hc
    obtain ⟨d, hd, rfl⟩ := hc
    exact hs.radius d hd
  -- the hull of circles of the joined shape is never more
  have hsub : ∀ ix js, Joined s o ix js → hull js ⊆ convexHull ℝ (region s ∪ region o) := by
    intro ix js hj
    refine convexHull_min ?_ (convex_convexHull ℝ _)
    rintro z ⟨c, hc, hz⟩
    apply subset_convexHull
    rcases joined_mem hj hc with g | g
    · exact Or.inl (disc_region g hz)
    · exact Or.inr (disc_region g hz)
  have hsup : ∀ ix js, Joined s o ix js → (∀ φ e, e ∈ s.circles ∨ e ∈ o.circles → ∃ e' ∈ js, along φ e.center ≤ along φ e'.center) →
      hull js = convexHull ℝ (region s ∪ region o) := by
    intro ix js hj hall
    refine Set.Subset.antisymm (hsub ix js hj) (convexHull_min ?_ (convex_convexHull ℝ _))
    have hjr : ∀ c ∈ (⟨0, js⟩ : TipShape).circles, c.radius = r := by
      intro c hc
      rcases joined_mem hj hc with g | g
      · exact hs.radius c g
      · exact ro c g
    apply Set.union_subset
    · refine (region_subset_iff (s := ⟨0, js⟩) (o := s) hs.pos hjr (fun c hc => by rw [hs.radius c hc]; exact hs.pos)).2 ?_
      rintro ⟨φ, t, ht, hlt⟩
      obtain ⟨e', he', hle⟩ := hall φ t (Or.inl ht)
      have := hlt e' he'
      rw [hs.radius t ht] at this
      linarith
    · refine (region_subset_iff (s := ⟨0, js⟩) (o := o) hs.pos hjr (fun c hc => by rw [ro c hc]; exact hs.pos)).2 ?_
      rintro ⟨φ, t, ht, hlt⟩
      obtain ⟨e', he', hle⟩ := hall φ t (Or.inr ht)
      have := hlt e' he'
      rw [ro t ht] at this
      linarith
  rcases ho with hlen | ho
  · have hol : o.circles.length = 1 := by rw [hoc, List.length_map, hlen]
    have hix : tangentCircleIndices s o = some ⟨(0, 0), (0, 0)⟩ := by
      unfold tangentCircleIndices
      rw [if_pos ⟨hlen, hol⟩]
    obtain ⟨js, hj⟩ := joined_exists (s := s) (o := o) (ix := ⟨(0, 0), (0, 0)⟩) (by simp [hlen]) (by simp [hlen]) (by simp [hol]) (by simp [hol])
    refine ⟨_, js, hix, hj, ?_⟩
    have hnot : ¬InLine s.circles (q - p1) := by
      rintro ⟨h2, -⟩; omega
    rw [iff_true_right hnot]
    refine hsup _ js hj fun φ e he => ⟨e, ?_, le_refl _⟩
    obtain ⟨a, b, ha, hb, rfl⟩ := hj
    rw [List.mem_append]
    have hend : ∀ {cs run : List Circle}, cs.length = 1 → Run cs 0 0 run → ∀ e ∈ cs, e ∈ run := by
      intro cs run h1 hr e he
      obtain ⟨i, hi⟩ := List.mem_iff_getElem?.1 he
      have := (List.getElem?_eq_some_iff.1 hi).1
      obtain rfl : i = 0 := by omega
      exact (run_ends hr hi hi).1
    rcases he with he | he
    · exact Or.inl (hend hlen ha e he)
    · exact Or.inr (hend hol hb e he)
  · have hx : 0 < ‖q - p1‖ := norm_pos_iff.2 hv
    have hum := unit_mul (v := q - p1)
    have hu := unit_norm (v := q - p1)
    have hfwd : forwardDirection s o = Vec.asUnitVec (q - p1) := by
      unfold forwardDirection
      rw [hcen, hocen, if_neg hne]
    have hlin : ∀ z : ℂ, lft (Vec.asUnitVec (q - p1)) z * ‖q - p1‖ = (q - p1).re * z.im - (q - p1).im * z.re := by
      intro z
      have e1 := congrArg Complex.re hum
      have e2 := congrArg Complex.im hum
      rw [Complex.re_ofReal_mul] at e1
      rw [Complex.im_ofReal_mul] at e2
      rw [e1, e2]
      unfold lft Vec.determinant; ring
    generalize Vec.asUnitVec (q - p1) = u at *
    have hoc' : o.circles = s.circles.map (shift ((‖q - p1‖ : ℝ) * u)) := by rw [hoc]; congr 2
    obtain ⟨k, l, c, d, hix, hc, hd, il, ir⟩ := ho.moved_indices hu hx hoc' hfwd
    have hk := (List.getElem?_eq_some_iff.1 hc).1
    have hl := (List.getElem?_eq_some_iff.1 hd).1
    have hol : o.circles.length = s.circles.length := by rw [hoc, List.length_map]
    obtain ⟨js, hj⟩ := joined_exists (s := s) (o := o) (ix := ⟨(k, k), (l, l)⟩) hk hl (by rw [hol]; exact hk) (by rw [hol]; exact hl)
    refine ⟨_, js, hix, hj, ?_⟩
    have hcm := List.mem_of_getElem? hc
    have hdm := List.mem_of_getElem? hd
    have hiff : ∀ a b : Circle, lft u a.center = lft u b.center ↔
        (q - p1).re * (a.center.im - b.center.im) = (q - p1).im * (a.center.re - b.center.re) := by
      intro a b
      have ea := hlin a.center
      have eb := hlin b.center
      constructor
      · intro e
        rw [e] at ea
        linarith
      · intro e
        have : (lft u a.center - lft u b.center) * ‖q - p1‖ = 0 := by linarith
        rcases mul_eq_zero.1 this with g | g
        · linarith
        · exact absurd g hx.ne'
    rcases lt_or_eq_of_le (il d hdm).1 with hlt | heq
    · have hnot : ¬InLine s.circles (q - p1) := by
        rintro ⟨-, h⟩
        exact hlt.ne' ((hiff c d).2 (h d hdm c hcm))
      rw [iff_true_right hnot]
      exact hsup _ js hj (ho.moved_cover hu hx hoc' hc hd il ir hlt hj)
    · have hin : InLine s.circles (q - p1) := by
        refine ⟨ho.two, fun a ha b hb => (hiff b a).1 ?_⟩
        have := (il a ha).1
        have := (il b hb).1
        have := (ir a ha).1
        have := (ir b hb).1
        linarith
      refine iff_of_false ?_ (not_not.2 hin)
      intro he
      obtain ⟨e, hem, hall⟩ := ho.moved_line hu hx hoc' hc hd il ir heq hj
      have hsubset : region o ⊆ region ⟨0, js⟩ := by
        rw [hull_region ⟨0, js⟩, he]
        exact Set.Subset.trans (Set.subset_union_right) (subset_convexHull ℝ _)
      have hjr : ∀ c ∈ (⟨0, js⟩ : TipShape).circles, c.radius = r := by
        intro c hc
        rcases joined_mem hj hc with g | g
        · exact hs.radius c g
        · exact ro c g
      refine (region_subset_iff (s := ⟨0, js⟩) (o := o) hs.pos hjr (fun c hc => by rw [ro c hc]; exact hs.pos)).1 hsubset ?_
      refine ⟨Vec.direction u, e, hem, fun e' he' => ?_⟩
      have hal : ∀ z, along (Vec.direction u) z = fwd u z := by
        intro z
        unfold along fwd Vec.dotProduct
        have e1 := re_eq u
        have e2 := im_eq u
        rw [hu, one_mul] at e1 e2
        rw [← e1, ← e2]
      rw [hal, hal, ro e hem]
      have := hall e' he'
      linarith

/-- A tip that is a line with round ends. -/
noncomputable def pillTip (p : ℂ) : TipState := ⟨p, 4, 2, 1, 0, 0, 0⟩

noncomputable def pillShape (p : ℂ) : TipShape := ⟨p, [⟨p + 1, 1⟩, ⟨p - 1, 1⟩]⟩

noncomputable def pillX (p : ℂ) : TipExtrusion := ⟨pillTip p, pillShape p⟩

theorem pill_slanted (p : ℂ) : Slanted (pillTip p) := by
  have := Real.pi_pos
  unfold Slanted pillTip; dsimp only; rw [abs_zero]; linarith

theorem pill_make (p : ℂ) : TipExtrusion.make (pillTip p) (1 / 10) = some (pillX p) := by
  unfold TipExtrusion.make TipShape.make makeShapeControlCircles calculateCircleRadius pillTip pillX pillShape
  rw [show max (1 / 10 : ℝ) floatMin = 1 / 10 by unfold floatMin; norm_num]
  norm_num [makeCircle, rotate]
  refine ⟨rfl, ?_, ?_⟩
  · apply Complex.ext <;> simp <;> ring
  · apply Complex.ext <;> simp <;> ring

/-- A tip that is a line and moves along itself: the tangents are said to be good without being looked at, but the joined shape is not the
hull of the tip at both positions: the front is not in it. -/
theorem C67_moved_counterexample : ∃ s1 s2 m τ e1 e2, Slanted s1 ∧ TipExtrusion.make s1 m = some e1 ∧ TipExtrusion.make s2 m = some e2 ∧
    Moved s1 s2 ∧ evaluateTangentQuality e1 e2 τ = some .good ∧ ∃ ix js, tangentCircleIndices e1.shape e2.shape = some ix ∧
      Joined e1.shape e2.shape ix js ∧ hull js ≠ convexHull ℝ (region e1.shape ∪ region e2.shape) := by
  refine ⟨pillTip 0, pillTip 1, 1 / 10, 1 / 2, pillX 0, pillX 1, pill_slanted 0, pill_make 0, pill_make 1, ⟨1, rfl⟩, ?_, ?_⟩
  · unfold evaluateTangentQuality
    rw [if_pos]
    refine ⟨?_, rfl, rfl, rfl, rfl, rfl, rfl⟩
    rw [magnitude_eq]
    simp only [pillX, pillTip, zero_sub, norm_neg, norm_one]
    norm_num
  · obtain ⟨ix, js, h1, h2, h3⟩ := C67_moved (pillTip 0) (pillTip 1) (1 / 10) (pillX 0) (pillX 1) (pill_slanted 0) (pill_make 0)
      (pill_make 1) ⟨1, rfl⟩ (by simp [pillTip])
    refine ⟨ix, js, h1, h2, fun e => h3.1 e ?_⟩
    refine ⟨by simp [pillX, pillShape], ?_⟩
    intro c hc d hd
    simp only [pillX, pillShape, List.mem_cons, List.not_mem_nil, or_false] at hc hd
    rcases hc with rfl | rfl <;> rcases hd with rfl | rfl <;> simp [pillTip]

/-- The same tip that moves to its side has the hull. -/
example : ∃ ix js, tangentCircleIndices (pillX 0).shape (pillX Complex.I).shape = some ix ∧
    Joined (pillX 0).shape (pillX Complex.I).shape ix js ∧
    hull js = convexHull ℝ (region (pillX 0).shape ∪ region (pillX Complex.I).shape) := by
  obtain ⟨ix, js, h1, h2, h3⟩ := C67_moved (pillTip 0) (pillTip Complex.I) (1 / 10) (pillX 0) (pillX Complex.I) (pill_slanted 0)
    (pill_make 0) (pill_make Complex.I) ⟨Complex.I, rfl⟩ (by simp [pillTip, Complex.I_ne_zero.symm])
  refine ⟨ix, js, h1, h2, h3.2 ?_⟩
  rintro ⟨-, h⟩
  have := h ⟨(0 : ℂ) + 1, 1⟩ (by simp [pillX, pillShape]) ⟨(0 : ℂ) - 1, 1⟩ (by simp [pillX, pillShape])
  norm_num [pillTip] at this

/-! ## An answer -/

/-- If the circles of two shapes are of the same size, then the evaluation ends with an answer. Missing: circles of two sizes, for which
this is not true. -/
theorem C67_total_partial (s1 s2 : TipState) (m1 m2 τ r : ℝ) (e1 e2 : TipExtrusion) (l1 : Slanted s1) (l2 : Slanted s2)
    (h1 : TipExtrusion.make s1 m1 = some e1) (h2 : TipExtrusion.make s2 m2 = some e2)
    (hr : ∀ c, c ∈ e1.shape.circles ∨ c ∈ e2.shape.circles → c.radius = r) : ∃ q, evaluateTangentQuality e1 e2 τ = some q := by
  obtain ⟨⟨r1, q1⟩, ⟨r2, q2⟩, c1, c2⟩ := shapes h1 h2 l1 l2
  have hr0 : 0 ≤ r := by
    obtain ⟨c, hc⟩ := List.exists_mem_of_ne_nil _ q1.ne
    rw [← hr c (Or.inl hc), q1.radius c hc]; exact q1.pos
  have p1 : Sound e1.shape r := ⟨q1.ne, hr0, fun c hc => hr c (Or.inl hc), q1.apart⟩
  have p2 : Sound e2.shape r := ⟨q2.ne, hr0, fun c hc => hr c (Or.inr hc), q2.apart⟩
  have b1 := make_balanced (tip_make h1).2
  have b2 := make_balanced (tip_make h2).2
  unfold evaluateTangentQuality
  by_cases hs : Vec.magnitude (e1.state.position - e2.state.position) > τ ∧ EqualShapeProperties e1.state e2.state
  · rw [if_pos hs]; exact ⟨_, rfl⟩
  rw [if_neg hs]
  by_cases g1 : region e2.shape ⊆ region e1.shape
  · refine ⟨.firstContainsSecond, ?_⟩
    unfold evaluateInternal
    rw [(c1 true).2 (by simp [g1])]
  by_cases g2 : region e1.shape ⊆ region e2.shape
  · refine ⟨.secondContainsFirst, ?_⟩
    unfold evaluateInternal
    rw [(c1 false).2 (by simp [g1]), (c2 true).2 (by simp [g2])]
  by_cases hone : e1.shape.circles.length = 1 ∧ e2.shape.circles.length = 1
  · refine ⟨.good, ?_⟩
    unfold evaluateInternal
    rw [(c1 false).2 (by simp [g1]), (c2 false).2 (by simp [g2])]
    dsimp only
    rw [if_pos hone]
  obtain ⟨ix, a, b, c, d, hix, ha, hb, hab, hc, hd, hcd⟩ := indices_apart p1 p2 b1 b2 g1 hone
  have lt : ∀ {cs : List Circle} {i : ℕ} {c : Circle}, cs[i]? = some c → i < cs.length := fun h => (List.getElem?_eq_some_iff.1 h).1
  obtain ⟨js, hj⟩ := joined_exists (lt ha) (lt hc) (lt hb) (lt hd)
  have rs : ∀ c ∈ e1.shape.circles, 0 ≤ c.radius := fun c hc => by rw [p1.radius c hc]; exact hr0
  have ro : ∀ c ∈ e2.shape.circles, 0 ≤ c.radius := fun c hc => by rw [p2.radius c hc]; exact hr0
  obtain ⟨ra, rb, -, -, hx, hx0⟩ := margin_exists p1.ne p2.ne rs ro
  generalize joinOffset ra rb = x at hx hx0
  have hr' : ∀ c ∈ enlarged x js, c.radius = r + x := by
    intro c hc
    obtain ⟨d, hd, rfl⟩ := List.mem_map.1 hc
    rw [hr d (joined_mem hj hd)]
  rcases evaluate_rest ((c1 false).2 (by simp [g1])) ((c2 false).2 (by simp [g2])) p1.ne p2.ne rs ro hix hj hx with
    ⟨e, -⟩ | ⟨-, hm⟩ | ⟨arcs, -, e, -⟩ | ⟨arcs, -, e, -⟩
  · exact ⟨_, e⟩
  · exfalso
    rw [C66_make _ (fun c hc => by rw [hr' c hc]; exact add_nonneg hr0 hx0)] at hm
    rcases hm with hm | ⟨i, e, f, hf, hcon⟩
    · rw [enlarged, List.length_map] at hm
      obtain ⟨a, b, ⟨k, -, -, -, ka, -⟩, ⟨l, -, -, -, la, -⟩, rfl⟩ := hj
      rw [List.length_append] at hm
      omega
    · have he0 := hr' e (List.mem_of_getElem? hf.1)
      have hf0 := hr' f (List.mem_of_getElem? hf.2)
      have hne : e.center ≠ f.center := by
        obtain ⟨h3, h4⟩ := hf
        unfold enlarged at h3 h4
        rw [List.length_map] at h4
        rw [List.getElem?_map, Option.map_eq_some_iff] at h3 h4
        obtain ⟨e', h3, rfl⟩ := h3
        obtain ⟨f', h4, rfl⟩ := h4
        exact joined_adjacent p1 p2 hj ha hb hab hc hd hcd (i := i) (e := e') (f := f') ⟨h3, h4⟩
      rcases hcon with g | g
      · exact apart_contains (he0.trans hf0.symm) hne ((contains_iff (by rw [hf0]; exact add_nonneg hr0 hx0)).2 g)
      · exact apart_contains (hf0.trans he0.symm) hne.symm ((contains_iff (by rw [he0]; exact add_nonneg hr0 hx0)).2 g)
  · exact ⟨_, e⟩
  · exact ⟨_, e⟩

/-- Two tips with circles of the same size that are different otherwise. -/
example : ∃ q, evaluateTangentQuality (pillX 0) ⟨⟨1, 2, 2, 1, 0, 0, 0⟩, ⟨1, [⟨1, 1⟩]⟩⟩ 0 = some q := by
  refine C67_total_partial (pillTip 0) ⟨1, 2, 2, 1, 0, 0, 0⟩ (1 / 10) (1 / 10) 0 1 _ _ (pill_slanted 0) (pill_slanted 0) (pill_make 0) ?_ ?_
  · unfold TipExtrusion.make TipShape.make makeShapeControlCircles calculateCircleRadius
    rw [show max (1 / 10 : ℝ) floatMin = 1 / 10 by unfold floatMin; norm_num]
    norm_num
  · intro c hc
    simp only [pillX, pillShape, List.mem_cons, List.not_mem_nil, or_false] at hc
    rcases hc with (rfl | rfl) | rfl <;> rfl

end Verif.RealGeom
